import Verif.Spec.RedBlackPic
import Verif.Proof.RBMap
import Mathlib.Data.List.Perm.Subperm

/-
Pictures of red-black trees: what the validity check and the printing function compute.
-/
namespace Sokoban.RedBlackSpec
open RedBlackTree
variable {K V : Type} {M : Nat} {s : RedBlackTree K V M} {p l r : Pic K} {i c : Nat} {k : K}

/-! ### pictures -/

/-- index of the top node -/
def top : Pic K → Nat
  | .nil => SENTINEL
  | .node _ i _ _ _ => i

@[simp] theorem top_nil : top (.nil : Pic K) = SENTINEL := rfl
@[simp] theorem top_node : top (.node l i c k r) = i := rfl

/-- number of nodes -/
def psize (p : Pic K) : Nat := p.nodes.length

@[simp] theorem psize_nil : psize (.nil : Pic K) = 0 := rfl
@[simp] theorem psize_node : psize (.node l i c k r) = psize l + psize r + 1 := by
  simp [psize, Pic.nodes]; omega

theorem Holds.top_eq (h : Holds s i p) : i = top p := by
  cases p with
  | nil => exact h
  | node l j c k r => exact h.1

theorem Holds.top_zero (h : Holds s i p) : top p = SENTINEL ↔ p = .nil := by
  cases p with
  | nil => simp [top]
  | node l j c k r => simp [top, h.2.1]

/-- what the accessors say about a node of a picture -/
theorem Holds.parts (h : Holds s i (.node l i c k r)) :
    (1 ≤ i ∧ i ≤ M) ∧ s.isRed i = .ok (decide (c = RED)) ∧ s.isBlack i = .ok (decide (c = BLACK)) ∧
    (∃ n, s.getNode i = .ok n ∧ n.key = k) ∧ s.getLeft i = .ok (top l) ∧ s.getRight i = .ok (top r) ∧
    Holds s (top l) l ∧ Holds s (top r) r := by
  obtain ⟨_, h0, hc, hn, ⟨a, ha, hl⟩, b, hb, hr⟩ := h
  have hc' : s.allocator.getRegister i COLOR = .ok c := hc
  have := hl.top_eq; subst this
  have := hr.top_eq; subst this
  refine ⟨?_, ?_, ?_, hn, ha, hb, hl, hr⟩
  · obtain ⟨n, hn, _⟩ := hn
    have : (s.allocator.get i >>= fun n => pure n.value) = Except.ok n := hn
    unfold NodeAllocator.get at this
    split at this
    · omega
    · cases this
  · rw [isRed, hc']; rfl
  · rw [isBlack, hc']; rfl

theorem Holds.idx (h : Holds s i p) : ∀ j ∈ p.nodes.map Prod.fst, 1 ≤ j ∧ j ≤ M := by
  induction p generalizing i with
  | nil => simp [Pic.nodes]
  | node l j c k r ihl ihr =>
    have := h.1; subst this
    obtain ⟨h1, _, _, _, _, _, hl, hr⟩ := Holds.parts h
    intro j hj
    simp only [Pic.nodes, List.map_append, List.map_cons, List.mem_append, List.mem_cons] at hj
    rcases hj with hj | rfl | hj
    · exact ihl hl j hj
    · exact h1
    · exact ihr hr j hj

theorem Pictured.size_le (h : Pictured s p) : psize p ≤ M := by
  have hsub : p.nodes.map Prod.fst ⊆ (List.range M).map (· + 1) := by
    intro j hj
    have := h.1.idx j hj
    simp only [List.mem_map, List.mem_range]
    exact ⟨j - 1, by omega, by omega⟩
  have := (List.Nodup.subperm h.2 hsub).length_le
  simpa [psize] using this

instance : DecidablePred (Pic.Red (K := K)) := fun p => by
  cases p <;> unfold Pic.Red <;> infer_instance

theorem Holds.red (h : Holds s i p) : s.isRed (top p) = .ok (decide p.Red) := by
  cases p with
  | nil => rw [top, isRed_ok (by simp [SENTINEL])]; rfl
  | node l j c k r =>
    have := h.1; subst this
    rw [top, (Holds.parts h).2.1]; rfl

theorem redPair_ok (h : Holds s i p) (b : Bool) :
    s.redPair b (top p) = .ok (b && decide p.Red) := by
  unfold redPair
  cases p with
  | nil => rw [if_neg (by simp)]; cases b <;> rfl
  | node l j c k r =>
    cases b
    · rw [if_neg (by simp)]; rfl
    · rw [if_pos ⟨h.2.1, rfl⟩, h.red]; rfl

theorem isLeaf_ok (h : Holds s i (.node l i c k r)) :
    s.isLeaf i = .ok (decide (top l = SENTINEL ∧ top r = SENTINEL)) := by
  obtain ⟨_, _, _, _, el, er, hl, hr⟩ := Holds.parts h
  unfold isLeaf
  rw [el, except_bind_ok, er, except_bind_ok]
  by_cases h1 : top l = SENTINEL
  · simp [h1]
  · simp [h1]

/-! ### the validity check -/

/-- number of nodes on the stack -/
def ssize : List (Pic K × Nat) → Nat
  | [] => 0
  | e :: st => psize e.1 + ssize st

theorem leafBlacks_inner (h : ¬ (l = .nil ∧ r = .nil)) : (Pic.node l i c k r).leafBlacks =
    (l.leafBlacks ++ r.leafBlacks).map (· + if c = BLACK then 1 else 0) := by
  cases l <;> cases r <;> first | exact absurd ⟨rfl, rfl⟩ h | rfl

theorem validLoop_pic : ∀ (fuel : Nat) (st : List (Pic K × Nat)) (counts : List Nat),
    (∀ e ∈ st, e.1 ≠ .nil ∧ Holds s (top e.1) e.1) → ssize st + 1 ≤ fuel →
    ((∃ e ∈ st, ¬ e.1.NoRedRed) ∧ s.validLoop fuel (st.map fun e => (top e.1, e.2)) counts = .ok none) ∨
    ((∀ e ∈ st, e.1.NoRedRed) ∧
      ∃ counts', s.validLoop fuel (st.map fun e => (top e.1, e.2)) counts = .ok (some counts') ∧
      ∀ n, n ∈ counts' ↔ n ∈ counts ∨ ∃ e ∈ st, ∃ b ∈ e.1.leafBlacks, n = e.2 + b) := by
  intro fuel
  induction fuel with
  | zero => intro st counts _ h; omega
  | succ fuel ih =>
    intro st counts hst hf
    cases st with
    | nil => exact Or.inr ⟨by simp, counts, rfl, by simp⟩
    | cons e st =>
      obtain ⟨p, cnt⟩ := e
      obtain ⟨hne, hp⟩ := hst _ (by simp : (p, cnt) ∈ _)
      have hrest : ∀ e ∈ st, e.1 ≠ .nil ∧ Holds s (top e.1) e.1 := fun e he => hst e (by simp [he])
      cases p with
      | nil => exact absurd rfl hne
      | node l i c k r =>
        simp only [top_node] at hp
        obtain ⟨_, er, eb, _, el, err, hl, hr⟩ := Holds.parts hp
        have eleaf := isLeaf_ok hp
        simp only [ssize, psize_node] at hf
        simp only [List.map_cons, validLoop, top_node, eb, er, el, err, eleaf, except_bind_ok, redPair_ok hl, redPair_ok hr]
        have tl := hl.top_zero
        have tr := hr.top_zero
        have hcn : ∀ b, cnt + (b + if c = BLACK then 1 else 0) = cnt + (if decide (c = BLACK) = true then 1 else 0) + b := by
          intro b; simp only [decide_eq_true_eq]; omega
        generalize cnt + (if decide (c = BLACK) = true then 1 else 0) = cnt' at hcn ⊢
        by_cases hleaf : l = .nil ∧ r = .nil
        · rw [if_pos (by simpa [tl, tr] using hleaf)]
          obtain ⟨rfl, rfl⟩ := hleaf
          have hno : (Pic.node .nil i c k .nil : Pic K).NoRedRed := by simp [Pic.NoRedRed, Pic.Red]
          rcases ih st (counts ++ [cnt']) hrest (by omega) with ⟨⟨e, he, h1⟩, h2⟩ | ⟨h1, counts', h2, h3⟩
          · exact Or.inl ⟨⟨e, by simp [he], h1⟩, h2⟩
          · refine Or.inr ⟨?_, counts', h2, ?_⟩
            · intro e he
              rcases List.mem_cons.1 he with rfl | he
              · exact hno
              · exact h1 e he
            · intro n
              have := hcn 0
              rw [h3]
              have hc' : cnt + (if c = BLACK then 1 else 0) = cnt' := by omega
              simp only [List.mem_append, List.mem_cons, exists_eq_or_imp, Pic.leafBlacks,
                List.not_mem_nil, or_false, exists_eq_left, hc', or_assoc]
        · rw [if_neg (by simpa [tl, tr] using hleaf)]
          have hlb : ∀ n, (∃ b ∈ (Pic.node l i c k r).leafBlacks, n = cnt + b) ↔
              (∃ b ∈ l.leafBlacks, n = cnt' + b) ∨ ∃ b ∈ r.leafBlacks, n = cnt' + b := by
            intro n
            rw [leafBlacks_inner hleaf]
            simp only [List.mem_map, List.mem_append]
            constructor
            · rintro ⟨b, ⟨b', hb | hb, rfl⟩, rfl⟩
              · exact Or.inl ⟨b', hb, hcn b'⟩
              · exact Or.inr ⟨b', hb, hcn b'⟩
            · rintro (⟨b, hb, rfl⟩ | ⟨b, hb, rfl⟩)
              · exact ⟨_, ⟨b, Or.inl hb, rfl⟩, (hcn b).symm⟩
              · exact ⟨_, ⟨b, Or.inr hb, rfl⟩, (hcn b).symm⟩
          by_cases hredl : c = RED ∧ l.Red
          · refine Or.inl ⟨⟨_, List.mem_cons_self, fun h => (h.1 hredl.1).1 hredl.2⟩, ?_⟩
            rw [if_pos (by simpa using hredl)]; rfl
          by_cases hredr : c = RED ∧ r.Red
          · refine Or.inl ⟨⟨_, List.mem_cons_self, fun h => (h.1 hredr.1).2 hredr.2⟩, ?_⟩
            rw [if_neg (by simpa using hredl), if_pos (by simpa using hredr)]; rfl
          rw [if_neg (by simpa using hredl), if_neg (by simpa using hredr)]
          have hnr : (Pic.node l i c k r).NoRedRed ↔ l.NoRedRed ∧ r.NoRedRed :=
            ⟨fun h => h.2, fun h => ⟨fun hc => ⟨fun h' => hredl ⟨hc, h'⟩, fun h' => hredr ⟨hc, h'⟩⟩, h⟩⟩
          -- the stack after this step
          have key : ∀ st' : List (Pic K × Nat),
              (∀ e, e ∈ st' ↔ (l ≠ .nil ∧ e = (l, cnt')) ∨ (r ≠ .nil ∧ e = (r, cnt')) ∨ e ∈ st) →
              ssize st' + 1 ≤ fuel →
              ((∃ e ∈ (Pic.node l i c k r, cnt) :: st, ¬ e.1.NoRedRed) ∧
                s.validLoop fuel (st'.map fun e => (top e.1, e.2)) counts = .ok none) ∨
              ((∀ e ∈ (Pic.node l i c k r, cnt) :: st, e.1.NoRedRed) ∧
                ∃ counts', s.validLoop fuel (st'.map fun e => (top e.1, e.2)) counts = .ok (some counts') ∧
                ∀ n, n ∈ counts' ↔ n ∈ counts ∨
                  ∃ e ∈ (Pic.node l i c k r, cnt) :: st, ∃ b ∈ e.1.leafBlacks, n = e.2 + b) := by
            intro st' hm hf'
            have hnil : (Pic.nil : Pic K).NoRedRed := trivial
            rcases ih st' counts (by
              intro e he
              rcases (hm e).1 he with ⟨h, rfl⟩ | ⟨h, rfl⟩ | he
              · exact ⟨h, hl⟩
              · exact ⟨h, hr⟩
              · exact hrest e he) hf' with ⟨⟨e, he, h1⟩, h2⟩ | ⟨h1, counts', h2, h3⟩
            · refine Or.inl ⟨?_, h2⟩
              rcases (hm e).1 he with ⟨h, rfl⟩ | ⟨h, rfl⟩ | he
              · exact ⟨_, List.mem_cons_self, fun h => h1 (hnr.1 h).1⟩
              · exact ⟨_, List.mem_cons_self, fun h => h1 (hnr.1 h).2⟩
              · exact ⟨e, List.mem_cons_of_mem _ he, h1⟩
            · refine Or.inr ⟨?_, counts', h2, ?_⟩
              · intro e he
                rcases List.mem_cons.1 he with rfl | he
                · refine hnr.2 ⟨?_, ?_⟩
                  · by_cases h : l = .nil
                    · rw [h]; exact hnil
                    · exact h1 (l, cnt') ((hm _).2 (Or.inl ⟨h, rfl⟩))
                  · by_cases h : r = .nil
                    · rw [h]; exact hnil
                    · exact h1 (r, cnt') ((hm _).2 (Or.inr (Or.inl ⟨h, rfl⟩)))
                · exact h1 e ((hm _).2 (Or.inr (Or.inr he)))
              · intro n
                rw [h3]
                refine or_congr_right ?_
                simp only [List.mem_cons, exists_eq_or_imp]
                rw [hlb, or_assoc]
                constructor
                · rintro ⟨e, he, b, hb, rfl⟩
                  rcases (hm e).1 he with ⟨h, rfl⟩ | ⟨h, rfl⟩ | he
                  · exact Or.inl ⟨b, hb, rfl⟩
                  · exact Or.inr (Or.inl ⟨b, hb, rfl⟩)
                  · exact Or.inr (Or.inr ⟨e, he, b, hb, rfl⟩)
                · rintro (⟨b, hb, rfl⟩ | ⟨b, hb, rfl⟩ | ⟨e, he, b, hb, rfl⟩)
                  · exact ⟨_, (hm (l, cnt')).2 (Or.inl ⟨by rintro rfl; simp [Pic.leafBlacks] at hb, rfl⟩), b, hb, rfl⟩
                  · exact ⟨_, (hm (r, cnt')).2 (Or.inr (Or.inl ⟨by rintro rfl; simp [Pic.leafBlacks] at hb, rfl⟩)), b, hb, rfl⟩
                  · exact ⟨e, (hm e).2 (Or.inr (Or.inr he)), b, hb, rfl⟩
          by_cases hl0 : l = .nil
          · subst hl0
            have hr0 : r ≠ .nil := fun h => hleaf ⟨rfl, h⟩
            rw [if_neg (fun h => hr0 (tr.1 h)), if_pos top_nil]
            exact key ((r, cnt') :: st) (by intro e; simp [hr0]) (by simp [ssize]; simp at hf; omega)
          · by_cases hr0 : r = .nil
            · subst hr0
              rw [if_pos top_nil, if_neg (fun h => hl0 (tl.1 h))]
              exact key ((l, cnt') :: st) (by intro e; simp [hl0]) (by simp [ssize]; simp at hf; omega)
            · rw [if_neg (fun h => hr0 (tr.1 h)), if_neg (fun h => hl0 (tl.1 h))]
              exact key ((r, cnt') :: (l, cnt') :: st) (by
                intro e; simp only [List.mem_cons, hl0, hr0, ne_eq, not_false_eq_true, true_and]
                exact or_left_comm) (by simp [ssize]; omega)

/-- what the check accepts -/
theorem isValid_pic (h : Pictured s p) (hp : p ≠ .nil) (hlen : s.len ≠ 0) :
    ∃ b, s.isValid = .ok b ∧
      (b = true ↔ ¬ p.Red ∧ p.NoRedRed ∧ ∀ a ∈ p.leafBlacks, ∀ b ∈ p.leafBlacks, a = b) := by
  have hsz := h.size_le
  obtain ⟨h, _⟩ := h
  have hroot := h.top_eq
  rw [hroot] at h
  unfold isValid
  rw [if_neg hlen, hroot, h.red, except_bind_ok]
  by_cases hred : p.Red
  · exact ⟨false, by simp [hred], by simp [hred]⟩
  · simp only [hred, decide_false, Bool.false_eq_true, if_false]
    rcases validLoop_pic (s := s) (M + 1) [(p, 0)] [] (by simpa using ⟨hp, h⟩) (by simp [ssize]; omega) with
      ⟨h1, h2⟩ | ⟨h1, cs, h2, h3⟩
    · simp only [List.map_cons, List.map_nil] at h2
      refine ⟨false, by rw [h2]; rfl, ?_⟩
      simp at h1
      simp [h1]
    · simp only [List.map_cons, List.map_nil] at h2
      simp at h1 h3
      refine ⟨cs.all fun x => some x == cs.head?, by rw [h2]; rfl, ?_⟩
      simp only [not_false_eq_true, h1, true_and]
      have : (∀ a ∈ p.leafBlacks, ∀ b ∈ p.leafBlacks, a = b) ↔ ∀ a ∈ cs, ∀ b ∈ cs, a = b := by
        simp only [h3]
      rw [this, List.all_eq_true]
      cases cs with
      | nil => simp
      | cons a cs =>
        simp only [List.head?_cons, beq_iff_eq, Option.some.injEq]
        constructor
        · intro h x hx y hy; rw [h x hx, h y hy]
        · intro h x hx; exact h x hx a (by simp)

/-- a red-black tree is accepted: the paths to nodes without children are among the paths to missing ones -/
theorem leafBlacks_sub : ∀ p : Pic K, ∀ a ∈ p.leafBlacks, a ∈ p.nilBlacks := by
  intro p
  induction p with
  | nil => simp [Pic.leafBlacks]
  | node l i c k r ihl ihr =>
    intro a ha
    by_cases hleaf : l = .nil ∧ r = .nil
    · obtain ⟨rfl, rfl⟩ := hleaf
      simpa [Pic.leafBlacks, Pic.nilBlacks] using ha
    · rw [leafBlacks_inner hleaf] at ha
      simp only [List.mem_map, List.mem_append, Pic.nilBlacks] at ha ⊢
      obtain ⟨b, hb | hb, rfl⟩ := ha
      · exact ⟨b, Or.inl (ihl b hb), rfl⟩
      · exact ⟨b, Or.inr (ihr b hb), rfl⟩

/-! ### printing -/

/-- the text of what is on the stack -/
def renderAll (debug : K → String) : List (Pic K × String × String) → String
  | [] => ""
  | e :: st => e.1.render debug e.2.1 e.2.2 ++ renderAll debug st

/-- loop iterations for what is on the stack -/
def pops : List (Pic K × String × String) → Nat
  | [] => 0
  | e :: st => 2 * psize e.1 + 1 + pops st

theorem leftPointer_eq (h : Holds s i p) : (if top p ≠ SENTINEL then "├──" else "└──") =
    p.leftPointer := by
  cases p with
  | nil => simp [Pic.leftPointer]
  | node a b c d e => exact if_pos h.2.1

theorem prettyLoop_pic (debug : K → String) : ∀ (fuel : Nat) (st : List (Pic K × String × String)) (str : String),
    (∀ e ∈ st, Holds s (top e.1) e.1) → pops st + 1 ≤ fuel →
    s.prettyLoop debug fuel (st.map fun e => (top e.1, e.2)) str = .ok (str ++ renderAll debug st) := by
  intro fuel
  induction fuel with
  | zero => intro st str _ h; omega
  | succ fuel ih =>
    intro st str hst hf
    cases st with
    | nil => simp [prettyLoop, renderAll]
    | cons e st =>
      obtain ⟨p, pad, ptr⟩ := e
      have hp := hst _ (by simp : (p, pad, ptr) ∈ _)
      have hrest : ∀ e ∈ st, Holds s (top e.1) e.1 := fun e he => hst e (by simp [he])
      cases p with
      | nil =>
        simp only [List.map_cons, prettyLoop, top_nil, if_true]
        simp only [pops, psize_nil] at hf
        rw [ih st str hrest (by omega)]
        simp [renderAll, Pic.render]
      | node l i c k r =>
        simp only [top_node] at hp
        obtain ⟨⟨h1, _⟩, er, _, ⟨n, en, rfl⟩, el, err, hl, hr⟩ := Holds.parts hp
        simp only [pops, psize_node] at hf
        simp only [List.map_cons, prettyLoop, top_node]
        rw [if_neg (show ¬ i = SENTINEL by simp [SENTINEL]; omega)]
        simp only [en, er, el, err, except_bind_ok]
        have := ih ((l, pad ++ "│  ", if top r ≠ SENTINEL then "├──" else "└──") :: (r, pad ++ "│  ", "└──") :: st)
          ((if decide (c = RED) = true then str ++ pad ++ ptr ++ ("\u001b[31m" ++ debug n.key ++ "\u001b[0m")
            else str ++ pad ++ ptr ++ debug n.key) ++ "\n") (by
          intro e he
          rcases List.mem_cons.1 he with rfl | he
          · exact hl
          · rcases List.mem_cons.1 he with rfl | he
            · exact hr
            · exact hrest e he) (by simp only [pops]; omega)
        simp only [List.map_cons] at this
        rw [this]
        simp only [renderAll, Pic.render, leftPointer_eq hr, decide_eq_true_eq]
        split <;> simp [String.append_assoc]

theorem prettyPrint_pic (debug : K → String) (h : Pictured s p) (hlen : s.len ≠ 0) :
    s.prettyPrint debug = .ok (p.render debug "" "" ++ "\n") := by
  have hsz := h.size_le
  have hh := h.1
  have hroot := hh.top_eq
  rw [hroot] at hh
  unfold prettyPrint
  have := prettyLoop_pic (s := s) debug (2 * M + 2) [(p, "", "")] "" (by simpa using hh) (by simp [pops]; omega)
  simp only [List.map_cons, List.map_nil] at this
  rw [if_neg hlen, hroot, this]
  simp [renderAll]

/-! ### reachable trees -/
open BT

/-- the picture of a ghost tree -/
def toPic : BT K V → Pic K
  | .nil => .nil
  | .node l x r => .node (toPic l) x.idx x.tag x.key (toPic r)

theorem top_toPic (t : BT K V) : top (toPic t) = t.root := by cases t <;> rfl

theorem nodes_toPic (t : BT K V) : (toPic t).nodes = t.ents.map fun e => (e.1, e.2.1) := by
  induction t with
  | nil => rfl
  | node l x r ihl ihr => simp [toPic, Pic.nodes, ihl, ihr, GN.ent]

theorem holds_toPic {kn : Known} : ∀ {t : BT K V} {c : Ctx K V} {X E : List (Nat × K × V)}, Z s c t X E →
    Holds s t.root (toPic t) := by
  intro t
  induction t with
  | nil => intro c X E _; rfl
  | node l x r ihl ihr =>
    intro c X E h
    have hx := h.rng (Or.inl (by simp : x.idx ∈ (BT.node l x r).ids))
    refine ⟨rfl, by simp [SENTINEL]; omega, ?_, ⟨_, h.getNode, rfl⟩, ⟨_, h.getLeft, ihl (Z.down (d := false) h)⟩,
      ⟨_, h.getRight, ihr (Z.down (d := true) h)⟩⟩
    rw [getColor_ok hx.2, h.shape.2.2.2.1]

theorem nilBlacks_toPic : ∀ {t : BT K V} {n : Nat}, RB t n → ∀ a ∈ (toPic t).nilBlacks, a = n := by
  intro t
  induction t with
  | nil => intro n h a ha; simp [toPic, Pic.nilBlacks] at ha; rw [ha]; exact h.symm
  | node l x r ihl ihr =>
    intro n h a ha
    simp only [toPic, Pic.nilBlacks, List.mem_map, List.mem_append] at ha
    rcases h with ⟨h1, _, _, h4, h5⟩ | ⟨h1, m, h2, h4, h5⟩
    · obtain ⟨b, hb | hb, rfl⟩ := ha
      · simp [h1, BLACK, ihl h4 b hb]
      · simp [h1, BLACK, ihr h5 b hb]
    · obtain ⟨b, hb | hb, rfl⟩ := ha
      · simp [h1, BLACK, ihl h4 b hb, h2]
      · simp [h1, BLACK, ihr h5 b hb, h2]

theorem red_toPic {t : BT K V} : (toPic t).Red ↔ t.tag = 1 := by
  cases t <;> simp [toPic, Pic.Red, RED]

theorem noRedRed_toPic : ∀ {t : BT K V} {n : Nat}, RB t n → (toPic t).NoRedRed := by
  intro t
  induction t with
  | nil => intro n _; trivial
  | node l x r ihl ihr =>
    intro n h
    rcases h with ⟨h1, h2, h3, h4, h5⟩ | ⟨h1, m, h2, h4, h5⟩
    · exact ⟨fun _ => by rw [red_toPic, red_toPic]; omega, ihl h4, ihr h5⟩
    · exact ⟨(fun h => by rw [h1] at h; cases h), ihl h4, ihr h5⟩

/-- every reachable tree has a picture -/
theorem Inv.picture [LinearOrder K] {E : Ents K V} (h : Inv s E) :
    ∃ p, Pictured s p ∧ p.IsRedBlack ∧ p.nodes = E.map fun e => (e.1, e.2.1) := by
  obtain ⟨t, hz, ⟨n, h1, _, _, h4⟩, _⟩ := h
  have hE := hz.ents
  simp only [Ctx.lft, Ctx.rgt, List.nil_append, List.append_nil] at hE
  refine ⟨toPic t, ⟨?_, ?_⟩, ⟨?_, noRedRed_toPic h1, fun a ha b hb => ?_⟩, by rw [nodes_toPic, hE]⟩
  · rw [hz.root]; exact holds_toPic hz
  · rw [nodes_toPic, hE]
    have := hz.base.nodup
    simpa [List.map_map, Function.comp_def] using this
  · rw [red_toPic, h4 rfl]; decide
  · rw [nilBlacks_toPic h1 a ha, nilBlacks_toPic h1 b hb]

/-! ### a chain of black nodes -/

/-- memory with a chain of black nodes to the left, keys in order -/
def chain (v : V) : RedBlackTree Nat V M where
  root := 1
  allocator :=
    { size := M, bumpIndex := M + 1, freeListHead := M + 1
      nodes := Vector.ofFn fun i : Fin M =>
        { registers := #v[if i.val + 1 = M then 0 else i.val + 2, 0, i.val, 0], value := ⟨M - i.val, v⟩ } }

/-- its picture from node `i + 1` on, `n` nodes -/
def chainPic (M : Nat) : Nat → Nat → Pic Nat
  | _, 0 => .nil
  | i, n + 1 => .node (chainPic M (i + 1) n) (i + 1) BLACK (M - i) .nil

theorem chain_holds (v : V) : ∀ n i, i + n = M → 0 < n →
    Holds (chain v : RedBlackTree Nat V M) (i + 1) (chainPic M i n) := by
  intro n
  induction n with
  | zero => intro i _ h; omega
  | succ n ih =>
    intro i hi _
    have h1 : i < M := by omega
    have hg : (chain v : RedBlackTree Nat V M).allocator.get (i + 1) =
        .ok { registers := #v[if i + 1 = M then 0 else i + 2, 0, i, 0], value := ⟨M - i, v⟩ } := by
      unfold NodeAllocator.get
      rw [dif_pos ⟨by omega, by omega⟩]
      simp [chain]
    have hreg : ∀ q (hq : q < 4), (chain v : RedBlackTree Nat V M).allocator.getRegister (i + 1) q =
        .ok (#v[if i + 1 = M then 0 else i + 2, 0, i, 0][q]) := by
      intro q hq
      unfold NodeAllocator.getRegister
      rw [if_pos (by simp [SENTINEL]), hg]
      simp only [except_bind_ok, Node.getRegister]
      rw [dif_pos hq]
    refine ⟨rfl, by simp [SENTINEL], hreg 3 (by omega), ⟨⟨M - i, v⟩, ?_, rfl⟩, ⟨_, hreg 0 (by omega), ?_⟩,
      _, hreg 1 (by omega), rfl⟩
    · show (do return (← NodeAllocator.get _ _).value) = _
      rw [hg]; rfl
    · show Holds _ (if i + 1 = M then 0 else i + 2) _
      by_cases h0 : n = 0
      · subst h0; rw [if_pos (by omega)]; rfl
      · rw [if_neg (by omega)]; exact ih (i + 1) (by omega) (by omega)

theorem chainPic_nodes : ∀ n i j, j ∈ (chainPic M i n).nodes.map Prod.fst ↔ i < j ∧ j ≤ i + n := by
  intro n
  induction n with
  | zero => intro i j; simp [chainPic, Pic.nodes]
  | succ n ih =>
    intro i j
    simp only [chainPic, Pic.nodes, List.map_append, List.mem_append, ih, List.map_cons, List.map_nil,
      List.mem_singleton]
    omega

theorem chainPic_length : ∀ n i, (chainPic M i n).nodes.length = n := by
  intro n
  induction n with
  | zero => intro i; rfl
  | succ n ih => intro i; simp [chainPic, Pic.nodes, ih]

theorem chainPic_nodup : ∀ n i, ((chainPic M i n).nodes.map Prod.fst).Nodup := by
  intro n
  induction n with
  | zero => intro i; simp [chainPic, Pic.nodes]
  | succ n ih =>
    intro i
    simp only [chainPic, Pic.nodes, List.map_append, List.map_cons, List.map_nil]
    refine List.nodup_append.2 ⟨ih (i + 1), by simp, ?_⟩
    intro a ha b hb
    have := (chainPic_nodes n (i + 1) a).1 ha
    simp at hb; omega

theorem chainPic_keys : ∀ n i, i + n ≤ M →
    ((chainPic M i n).nodes.map Prod.snd).Pairwise (· < ·) ∧
    ∀ k ∈ (chainPic M i n).nodes.map Prod.snd, k ≤ M - i := by
  intro n
  induction n with
  | zero => intro i; simp [chainPic, Pic.nodes]
  | succ n ih =>
    intro i hi
    obtain ⟨h1, h2⟩ := ih (i + 1) (by omega)
    simp only [chainPic, Pic.nodes, List.map_append, List.map_cons, List.map_nil]
    refine ⟨List.pairwise_append.2 ⟨h1, by simp, ?_⟩, ?_⟩
    · intro a ha b hb
      have := h2 a ha
      simp at hb; omega
    · intro k hk
      rcases List.mem_append.1 hk with hk | hk
      · have := h2 k hk; omega
      · simp at hk; omega

theorem chainPic_facts : ∀ n i, (chainPic M i (n + 1)).NoRedRed ∧ ¬ (chainPic M i (n + 1)).Red ∧
    (chainPic M i (n + 1)).leafBlacks = [n + 1] ∧ (chainPic M i (n + 1)).height = n + 1 ∧
    n + 1 ∈ (chainPic M i (n + 1)).nilBlacks ∧ 1 ∈ (chainPic M i (n + 1)).nilBlacks := by
  intro n
  induction n with
  | zero =>
    intro i
    simp [chainPic, Pic.NoRedRed, Pic.Red, Pic.leafBlacks, Pic.height, Pic.nilBlacks, RED, BLACK]
  | succ n ih =>
    intro i
    obtain ⟨h1, h2, h3, h4, h5, _⟩ := ih (i + 1)
    have hne : ¬ (chainPic M (i + 1) (n + 1) = .nil ∧ (Pic.nil : Pic Nat) = .nil) := by simp [chainPic]
    rw [chainPic]
    refine ⟨⟨fun h => by simp [BLACK, RED] at h, h1, trivial⟩, by simp [Pic.Red, BLACK, RED], ?_, by simp [Pic.height, h4], ?_, ?_⟩
    · rw [leafBlacks_inner hne, h3]; rfl
    · simp only [Pic.nilBlacks, List.mem_map, List.mem_append]
      exact ⟨n + 1, Or.inl h5, rfl⟩
    · simp only [Pic.nilBlacks, List.mem_map, List.mem_append]
      exact ⟨0, Or.inr (by simp), rfl⟩

end Sokoban.RedBlackSpec
