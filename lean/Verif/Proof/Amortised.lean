import Verif.Proof.Textbook
import Verif.Spec.Amortised
import Verif.Proof.RBLaws

/-
A potential for the colours of red-black trees: the algebraic functions of `Spec/Textbook` change few colours on average.
-/
namespace Sokoban.Textbook.RBTree
variable {K : Type}

/-- the keys in order, with their colours -/
def tags : RBTree K → List (K × Bool)
  | leaf => []
  | node c l k r => l.tags ++ (k, c) :: r.tags

/-- the potential of a black node: its children have the same colour -/
def wt (a b : Bool) : Nat := if a then (if b then 2 else 0) else (if b then 0 else 1)

/-- the potential of a tree -/
def pot : RBTree K → Nat
  | leaf => 0
  | node true l _ r => l.pot + r.pot
  | node false l _ r => wt l.isRed r.isRed + l.pot + r.pot

theorem red_leaf : (leaf : RBTree K).isRed = false := rfl
theorem red_node (c : Bool) (l : RBTree K) (k : K) (r : RBTree K) : (node c l k r).isRed = c := rfl
theorem pot_leaf : (leaf : RBTree K).pot = 0 := rfl
theorem pot_red (l : RBTree K) (k : K) (r : RBTree K) : (node true l k r).pot = l.pot + r.pot := rfl
theorem pot_black (l : RBTree K) (k : K) (r : RBTree K) :
    (node false l k r).pot = wt l.isRed r.isRed + l.pot + r.pot := rfl
theorem red_blacken (t : RBTree K) : t.blacken.isRed = false := by cases t <;> rfl
theorem wt_le (a b : Bool) : wt a b ≤ 2 := by cases a <;> cases b <;> decide
theorem wt_ff : wt false false = 1 := rfl
theorem wt_ft : wt false true = 0 := rfl
theorem wt_tf : wt true false = 0 := rfl
theorem wt_tt : wt true true = 2 := rfl
theorem wt_comm (a b : Bool) : wt a b = wt b a := by cases a <;> cases b <;> rfl

/-- no red child of a red node, and the black height -/
def Ok : RBTree K → Nat → Prop
  | leaf, n => n = 0
  | node true l _ r, n => l.isRed = false ∧ r.isRed = false ∧ l.Ok n ∧ r.Ok n
  | node false l _ r, n => ∃ m, n = m + 1 ∧ l.Ok m ∧ r.Ok m

/-- `T'` has few colours that `T` does not have, paid by the potential and `d` -/
def Cost (T' T : RBTree K) (d : Nat) : Prop :=
  ∃ D : List (K × Bool), (∀ e ∈ T'.tags, e ∈ T.tags ∨ e ∈ D) ∧ D.length + 3 * T'.pot ≤ 3 * T.pot + d

theorem Cost.refl (T : RBTree K) (d : Nat) : Cost T T d := ⟨[], fun e he => Or.inl he, by simp⟩

theorem Cost.mono {T' T : RBTree K} {d d' : Nat} (h : Cost T' T d) (hd : d ≤ d') : Cost T' T d' := by
  obtain ⟨D, h1, h2⟩ := h
  exact ⟨D, h1, by omega⟩

theorem Ok.blacken_pot {t : RBTree K} {n : Nat} (h : t.Ok n) (hr : t.isRed = true) : t.blacken.pot = t.pot + 1 := by
  cases t with
  | leaf => cases hr
  | node c l k r =>
    cases c with
    | false => cases hr
    | true =>
      obtain ⟨h1, h2, _⟩ := h
      show (node false l k r).pot = _
      rw [pot_black, pot_red, h1, h2, wt_ff]; omega

/-- the root of a red tree becomes black -/
theorem Cost.blacken {T' T : RBTree K} {d : Nat} (h : Cost T' T d) : Cost T'.blacken T (if T'.isRed then d + 7 else d) := by
  cases T' with
  | leaf => exact h
  | node c l k r =>
    cases c with
    | false => exact h
    | true =>
      obtain ⟨D, h1, h2⟩ := h
      refine ⟨(k, false) :: D, ?_, ?_⟩
      · intro e he
        simp only [RBTree.blacken, tags, List.mem_append, List.mem_cons] at he h1 ⊢
        rcases he with he | rfl | he
        · rcases h1 e (Or.inl he) with q | q <;> simp [q]
        · simp
        · rcases h1 e (Or.inr (Or.inr he)) with q | q <;> simp [q]
      · have hw := wt_le l.isRed r.isRed
        show _ + 3 * (node false l k r).pot ≤ _
        rw [pot_red] at h2
        rw [pot_black, red_node, if_pos rfl, List.length_cons]
        omega

/-! ### insertion -/

/-- what `ins` makes of a tree -/
def InsOk (T T' : RBTree K) : Prop :=
  (T.isRed = false ∧ T'.isRed = false ∧ Cost T' T 9) ∨
  (T.isRed = false ∧ ∃ a x b, T' = node true a x b ∧ a.isRed = false ∧ b.isRed = false ∧ Cost T' T 1) ∨
  (T.isRed = true ∧ ∃ a x b, T' = node true a x b ∧ a.isRed = false ∧ b.isRed = false ∧ Cost T' T 9) ∨
  (T.isRed = true ∧ ∃ a x b, T' = node true a x b ∧ a.isRed = !b.isRed ∧ Cost T' T 1)

/-- the changes on the left side -/
theorem Cost.left {l' l r : RBTree K} {x : K} {c : Bool} {d d' : Nat} (h : Cost l' l d)
    (hp : 3 * (node c l' x r).pot + 3 * l.pot + d ≤ 3 * (node c l x r).pot + 3 * l'.pot + d') :
    Cost (node c l' x r) (node c l x r) d' := by
  obtain ⟨D, h1, h2⟩ := h
  refine ⟨D, ?_, by omega⟩
  intro e he
  simp only [tags, List.mem_append, List.mem_cons] at he ⊢
  rcases he with he | he | he
  · rcases h1 e he with q | q <;> simp [q]
  · simp [he]
  · simp [he]

theorem Cost.right {r' l r : RBTree K} {x : K} {c : Bool} {d d' : Nat} (h : Cost r' r d)
    (hp : 3 * (node c l x r').pot + 3 * r.pot + d ≤ 3 * (node c l x r).pot + 3 * r'.pot + d') :
    Cost (node c l x r') (node c l x r) d' := by
  obtain ⟨D, h1, h2⟩ := h
  refine ⟨D, ?_, by omega⟩
  intro e he
  simp only [tags, List.mem_append, List.mem_cons] at he ⊢
  rcases he with he | he | he
  · simp [he]
  · simp [he]
  · rcases h1 e he with q | q <;> simp [q]

theorem red_form {t : RBTree K} (h : t.isRed = true) : ∃ a k b, t = node true a k b := by
  cases t with
  | leaf => cases h
  | node c a k b => simp only [isRed] at h; subst h; exact ⟨a, k, b, rfl⟩

theorem InsOk.fixL {l l' r : RBTree K} {x : K} {n : Nat} (hr : r.Ok n) (h : InsOk l l') :
    InsOk (node false l x r) (RBTree.fixL l' x r) := by
  have plain : (∀ a y b, l' = node true a y b → a.isRed = false ∧ b.isRed = false) → RBTree.fixL l' x r = node false l' x r := by
    intro hp
    cases l' with
    | leaf => rfl
    | node c a y b =>
      cases c with
      | false => rfl
      | true =>
        obtain ⟨h1, h2⟩ := hp a y b rfl
        cases a with
        | leaf =>
          cases b with
          | leaf => rfl
          | node c' _ _ _ => simp only [isRed] at h2; subst h2; rfl
        | node c' _ _ _ =>
          simp only [isRed] at h1; subst h1
          cases b with
          | leaf => rfl
          | node c' _ _ _ => simp only [isRed] at h2; subst h2; rfl
  rcases h with ⟨h1, h2, h3⟩ | ⟨h1, a, y, b, rfl, h2, h4, h3⟩ | ⟨h1, a, y, b, rfl, h2, h4, h3⟩ | ⟨h1, a, y, b, rfl, h2, h3⟩
  · rw [plain (by rintro a y b rfl; cases h2)]
    exact Or.inl ⟨rfl, rfl, h3.left (by simp only [pot_black, h1, h2]; omega)⟩
  · rw [plain (by rintro a' y' b' q; cases q; exact ⟨h2, h4⟩)]
    refine Or.inl ⟨rfl, rfl, h3.left ?_⟩
    simp only [pot_black, red_node, h1]
    have : wt true r.isRed ≤ 2 := wt_le _ _
    omega
  · rw [plain (by rintro a' y' b' q; cases q; exact ⟨h2, h4⟩)]
    exact Or.inl ⟨rfl, rfl, h3.left (by simp only [pot_black, h1, red_node]; omega)⟩
  · obtain ⟨D, hD, hp⟩ := h3
    rw [pot_red] at hp
    have mem : ∀ e, e ∈ a.tags ∨ e ∈ b.tags → e ∈ l.tags ∨ e ∈ D := by
      intro e he
      apply hD
      simp only [tags, List.mem_append, List.mem_cons]
      rcases he with he | he
      · exact Or.inl he
      · exact Or.inr (Or.inr he)
    by_cases hrr : r.isRed = true
    · have e : RBTree.fixL (node true a y b) x r = node true (node false a y b) x r.blacken := by
        by_cases ha : a.isRed = true
        · obtain ⟨a1, z, a2, rfl⟩ := red_form ha
          simp only [RBTree.fixL, hrr, if_true]
        · have ha : a.isRed = false := by simpa using ha
          rw [ha] at h2
          obtain ⟨b1, z, b2, rfl⟩ := red_form (t := b) (by simpa using h2.symm)
          cases a with
          | leaf => simp only [RBTree.fixL, hrr, if_true]
          | node ca a1 w a2 => rw [red_node] at ha; subst ha; simp only [RBTree.fixL, hrr, if_true]
      rw [e]
      refine Or.inr (Or.inl ⟨rfl, _, _, _, rfl, rfl, red_blacken r, ?_⟩)
      have hbp := hr.blacken_pot hrr
      obtain ⟨r1, z, r2, rfl⟩ := red_form hrr
      refine ⟨(y, false) :: (x, true) :: (z, false) :: D, ?_, ?_⟩
      · intro e he
        simp only [RBTree.blacken, tags, List.mem_append, List.mem_cons] at he ⊢
        rcases he with (he | he | he) | he | he | he | he
        · rcases mem e (Or.inl he) with q | q <;> simp [q]
        · simp [he]
        · rcases mem e (Or.inr he) with q | q <;> simp [q]
        · simp [he]
        · simp [he]
        · simp [he]
        · simp [he]
      · have hw : wt a.isRed b.isRed = 0 := by rw [h2]; cases b.isRed <;> rfl
        rw [pot_red, pot_black, hbp, hw, pot_black, h1, red_node, wt_tt]
        simp only [List.length_cons]
        omega
    · have hrr : r.isRed = false := by simpa using hrr
      refine Or.inl ?_
      by_cases ha : a.isRed = true
      · have e : RBTree.fixL (node true a y b) x r = node false a y (node true b x r) := by
          obtain ⟨a1, z, a2, rfl⟩ := red_form ha
          simp only [RBTree.fixL, hrr]; rfl
        rw [e]
        refine ⟨rfl, rfl, (y, false) :: (x, true) :: D, ?_, ?_⟩
        · intro e he
          simp only [tags, List.mem_append, List.mem_cons] at he ⊢
          rcases he with he | he | he | he | he
          · rcases mem e (Or.inl he) with q | q <;> simp [q]
          · simp [he]
          · rcases mem e (Or.inr he) with q | q <;> simp [q]
          · simp [he]
          · simp [he]
        · rw [pot_black, pot_red, red_node, ha, wt_tt, pot_black, h1, hrr, wt_tf]
          simp only [List.length_cons]
          omega
      · have ha : a.isRed = false := by simpa using ha
        rw [ha] at h2
        obtain ⟨b1, z, b2, rfl⟩ := red_form (t := b) (by simpa using h2.symm)
        have e : RBTree.fixL (node true a y (node true b1 z b2)) x r = node false (node true a y b1) z (node true b2 x r) := by
          cases a with
          | leaf => simp only [RBTree.fixL, hrr]; rfl
          | node ca a1 w a2 => rw [red_node] at ha; subst ha; simp only [RBTree.fixL, hrr]; rfl
        have hold : (y, true) ∈ l.tags ∨ (y, true) ∈ D := hD _ (by simp [tags])
        rw [e]
        refine ⟨rfl, rfl, (z, false) :: (x, true) :: D, ?_, ?_⟩
        · intro e he
          simp only [tags, List.mem_append, List.mem_cons] at he mem ⊢
          rcases he with (he | he | he) | he | he | he | he
          · rcases mem e (Or.inl he) with q | q <;> simp [q]
          · subst he; rcases hold with q | q <;> simp [q]
          · rcases mem e (Or.inr (Or.inl he)) with q | q <;> simp [q]
          · simp [he]
          · rcases mem e (Or.inr (Or.inr (Or.inr he))) with q | q <;> simp [q]
          · simp [he]
          · simp [he]
        · rw [pot_red] at hp
          rw [pot_black, pot_red, pot_red, red_node, red_node, wt_tt, pot_black, h1, hrr, wt_tf]
          simp only [List.length_cons]
          omega

/-! ### mirror images -/

/-- the mirror image -/
def flip : RBTree K → RBTree K
  | leaf => leaf
  | node c l k r => node c r.flip k l.flip

theorem flip_node (c : Bool) (l : RBTree K) (k : K) (r : RBTree K) : (node c l k r).flip = node c r.flip k l.flip := rfl
theorem flip_flip (t : RBTree K) : t.flip.flip = t := by
  induction t with
  | leaf => rfl
  | node c l k r h1 h2 => rw [flip_node, flip_node, h1, h2]
theorem red_flip (t : RBTree K) : t.flip.isRed = t.isRed := by cases t <;> rfl
theorem blacken_flip (t : RBTree K) : t.flip.blacken = t.blacken.flip := by cases t <;> rfl
theorem pot_flip (t : RBTree K) : t.flip.pot = t.pot := by
  induction t with
  | leaf => rfl
  | node c l k r h1 h2 =>
    cases c
    · rw [flip_node, pot_black, pot_black, h1, h2, red_flip, red_flip, wt_comm]; omega
    · rw [flip_node, pot_red, pot_red, h1, h2]; omega
theorem mem_flip {t : RBTree K} {e : K × Bool} : e ∈ t.flip.tags ↔ e ∈ t.tags := by
  induction t with
  | leaf => exact Iff.rfl
  | node c l k r h1 h2 =>
    simp only [flip_node, tags, List.mem_append, List.mem_cons, h1, h2]
    tauto
theorem Ok.flip : ∀ {t : RBTree K} {n : Nat}, t.Ok n → t.flip.Ok n
  | .leaf, _, h => h
  | .node true l _ r, _, ⟨h1, h2, h3, h4⟩ => ⟨(red_flip r).trans h2, (red_flip l).trans h1, h4.flip, h3.flip⟩
  | .node false _ _ _, _, ⟨m, h1, h3, h4⟩ => ⟨m, h1, h4.flip, h3.flip⟩

theorem Cost.flip {T' T : RBTree K} {d : Nat} (h : Cost T' T d) : Cost T'.flip T.flip d := by
  obtain ⟨D, h1, h2⟩ := h
  refine ⟨D, fun e he => ?_, by rw [pot_flip, pot_flip]; exact h2⟩
  rw [mem_flip] at he ⊢
  exact h1 e he

theorem InsOk.flip {T T' : RBTree K} (h : InsOk T T') : InsOk T.flip T'.flip := by
  rcases h with ⟨h1, h2, h3⟩ | ⟨h1, a, y, b, rfl, h2, h4, h3⟩ | ⟨h1, a, y, b, rfl, h2, h4, h3⟩ | ⟨h1, a, y, b, rfl, h2, h3⟩
  · exact Or.inl ⟨(red_flip T).trans h1, (red_flip T').trans h2, h3.flip⟩
  · exact Or.inr (Or.inl ⟨(red_flip T).trans h1, _, _, _, rfl, (red_flip b).trans h4, (red_flip a).trans h2, h3.flip⟩)
  · exact Or.inr (Or.inr (Or.inl ⟨(red_flip T).trans h1, _, _, _, rfl, (red_flip b).trans h4, (red_flip a).trans h2, h3.flip⟩))
  · refine Or.inr (Or.inr (Or.inr ⟨(red_flip T).trans h1, _, _, _, rfl, ?_, h3.flip⟩))
    rw [red_flip, red_flip, h2, Bool.not_not]

theorem fixL_flip (l : RBTree K) (k : K) (r : RBTree K) : RBTree.fixL r.flip k l.flip = (RBTree.fixR l k r).flip := by
  rcases r with _ | ⟨_ | _, a, y, b⟩
  · rfl
  · rfl
  · rcases b with _ | ⟨_ | _, b1, z, b2⟩
    · rcases a with _ | ⟨_ | _, a1, z, a2⟩
      · rfl
      · rfl
      · simp only [RBTree.flip, RBTree.fixL, RBTree.fixR, red_flip]; split <;> simp [RBTree.flip, blacken_flip]
    · rcases a with _ | ⟨_ | _, a1, z, a2⟩
      · rfl
      · rfl
      · simp only [RBTree.flip, RBTree.fixL, RBTree.fixR, red_flip]; split <;> simp [RBTree.flip, blacken_flip]
    · simp only [flip_node, RBTree.fixL, RBTree.fixR, red_flip]; split <;> simp [RBTree.flip, blacken_flip]

theorem InsOk.fixR {l r r' : RBTree K} {x : K} {n : Nat} (hl : l.Ok n) (h : InsOk r r') :
    InsOk (node false l x r) (RBTree.fixR l x r') := by
  have := (InsOk.fixL (x := x) hl.flip h.flip).flip
  rwa [fixL_flip, flip_flip, flip_node, flip_flip, flip_flip] at this

theorem InsOk.red {l l' r : RBTree K} {x : K} (hr : r.isRed = false) (hl : l.isRed = false) (h : InsOk l l') :
    InsOk (node true l x r) (node true l' x r) := by
  rcases h with ⟨h1, h2, h3⟩ | ⟨h1, a, y, b, rfl, h2, h4, h3⟩ | ⟨h1, _⟩ | ⟨h1, _⟩
  · exact Or.inr (Or.inr (Or.inl ⟨rfl, _, _, _, rfl, h2, hr, h3.left (by simp only [pot_red]; omega)⟩))
  · exact Or.inr (Or.inr (Or.inr ⟨rfl, _, _, _, rfl, by rw [hr]; rfl, h3.left (by simp only [pot_red]; omega)⟩))
  · rw [hl] at h1; cases h1
  · rw [hl] at h1; cases h1

theorem InsOk.refl : ∀ {T : RBTree K} {n : Nat}, T.Ok n → InsOk T T
  | .leaf, _, _ => Or.inl ⟨rfl, rfl, Cost.refl _ _⟩
  | .node false _ _ _, _, _ => Or.inl ⟨rfl, rfl, Cost.refl _ _⟩
  | .node true _ _ _, _, h => Or.inr (Or.inr (Or.inl ⟨rfl, _, _, _, rfl, h.1, h.2.1, Cost.refl _ _⟩))

theorem ins_ok (cmp : K → Ordering) (k : K) : ∀ {T : RBTree K} {n : Nat}, T.Ok n → InsOk T (T.ins cmp k)
  | .leaf, _, _ => Or.inr (Or.inl ⟨rfl, _, _, _, rfl, rfl, rfl, [(k, true)], by simp [tags, ins], by simp [ins, pot]⟩)
  | .node true l x r, n, h => by
    obtain ⟨h1, h2, h3, h4⟩ := h
    simp only [ins]
    cases cmp x with
    | lt => exact (ins_ok cmp k h3).red h2 h1
    | gt =>
      have := (InsOk.red (x := x) ((red_flip l).trans h1) ((red_flip r).trans h2) (ins_ok cmp k h4).flip).flip
      rwa [flip_node, flip_node, flip_flip, flip_flip, flip_flip] at this
    | eq => exact InsOk.refl (n := n) ⟨h1, h2, h3, h4⟩
  | .node false l x r, n, h => by
    obtain ⟨m, h1, h3, h4⟩ := h
    simp only [ins]
    cases cmp x with
    | lt => exact InsOk.fixL h4 (ins_ok cmp k h3)
    | gt => exact InsOk.fixR h3 (ins_ok cmp k h4)
    | eq => exact InsOk.refl (n := n) ⟨m, h1, h3, h4⟩

theorem insert_cost (cmp : K → Ordering) (k : K) {T : RBTree K} {n : Nat} (h : T.Ok n) (hb : T.isRed = false) :
    Cost (T.insert cmp k) T 9 := by
  rcases ins_ok cmp k h with ⟨h1, h2, h3⟩ | ⟨h1, a, y, b, e, h2, h4, h3⟩ | ⟨h1, _⟩ | ⟨h1, _⟩
  · have := h3.blacken
    rw [h2] at this; exact this
  · have := h3.blacken
    rw [e] at this
    unfold RBTree.insert
    rw [e]
    exact this.mono (by rw [red_node]; decide)
  · rw [hb] at h1; cases h1
  · rw [hb] at h1; cases h1

/-! ### removal -/

/-- a subtree that has lost a black node -/
def Low (T T' : RBTree K) (e : Nat) : Prop := (T'.isRed = false ∧ Cost T' T (1 + e)) ∨ (T'.isRed = true ∧ Cost T' T e)

theorem Low.cost {T T' : RBTree K} {e : Nat} (h : Low T T' e) : ∃ D : List (K × Bool), (∀ x ∈ T'.tags, x ∈ T.tags ∨ x ∈ D) ∧
    D.length + 3 * T'.pot ≤ 3 * T.pot + e + (if T'.isRed then 0 else 1) := by
  rcases h with ⟨h1, D, h2, h3⟩ | ⟨h1, D, h2, h3⟩
  · exact ⟨D, h2, by rw [h1]; simp only [Bool.false_eq_true, if_false]; omega⟩
  · exact ⟨D, h2, by rw [h1, if_pos rfl]; omega⟩

/-- what `del` makes of a tree -/
def DelOk (e : Nat) (T : RBTree K) (P : RBTree K × Bool) : Prop :=
  (P.2 = true ∧ T.isRed = false ∧ T ≠ leaf ∧ Low T P.1 e) ∨
  (P.2 = false ∧ P.1.isRed = T.isRed ∧ Cost P.1 T (12 + e)) ∨
  (P.2 = false ∧ T.isRed = true ∧ P.1.isRed = false ∧ Cost P.1 T (5 + e))

theorem raise_ok {c : Bool} {l l' a b : RBTree K} {k x : K} {m e : Nat} (hl : l.isRed = false) (ha : a.Ok m) (hb : b.Ok m)
    (h : Low l l' e) :
    ((raiseL c l' k (node false a x b)).2 = true ∧ c = false ∧ (raiseL c l' k (node false a x b)).1.isRed = false ∧
      Cost (raiseL c l' k (node false a x b)).1 (node c l k (node false a x b)) (1 + e)) ∨
    ((raiseL c l' k (node false a x b)).2 = false ∧ (raiseL c l' k (node false a x b)).1.isRed = c ∧
      Cost (raiseL c l' k (node false a x b)).1 (node c l k (node false a x b)) (10 + e)) ∨
    ((raiseL c l' k (node false a x b)).2 = false ∧ c = true ∧ (raiseL c l' k (node false a x b)).1.isRed = false ∧
      Cost (raiseL c l' k (node false a x b)).1 (node c l k (node false a x b)) (5 + e)) := by
  obtain ⟨D, hD, hp⟩ := h.cost
  by_cases hbr : b.isRed = true
  · have e1 : raiseL c l' k (node false a x b) = (node c (node false l' k a) x b.blacken, false) := by
      simp only [raiseL, hbr, if_true]
    rw [e1]
    refine Or.inr (Or.inl ⟨rfl, rfl, ?_⟩)
    have hbp := hb.blacken_pot hbr
    have hbb := red_blacken b
    obtain ⟨b1, z, b2, rfl⟩ := red_form hbr
    refine ⟨(k, false) :: (x, c) :: (z, false) :: D, ?_, ?_⟩
    · intro e he
      simp only [RBTree.blacken, tags, List.mem_append, List.mem_cons] at he ⊢
      rcases he with (he | he | he) | he | he | he | he
      · rcases hD e he with q | q <;> simp [q]
      all_goals simp [he]
    · simp only [List.length_cons]
      cases c <;> cases hl' : l'.isRed <;> cases har : a.isRed <;>
        simp only [pot_red, pot_black, red_node, hbp, hbb, hl, hl', har, wt_ff, wt_ft, wt_tf, wt_tt, if_true, Bool.false_eq_true, if_false] at hp ⊢ <;> omega
  · have hbr : b.isRed = false := by simpa using hbr
    by_cases har : a.isRed = true
    · obtain ⟨a1, y, a2, rfl⟩ := red_form har
      have e1 : raiseL c l' k (node false (node true a1 y a2) x b) = (node c (node false l' k a1) y (node false a2 x b), false) := by
        simp only [raiseL, hbr]; rfl
      rw [e1]
      obtain ⟨g1, g2, _⟩ := ha
      refine Or.inr (Or.inl ⟨rfl, rfl, (k, false) :: (y, c) :: D, ?_, ?_⟩)
      · intro e he
        simp only [tags, List.mem_append, List.mem_cons] at he ⊢
        rcases he with (he | he | he) | he | he | he | he
        · rcases hD e he with q | q <;> simp [q]
        all_goals simp [he]
      · simp only [List.length_cons]
        cases c <;> cases hl' : l'.isRed <;>
          simp only [pot_red, pot_black, red_node, hl, hl', g1, g2, hbr, wt_ff, wt_tf, if_true, Bool.false_eq_true, if_false] at hp ⊢ <;> omega
    · have har : a.isRed = false := by simpa using har
      have e1 : raiseL c l' k (node false a x b) = (node false l' k (node true a x b), !c) := by
        cases a with
        | leaf => simp only [raiseL, hbr]; rfl
        | node ca a1 y a2 => rw [red_node] at har; subst har; simp only [raiseL, hbr]; rfl
      rw [e1]
      cases c with
      | false =>
        refine Or.inl ⟨rfl, rfl, rfl, (x, true) :: D, ?_, ?_⟩
        · intro e he
          simp only [tags, List.mem_append, List.mem_cons] at he ⊢
          rcases he with he | he | he | he | he
          · rcases hD e he with q | q <;> simp [q]
          all_goals simp [he]
        · simp only [List.length_cons]
          cases hl' : l'.isRed <;>
            simp only [pot_red, pot_black, red_node, hl, hl', har, hbr, wt_ff, wt_ft, wt_tt, if_true, Bool.false_eq_true, if_false] at hp ⊢ <;> omega
      | true =>
        refine Or.inr (Or.inr ⟨rfl, rfl, rfl, (k, false) :: (x, true) :: D, ?_, ?_⟩)
        · intro e he
          simp only [tags, List.mem_append, List.mem_cons] at he ⊢
          rcases he with he | he | he | he | he
          · rcases hD e he with q | q <;> simp [q]
          all_goals simp [he]
        · simp only [List.length_cons]
          cases hl' : l'.isRed <;>
            simp only [pot_red, pot_black, red_node, hl', har, hbr, wt_ff, wt_ft, wt_tt, if_true, Bool.false_eq_true, if_false] at hp ⊢ <;> omega

theorem Ok.black_form {t : RBTree K} {n : Nat} (h : t.Ok (n + 1)) (hb : t.isRed = false) :
    ∃ a x b, t = node false a x b ∧ a.Ok n ∧ b.Ok n := by
  cases t with
  | leaf => cases h
  | node c a x b =>
    rw [red_node] at hb; subst hb
    obtain ⟨m, h1, h2, h3⟩ := h
    cases h1
    exact ⟨a, x, b, rfl, h2, h3⟩

theorem DelOk.delL {c : Bool} {l r : RBTree K} {P : RBTree K × Bool} {k : K} {n e : Nat} (hT : (node c l k r).Ok n)
    (h : DelOk e l P) : DelOk e (node c l k r) (RBTree.delL c P k r) := by
  obtain ⟨l', f⟩ := P
  have hlr : ∃ m, l.Ok m ∧ r.Ok m ∧ (c = true → l.isRed = false ∧ r.isRed = false) := by
    cases c with
    | true => obtain ⟨h1, h2, h3, h4⟩ := hT; exact ⟨_, h3, h4, fun _ => ⟨h1, h2⟩⟩
    | false => obtain ⟨m, _, h3, h4⟩ := hT; exact ⟨m, h3, h4, fun q => by cases q⟩
  obtain ⟨m, hlo, hro, hc⟩ := hlr
  rcases h with ⟨h1, h2, h3, h4⟩ | ⟨h1, h2, h3⟩ | ⟨h1, h2, h4, h3⟩
  · simp only at h1; subst h1
    have hm : ∃ m', m = m' + 1 := by
      cases l with
      | leaf => exact absurd rfl h3
      | node cl a x b =>
        rw [red_node] at h2; subst h2
        obtain ⟨m', h, _⟩ := hlo
        exact ⟨m', h⟩
    obtain ⟨m', rfl⟩ := hm
    by_cases hr : r.isRed = true
    · obtain ⟨a, x, b, rfl⟩ := red_form hr
      have hcf : c = false := by
        cases c with
        | false => rfl
        | true => have := (hc rfl).2; cases this
      subst hcf
      obtain ⟨g1, g2, g3, g4⟩ := hro
      obtain ⟨a1, y, a2, rfl, q1, q2⟩ := g3.black_form g1
      have e1 : RBTree.delL false (l', true) k (node true (node false a1 y a2) x b) =
          (node false (raiseL true l' k (node false a1 y a2)).1 x b, (raiseL true l' k (node false a1 y a2)).2) := rfl
      rw [e1]
      have fin : ∀ (R : RBTree K) (d : Nat), Cost R (node true l k (node false a1 y a2)) d →
          2 + d + 3 * wt R.isRed false ≤ 12 + e →
          Cost (node false R x b) (node false l k (node true (node false a1 y a2) x b)) (12 + e) := by
        intro R d hR hd
        obtain ⟨D, hD, hp⟩ := hR
        refine ⟨(k, true) :: (x, false) :: D, ?_, ?_⟩
        · intro e he
          simp only [tags, List.mem_append, List.mem_cons] at he hD ⊢
          rcases he with he | he | he
          · rcases hD e he with (q | q | q | q | q) | q <;> simp [q]
          all_goals simp [he]
        · rw [pot_black, g2, pot_black, h2, red_node, wt_ft, pot_red]
          rw [pot_red] at hp
          simp only [List.length_cons]
          omega
      rcases raise_ok (c := true) (k := k) (x := y) h2 q1 q2 h4 with ⟨_, q, _⟩ | ⟨f1, f2, f3⟩ | ⟨f1, _, f2, f3⟩
      · cases q
      · exact Or.inr (Or.inl ⟨f1, rfl, fin _ _ f3 (by rw [f2, wt_tf]; omega)⟩)
      · exact Or.inr (Or.inl ⟨f1, rfl, fin _ _ f3 (by rw [f2, wt_ff]; omega)⟩)
    · have hr : r.isRed = false := by simpa using hr
      obtain ⟨a, x, b, rfl, q1, q2⟩ := hro.black_form hr
      have e1 : RBTree.delL c (l', true) k (node false a x b) = raiseL c l' k (node false a x b) := rfl
      rw [e1]
      rcases raise_ok (c := c) (k := k) (x := x) h2 q1 q2 h4 with ⟨f1, q, f2, f3⟩ | ⟨f1, f2, f3⟩ | ⟨f1, q, f2, f3⟩
      · exact Or.inl ⟨f1, q, (fun q => by cases q), Or.inl ⟨f2, f3⟩⟩
      · exact Or.inr (Or.inl ⟨f1, f2, f3.mono (by omega)⟩)
      · exact Or.inr (Or.inr ⟨f1, q, f2, f3⟩)
  · simp only at h1 h2 h3; subst h1
    refine Or.inr (Or.inl ⟨rfl, rfl, h3.left ?_⟩)
    cases c <;> simp only [pot_red, pot_black, h2] <;> omega
  · simp only at h1 h4 h3; subst h1
    have hcf : c = false := by
      cases c with
      | false => rfl
      | true => have := (hc rfl).1; rw [h2] at this; cases this
    subst hcf
    refine Or.inr (Or.inl ⟨rfl, rfl, h3.left ?_⟩)
    cases hr : r.isRed <;> simp only [pot_black, h2, h4, hr, wt_ff, wt_ft, wt_tf, wt_tt] <;> omega

theorem DelOk.flip {e : Nat} {T : RBTree K} {P : RBTree K × Bool} (h : DelOk e T P) : DelOk e T.flip (P.1.flip, P.2) := by
  rcases h with ⟨h1, h2, h3, h4⟩ | ⟨h1, h2, h3⟩ | ⟨h1, h2, h4, h3⟩
  · refine Or.inl ⟨h1, (red_flip T).trans h2, fun q => h3 (by rw [← flip_flip T, q]; rfl), ?_⟩
    rcases h4 with ⟨q1, q2⟩ | ⟨q1, q2⟩
    · exact Or.inl ⟨(red_flip _).trans q1, q2.flip⟩
    · exact Or.inr ⟨(red_flip _).trans q1, q2.flip⟩
  · exact Or.inr (Or.inl ⟨h1, by rw [red_flip, red_flip, h2], h3.flip⟩)
  · exact Or.inr (Or.inr ⟨h1, (red_flip T).trans h2, (red_flip _).trans h4, h3.flip⟩)

theorem raiseL_flip (c : Bool) (r : RBTree K) (k : K) (l : RBTree K) :
    raiseL c r.flip k l.flip = ((raiseR c r k l).1.flip, (raiseR c r k l).2) := by
  cases l with
  | leaf => rfl
  | node cl a x b =>
    cases ha : a.isRed with
    | true => simp only [flip_node, raiseL, raiseR, red_flip, ha, if_true, blacken_flip]
    | false =>
      simp only [flip_node, raiseL, raiseR, red_flip, ha, Bool.false_eq_true, if_false]
      rcases b with _ | ⟨_ | _, b1, y, b2⟩ <;> rfl

theorem delL_flip (c : Bool) (l : RBTree K) (k : K) (P : RBTree K × Bool) :
    RBTree.delL c (P.1.flip, P.2) k l.flip = ((RBTree.delR c l k P).1.flip, (RBTree.delR c l k P).2) := by
  obtain ⟨r, f⟩ := P
  cases f with
  | false =>
    rcases l with _ | ⟨_ | _, a, x, b⟩ <;> rfl
  | true =>
    rcases l with _ | ⟨_ | _, a, x, b⟩
    · exact raiseL_flip c r k .leaf
    · exact raiseL_flip c r k (.node false a x b)
    · have := raiseL_flip true r k b
      simp only [flip_node, RBTree.delL, RBTree.delR, this]

theorem DelOk.delR {c : Bool} {l r : RBTree K} {P : RBTree K × Bool} {k : K} {n e : Nat} (hT : (node c l k r).Ok n)
    (h : DelOk e r P) : DelOk e (node c l k r) (RBTree.delR c l k P) := by
  have := (DelOk.delL (k := k) hT.flip h.flip).flip
  rw [delL_flip] at this
  simpa only [flip_flip, flip_node] using this

theorem join_right {c : Bool} {l r : RBTree K} {k : K} (hc : c = true → l.isRed = false) (e : Nat) :
    DelOk e (node c l k r) (l, !c) := by
  have hm : ∀ e ∈ l.tags, e ∈ (node c l k r).tags ∨ e ∈ ([] : List (K × Bool)) := fun e he => Or.inl (by simp [tags, he])
  cases c with
  | true => exact Or.inr (Or.inr ⟨rfl, rfl, hc rfl, [], hm, by simp only [pot_red, List.length_nil]; omega⟩)
  | false =>
    refine Or.inl ⟨rfl, rfl, (fun q => by cases q), ?_⟩
    cases hl : l.isRed with
    | false => exact Or.inl ⟨hl, [], hm, by simp only [pot_black, List.length_nil]; omega⟩
    | true => exact Or.inr ⟨hl, [], hm, by simp only [pot_black, List.length_nil]; omega⟩

theorem join_left {c : Bool} {l r : RBTree K} {k : K} (hc : c = true → r.isRed = false) (e : Nat) :
    DelOk e (node c l k r) (r, !c) := by
  have := (join_right (c := c) (l := r.flip) (r := l.flip) (k := k) (fun q => (red_flip r).trans (hc q)) e).flip
  simpa only [flip_flip, flip_node] using this

theorem popMax_ok : ∀ {c : Bool} {l : RBTree K} {k : K} {r : RBTree K} {n : Nat}, (node c l k r).Ok n →
    DelOk 0 (node c l k r) (popMax c l k r).2
  | c, l, k, .leaf, n, h => join_right (fun q => by subst q; exact h.1) 0
  | c, l, k, .node c' a x b, n, h => by
    have hr : ∃ m, (node c' a x b).Ok m := by
      cases c with
      | true => exact ⟨_, h.2.2.2⟩
      | false => obtain ⟨m, _, _, h4⟩ := h; exact ⟨m, h4⟩
    obtain ⟨m, hm⟩ := hr
    exact DelOk.delR h (popMax_ok hm)

theorem Cost.rekey {c : Bool} {l r T' : RBTree K} {k k' : K} {d : Nat} (h : Cost T' (node c l k' r) d) :
    Cost T' (node c l k r) (d + 1) := by
  obtain ⟨D, hD, hp⟩ := h
  refine ⟨(k', c) :: D, ?_, ?_⟩
  · intro e he
    have := hD e he
    simp only [tags, List.mem_append, List.mem_cons] at this ⊢
    rcases this with (q | q | q) | q <;> simp [q]
  · have : (node c l k' r).pot = (node c l k r).pot := by cases c <;> rfl
    rw [this] at hp
    simp only [List.length_cons]; omega

theorem DelOk.rekey {c : Bool} {l r : RBTree K} {P : RBTree K × Bool} {k k' : K} {e : Nat} (h : DelOk e (node c l k' r) P) :
    DelOk (e + 1) (node c l k r) P := by
  rcases h with ⟨h1, h2, h3, h4⟩ | ⟨h1, h2, h3⟩ | ⟨h1, h2, h4, h3⟩
  · refine Or.inl ⟨h1, h2, (fun q => by cases q), ?_⟩
    rcases h4 with ⟨q1, q2⟩ | ⟨q1, q2⟩
    · exact Or.inl ⟨q1, q2.rekey.mono (by omega)⟩
    · exact Or.inr ⟨q1, q2.rekey⟩
  · exact Or.inr (Or.inl ⟨h1, h2, h3.rekey.mono (by omega)⟩)
  · exact Or.inr (Or.inr ⟨h1, h2, h4, h3.rekey.mono (by omega)⟩)

theorem join_ok {c : Bool} {l r : RBTree K} {k : K} {n : Nat} (h : (node c l k r).Ok n) : DelOk 1 (node c l k r) (join c l r) := by
  cases l with
  | leaf => exact join_left (fun q => by subst q; exact h.2.1) 1
  | node c' a x b =>
    cases r with
    | leaf => exact join_right (fun q => by subst q; exact h.1) 1
    | node c2 a2 x2 b2 =>
      have hl : ∃ m, (node c' a x b).Ok m := by
        cases c with
        | true => exact ⟨_, h.2.2.1⟩
        | false => obtain ⟨m, _, h4, _⟩ := h; exact ⟨m, h4⟩
      obtain ⟨m, hm⟩ := hl
      have hk : (node c (node c' a x b) (popMax c' a x b).1 (node c2 a2 x2 b2)).Ok n := by cases c <;> exact h
      exact (DelOk.delL hk (popMax_ok hm)).rekey

theorem del_ok (cmp : K → Ordering) : ∀ {T : RBTree K} {n : Nat}, T.Ok n → DelOk 1 T (T.del cmp)
  | .leaf, _, _ => Or.inr (Or.inl ⟨rfl, rfl, Cost.refl _ _⟩)
  | .node c l x r, n, h => by
    have hlr : ∃ m, l.Ok m ∧ r.Ok m := by
      cases c with
      | true => exact ⟨_, h.2.2.1, h.2.2.2⟩
      | false => obtain ⟨m, _, h3, h4⟩ := h; exact ⟨m, h3, h4⟩
    obtain ⟨m, hl, hr⟩ := hlr
    simp only [del]
    cases cmp x with
    | lt => exact DelOk.delL h (del_ok cmp hl)
    | gt => exact DelOk.delR h (del_ok cmp hr)
    | eq => exact join_ok h

theorem DelOk.cost {T : RBTree K} {P : RBTree K × Bool} (h : DelOk 1 T P) (hb : T.isRed = false) : Cost P.1.blacken T 13 := by
  rcases h with ⟨h1, h2, h3, h4⟩ | ⟨h1, h2, h3⟩ | ⟨h1, h2, h4, h3⟩
  · rcases h4 with ⟨q1, q2⟩ | ⟨q1, q2⟩
    · have := q2.blacken; rw [q1] at this; exact this.mono (by simp)
    · have := q2.blacken; rw [q1] at this; exact this.mono (by simp)
  · have := h3.blacken; rw [h2, hb] at this; exact this.mono (by simp)
  · rw [hb] at h2; cases h2

theorem remove_cost (cmp : K → Ordering) {T : RBTree K} {n : Nat} (h : T.Ok n) (hb : T.isRed = false) :
    Cost (T.remove cmp) T 13 := (del_ok cmp h).cost hb

theorem removeRoot_cost {T : RBTree K} {n : Nat} (h : T.Ok n) (hb : T.isRed = false) : Cost T.removeRoot T 13 := by
  cases T with
  | leaf => exact Cost.refl _ _
  | node c l k r => exact (join_ok h).cost hb

theorem step_cost {V : Type} (cmp : K → K → Ordering) (M : Nat) {T : RBTree K} {n : Nat} (h : T.Ok n) (hb : T.isRed = false)
    (op : RedBlackSpec.TOp K V) : Cost (T.step cmp M op) T (RedBlackSpec.allowance op) := by
  cases op with
  | removeRoot => exact removeRoot_cost h hb
  | map op =>
    cases op with
    | insert k v =>
      simp only [step]
      split
      · exact Cost.refl _ _
      · exact insert_cost _ _ h hb
    | remove k => exact remove_cost _ h hb
    | getMut k f => exact Cost.refl _ _
    | iterMut es => exact Cost.refl _ _

theorem pot_le (T : RBTree K) : T.pot + (if T.isRed then 1 else 0) ≤ T.size := by
  induction T with
  | leaf => simp [pot, isRed]
  | node c l k r h1 h2 =>
    cases c <;> cases hl : l.isRed <;> cases hr : r.isRed <;>
      simp only [pot_black, pot_red, red_node, size, hl, hr, wt_ff, wt_ft, wt_tf, wt_tt, if_true, Bool.false_eq_true, if_false] at h1 h2 ⊢ <;> omega

end Sokoban.Textbook.RBTree

namespace Sokoban
open BT Ctx NodeAllocator Ents MapSpec Textbook RedBlackSpec

theorem tags_keys {K : Type} (T : RBTree K) : T.tags.map Prod.fst = T.keys := by
  induction T with
  | leaf => rfl
  | node c l k r h1 h2 => simp [RBTree.tags, RBTree.keys, h1, h2]

theorem BT.rsk_ok {K V : Type} : ∀ {t : BT K V} {n : Nat}, RB t n → t.rsk.Ok n
  | .nil, _, h => h
  | .node l x r, n, h => by
    rw [rsk_node]
    rcases h with ⟨h1, h2, h3, h4, h5⟩ | ⟨h1, m, h2, h4, h5⟩
    · rw [h1]
      exact ⟨by rw [isRed_rsk, h2]; rfl, by rw [isRed_rsk, h3]; rfl, rsk_ok h4, rsk_ok h5⟩
    · rw [h1]
      exact ⟨m, h2, rsk_ok h4, rsk_ok h5⟩

namespace RedBlackTree
variable {K V : Type} {M : Nat} {s : RedBlackTree K V M} {E : Ents K V}

theorem tag_of : ∀ {t : BT K V} {p n : Nat}, RBShape s.rg p t → (∀ i ∈ t.ids, 1 ≤ i ∧ i ≤ M) → RB t n →
    ∀ {i k v}, (i, k, v) ∈ t.ents → ∃ b : Bool, (k, b) ∈ t.rsk.tags ∧ s.getColor i = .ok (if b then RED else BLACK)
  | .nil, _, _, _, _, _, _, _, _, h => by simp at h
  | .node l x r, p, n, ⟨_, _, _, k4, k5, k6⟩, hr, hb, i, k, v, h => by
    have hrec : (x.tag = 0 ∨ x.tag = 1) ∧ (∃ m, RB l m) ∧ ∃ m, RB r m := by
      rcases hb with ⟨h, _, _, h1, h2⟩ | ⟨h, m, _, h1, h2⟩
      · exact ⟨Or.inr h, ⟨_, h1⟩, _, h2⟩
      · exact ⟨Or.inl h, ⟨_, h1⟩, _, h2⟩
    obtain ⟨ht, ⟨m1, h1⟩, m2, h2⟩ := hrec
    simp only [BT.ents_node, List.mem_append, List.mem_cons] at h
    rcases h with h | h | h
    · obtain ⟨b, q1, q2⟩ := tag_of k5 (fun i hi => hr i (by simp [hi])) h1 h
      exact ⟨b, by simp [RBTree.tags, q1], q2⟩
    · have hx := hr x.idx (by simp)
      cases h
      refine ⟨decide (x.tag = 1), by simp [RBTree.tags], ?_⟩
      show s.getColor x.idx = _
      rw [getColor_ok hx.2, k4]
      rcases ht with h | h <;> simp [h, RED, BLACK]
    · obtain ⟨b, q1, q2⟩ := tag_of k6 (fun i hi => hr i (by simp [hi])) h2 h
      exact ⟨b, by simp [RBTree.tags, q1], q2⟩

variable [LinearOrder K]

theorem Inv.colours (h : Inv s E) : ∃ T n, HeldT T s E ∧ T.Ok n ∧ T.isRed = false ∧ (T.tags.map Prod.fst).Nodup ∧
    ∀ k c, Coloured s k c → ∃ b : Bool, (k, b) ∈ T.tags ∧ c = if b then RED else BLACK := by
  obtain ⟨t, hz, hg, hs, hE, _⟩ := h.tree
  have hg' := hg
  obtain ⟨n, hb, _, _, h0⟩ := hg
  refine ⟨t.rsk, n, ⟨t, hz, hg', rfl⟩, rsk_ok hb, by rw [isRed_rsk, h0 rfl]; rfl, ?_, ?_⟩
  · rw [tags_keys, keys_rsk, hE]
    have hs' : (E.map fun e => e.2.1).Pairwise (· < ·) := by rw [List.pairwise_map]; exact hs
    exact hs'.imp (fun h => ne_of_lt h)
  · rintro k c ⟨i, e1, h1, e2⟩
    obtain ⟨v, hv⟩ := (h.getAddr_iff h1).1 e1
    rw [← hE] at hv
    obtain ⟨b, q1, q2⟩ := tag_of hz.shape (fun i hi => hz.rng (Or.inl hi)) hb hv
    rw [e2] at q2
    exact ⟨b, q1, by injection q2⟩

/-- one call -/
theorem Inv.recolour (hM : M + 1 < 2 ^ 32) (hM0 : 0 < M) (h : Inv s E) {T : RBTree K} (hT : HeldT T s E) (m : FMap K V)
    (hm : m.Lists (E.map Prod.snd)) {op : TOp K V} {s' : RedBlackTree K V M} {o : TOut K V} (e : call s op = .ok (s', o)) :
    ∃ (E' : Ents K V) (T' : RBTree K) (m' : FMap K V), Inv s' E' ∧ HeldT T' s' E' ∧ m'.Lists (E'.map Prod.snd) ∧ ∀ L, Recoloured s s' L →
      L.length + 3 * T'.pot ≤ 3 * T.pot + allowance op := by
  obtain ⟨s1, o1, E1, e1, hT1, _⟩ := hT.call hM hM0 op
  rw [e] at e1; cases e1
  obtain ⟨s2, o2, E2, m2, e2, h2, hm2, _⟩ := call_spec hM hM0 s E m op h hm
  rw [e] at e2; cases e2
  obtain ⟨T0, n, hT0, hok, hb, hnd, hc⟩ := h.colours
  have e0 : T0 = T := hT0.is.1.unique hT.is.1
  subst e0
  obtain ⟨T2, n2, hT2, _, _, hnd2, hc2⟩ := h2.colours
  have e3 : T2 = T0.step compare M op := hT2.is.1.unique hT1.is.1
  refine ⟨E2, T2, m2, h2, hT2, hm2, fun L hL => ?_⟩
  obtain ⟨D, hD, hp⟩ := RBTree.step_cost compare M hok hb op
  rw [← e3] at hD hp
  have hsub : L ⊆ D.map Prod.fst := by
    intro k hk
    obtain ⟨c, c', q1, q2, q3⟩ := hL.2 k hk
    obtain ⟨b, g1, g2⟩ := hc k c q1
    obtain ⟨b', g1', g2'⟩ := hc2 k c' q2
    rcases hD _ g1' with q | q
    · have : b = b' := by
        have hf := List.inj_on_of_nodup_map hnd g1 q rfl
        injection hf
      rw [this] at g2
      exact absurd (g2.trans g2'.symm) q3
    · exact List.mem_map_of_mem (f := Prod.fst) q
  have hlen := (hL.1.subperm hsub).length_le
  rw [List.length_map] at hlen
  omega

theorem recolourings_le (hM : M + 1 < 2 ^ 32) (hM0 : 0 < M) {ops : List (TOp K V)} {n : Nat} (hr : Recolourings s ops n) :
    ∀ {E : Ents K V} {T : RBTree K} {m : FMap K V}, Inv s E → HeldT T s E → m.Lists (E.map Prod.snd) →
      n ≤ (ops.map allowance).sum + 3 * T.pot := by
  induction hr with
  | done s => intro E T m _ _ _; simp
  | call e hL _ ih =>
    intro E T m h hT hm
    obtain ⟨E', T', m', h', hT', hm', hc⟩ := h.recolour hM hM0 hT m hm e
    have h1 := ih h' hT' hm'
    have h2 := hc _ hL
    simp only [List.map_cons, List.sum_cons]
    omega

end RedBlackTree
end Sokoban
