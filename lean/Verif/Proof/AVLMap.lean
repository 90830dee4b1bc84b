import Verif.Proof.AVLRemove
import Verif.Proof.TreeMap

/-
The AVL tree as an ordered map: search, insertion, removal.
-/
namespace Sokoban
open BT Ctx NodeAllocator Ents Textbook
variable {K V : Type}

theorem AShape.put {reg : Nat → Nat → Nat} (i : Nat) (w : V) : ∀ {t : BT K V},
    AShape reg t → AShape reg (t.put i w)
  | .nil, _ => trivial
  | .node _ _ _, ⟨h1, h2, h3, h4, h5⟩ => by
    refine ⟨?_, ?_, ?_, h4.put i w, h5.put i w⟩ <;> simp only [root_put, GN.idx_put, GN.tag_put]
    exacts [h1, h2, h3]

theorem BT.height_put (i : Nat) (w : V) (t : BT K V) : (t.put i w).height = t.height := by
  induction t with
  | nil => rfl
  | node l x r ihl ihr => simp only [BT.put, height, ihl, ihr]

theorem AVL.put (i : Nat) (w : V) : ∀ {t : BT K V}, AVL t → AVL (t.put i w)
  | .nil, h => h
  | .node l x r, ⟨h1, h2, h3, h4, h5⟩ => by
    refine ⟨?_, ?_, ?_, h4.put i w, h5.put i w⟩ <;> simp only [GN.tag_put, BT.height_put]
    exacts [h1, h2, h3]

namespace AVLTree
variable {kn : Known} {M : Nat} {s : AVLTree K V M} {c : Ctx K V} {t T : BT K V} {X E : List (Nat × K × V)}
  {d : Bool} {a b l r : BT K V} {x : GN K V} {h : Nat}

theorem getNode_ok {i : Nat} {k : K} {v : V} {L : List (Nat × K × V)} (h : ABase s.allocator L)
    (he : (i, k, v) ∈ L) : s.getNode i = .ok ⟨k, v⟩ := getValue_ok _ (h.vals _ he)

theorem Z.getNode (hz : Z s c h (.node l x r) X E) : s.getNode x.idx = .ok ⟨x.key, x.val⟩ :=
  getNode_ok hz.base (by rw [← hz.ents]; simp [GN.ent])

theorem Z.getLeft (hz : Z s c h (.node l x r) X E) : s.getField x.idx LEFT = .ok l.root := by
  rw [LEFT, getField_ok (hz.rng (Or.inl (by simp))).2 (by decide), hz.shape.1]

theorem Z.getRight (hz : Z s c h (.node l x r) X E) : s.getField x.idx RIGHT = .ok r.root := by
  rw [RIGHT, getField_ok (hz.rng (Or.inl (by simp))).2 (by decide), hz.shape.2.1]

/-- writing a value -/
theorem Z.setVal {L1 L2 : List (Nat × K × V)} {i : Nat} {k : K} {v : V}
    (hz : Z s [] t.root t [] (L1 ++ (i, k, v) :: L2)) (w : V) :
    ∃ s', s.setNodeValue i w = .ok s' ∧ Z s' [] (t.put i w).root (t.put i w) [] (L1 ++ (i, k, w) :: L2) ∧
      s'.root = s.root ∧ s'.rg = s.rg := by
  have hb := hz.base
  rw [List.nil_append] at hb
  have hv := hb.vals (i, k, v) (by simp)
  have hrg : (s.allocator.setVal i ⟨k, w⟩).reg = s.allocator.reg := by
    funext j q; exact reg_setVal _ _ _ _ _
  refine ⟨⟨s.root, s.allocator.setVal i ⟨k, w⟩⟩, ?_, ⟨?_, ?_, ?_, ?_⟩, rfl, hrg⟩
  · unfold setNodeValue
    simp only [getValue_ok _ hv, except_bind_ok, setValue_ok _ _ (hb.range (i := i) (by simp)).1 (hb.range (i := i) (by simp)).2]
    rfl
  · show AShape (s.allocator.setVal i ⟨k, w⟩).reg _
    rw [hrg]; exact hz.shape.put i w
  · show s.root = _
    rw [root_put]; exact hz.cshape
  · have he := hz.ents
    simp only [lft, rgt, List.nil_append, List.append_nil] at he ⊢
    rw [ents_put, he, putE_split w hb.nodup]
  · exact hb.setVal w

theorem Z.at (hz : Z s [] T.root T [] E) (hT : T = plug c t) : Z s c t.root t [] E := by
  subst hT
  have := Z.downs (c := []) hz
  rwa [List.append_nil] at this

variable [LinearOrder K]

/-- searching a subtree -/
theorem Z.searchLoop (k : K) : ∀ {t : BT K V} {c : Ctx K V} {fuel : Nat}, Z s c t.root t X E → t ≠ .nil →
    t.height ≤ fuel → Sorted t.ents →
    (Absent t.ents k ∧ s.searchLoop k fuel t.root = .ok 0) ∨
    ∃ i v, (i, k, v) ∈ t.ents ∧ s.searchLoop k fuel t.root = .ok i := by
  intro t
  induction t with
  | nil => intro c fuel _ h; exact absurd rfl h
  | node l x r ihl ihr =>
    intro c fuel h _ hf hs
    obtain ⟨fuel, rfl⟩ : ∃ f, fuel = f + 1 := ⟨fuel - 1, by simp [height] at hf; omega⟩
    have hl : Z s ((false, x, r) :: c) l.root l X E := Z.down (d := false) h
    have hr : Z s ((true, x, l) :: c) r.root r X E := Z.down (d := true) h
    simp only [height] at hf
    rw [ents_node] at hs
    simp only [root_node, AVLTree.searchLoop, h.getNode, h.getLeft, h.getRight, except_bind_ok]
    have hx : x.ent.2.1 = x.key := rfl
    rcases lt_trichotomy k x.key with hlt | heq | hgt
    · rw [if_pos hlt]
      have habs : Absent l.ents k → Absent (l.ents ++ x.ent :: r.ents) k := by
        intro ha e he
        simp only [List.mem_append, List.mem_cons] at he
        rcases he with he | rfl | he
        · exact ha e he
        · exact ne_of_gt hlt
        · exact ne_of_gt (lt_trans hlt (hx ▸ hs.mid_lt he))
      by_cases hln : l = .nil
      · subst hln
        exact Or.inl ⟨habs (by simp [Absent]), by simp [SENTINEL]⟩
      · rw [if_neg (show ¬ l.root = SENTINEL from fun hc => hln (hl.root_eq_zero.1 hc))]
        rcases ihl (fuel := fuel) hl hln (by omega) hs.left with ⟨ha, e⟩ | ⟨i, v, hi, e⟩
        · exact Or.inl ⟨habs ha, e⟩
        · exact Or.inr ⟨i, v, by simp [hi], e⟩
    · rw [if_neg (not_lt_of_ge (le_of_eq heq.symm)), if_neg (show ¬ PartialGt.gt k x.key from not_lt_of_ge (le_of_eq heq))]
      exact Or.inr ⟨x.idx, x.val, by simp [GN.ent, heq], rfl⟩
    · rw [if_neg (not_lt_of_gt hgt), if_pos (show PartialGt.gt k x.key from hgt)]
      have habs : Absent r.ents k → Absent (l.ents ++ x.ent :: r.ents) k := by
        intro ha e he
        simp only [List.mem_append, List.mem_cons] at he
        rcases he with he | rfl | he
        · exact ne_of_lt (lt_trans (hx ▸ hs.lt_mid he) hgt)
        · exact ne_of_lt hgt
        · exact ha e he
      by_cases hrn : r = .nil
      · subst hrn
        exact Or.inl ⟨habs (by simp [Absent]), by simp [SENTINEL]⟩
      · rw [if_neg (show ¬ r.root = SENTINEL from fun hc => hrn (hr.root_eq_zero.1 hc))]
        rcases ihr (fuel := fuel) hr hrn (by omega) hs.right with ⟨ha, e⟩ | ⟨i, v, hi, e⟩
        · exact Or.inl ⟨habs ha, e⟩
        · exact Or.inr ⟨i, v, by simp [hi], e⟩

/-- the AVL tree `s` holds the entries `E` in order -/
def Inv [kn : Known] (s : AVLTree K V M) (E : Ents K V) : Prop :=
  ∃ t, Z s [] t.root t [] E ∧ AVL t ∧ Sorted E

omit [LinearOrder K] in
/-- linking a new node below `x` -/
theorem attach_spec [kn.Low] (hM : M + 1 < 2 ^ 32) (hz0 : Z s [] T.root T [] E) (ha : AVL T)
    (hT : T = plug ((d, x, b) :: c) .nil) (hlt : E.length + kn.lost.length < M) (k : K) (v : V) :
    ∃ s' t' i, (do
        let (a, referenceNode) ← s.allocator.addNode { key := k, value := v }
        let t : AVLTree K V M := { s with allocator := a }
        let t ← t.setField x.idx d.toNat referenceNode
        let t ← t.rebalance (pathOf ((d, x, b) :: c))
        return (t, some referenceNode) : R (AVLTree K V M × Option Nat)) = .ok (s', some i) ∧
      i ∉ E.map Prod.fst ∧
      Z (kn := kn.pop) s' [] t'.root t' [] (lft ((d, x, b) :: c) ++ (i, k, v) :: rgt ((d, x, b) :: c)) ∧
      (AVL t' ∧ t'.sk = balUp ((d, x, b) :: c) (.node .leaf k .leaf)) ∧ Near 8 s s' := by
  have hz : Z s ((d, x, b) :: c) 0 .nil [] E := hz0.at hT
  have hh := hz0.hb hM ha
  obtain ⟨hc, _⟩ := CAVL.downs (c := []) (hT ▸ ha) trivial
  rw [List.append_nil] at hc
  have hb := hz.base
  rw [List.nil_append] at hb
  obtain ⟨a', i, e, hi, hi1, hi2, hb', hzr, hfr⟩ := hb.addL hM hlt k v
  have hcid : ∀ j ∈ cids ((d, x, b) :: c), j ≠ i := by
    intro j hj hji
    have := hz.live (Or.inr hj)
    rw [List.nil_append, hji] at this
    exact hi this
  let n : GN K V := ⟨i, 0, k, v⟩
  have hperm : ((i, k, v) :: E).Perm (lft ((d, x, b) :: c) ++ (i, k, v) :: rgt ((d, x, b) :: c)) := by
    rw [← hz.ents]
    simp only [ents_nil, List.append_nil]
    exact List.perm_middle.symm
  have hz1 : Z (kn := kn.pop) (⟨s.root, a'⟩ : AVLTree K V M) ((d, x, b) :: c) 0 (.node .nil n .nil) []
      (lft ((d, x, b) :: c) ++ (i, k, v) :: rgt ((d, x, b) :: c)) := by
    refine @Z.mk _ _ _ kn.pop _ _ _ _ _ _ ⟨hzr 0 (by decide), hzr 1 (by decide), hzr 2 (by decide), trivial, trivial⟩
      (hz.cshape.frame0 (fun j hj q => hfr j q (hcid j hj))) (by simp [n, GN.ent]) (hb'.perm hperm)
  have hh1 : ∀ j, ht (⟨s.root, a'⟩ : AVLTree K V M).rg j ≤ 65 := by
    intro j
    have h1 := hh j
    show (if j = 0 then 0 else a'.reg j 2 + 1) ≤ 65
    by_cases hj : j = i
    · subst hj
      rw [show a'.reg j 2 = 0 from hzr 2 (by decide)]
      split <;> omega
    · rw [show a'.reg j 2 = s.rg j 2 from hfr j 2 hj]; exact h1
  obtain ⟨s2, e2, z2, _⟩ := hz1.relink (by have := hh1 (BT.node .nil n .nil : BT K V).root; omega)
    (by have := hh1 b.root; omega)
  obtain ⟨s3, t', e3, z3, a3, k3⟩ := z2.rebalance hM (show AVL (.node .nil n .nil) from ⟨rfl, by simp [height], by simp [height], trivial, trivial⟩)
    hc (by simp [height]) (by simp [height])
  refine ⟨s3, t', i, ?_, hi, z3, ⟨a3, k3⟩, (near_links (Same.addNode e)).trans ((near_links (links_setField e2)).trans
    ((z2.near_rebalance hM (show AVL (.node .nil n .nil) from ⟨rfl, by simp [height], by simp [height], trivial, trivial⟩) hc
      e3).2 (by simp [height]) (Or.inr (by simp [height]))))⟩
  have e2' : (⟨s.root, a'⟩ : AVLTree K V M).setField x.idx d.toNat i = .ok s2 := e2
  simp only [e, except_bind_ok, e2', e3]; rfl

/-- insertion below a node -/
theorem insertLoop_spec [kn.Low] (hM : M + 1 < 2 ^ 32) (hz0 : Z s [] T.root T [] E) (haT : AVL T) (hs : Sorted E)
    (k : K) (v : V) : ∀ {t : BT K V} {c : Ctx K V} {fuel : Nat},
    T = plug c t → t ≠ .nil → t.height ≤ fuel →
    (∀ e ∈ lft c, e.2.1 < k) → (∀ e ∈ rgt c, k < e.2.1) →
    (Absent E k ∧ E.length + kn.lost.length = M ∧ s.insertLoop k v fuel t.root (fp c t.root) = .ok (s, none)) ∨
    (¬ (Absent E k ∧ E.length + kn.lost.length = M) ∧ ∃ s' i E', s.insertLoop k v fuel t.root (fp c t.root) = .ok (s', some i) ∧
      Inv (kn := kn.ins (E.map Prod.fst) i) s' E' ∧ Ins E k v i E') := by
  intro t
  induction t with
  | nil => intro c fuel _ h; exact absurd rfl h
  | node l x r ihl ihr =>
    intro c fuel hT _ hf hlc hrc
    have h := hz0.at hT
    rw [root_node] at h
    obtain ⟨fuel, rfl⟩ : ∃ f, fuel = f + 1 := ⟨fuel - 1, by simp [height] at hf; omega⟩
    have hle := h.base.leL
    have hsz := h.base.sizeL
    rw [List.nil_append] at hle hsz
    have hE := h.ents
    have hst : Sorted (l.ents ++ x.ent :: r.ents) := by rw [← hE] at hs; exact hs.mid
    have hx : x.ent.2.1 = x.key := rfl
    simp only [height] at hf
    simp only [root_node, insertLoop, h.getNode, h.getLeft, h.getRight, except_bind_ok]
    -- the attach case, common to both directions
    have fin : ∀ {d : Bool} {b : BT K V}, T = plug ((d, x, b) :: c) .nil →
        (∀ e ∈ lft ((d, x, b) :: c), e.2.1 < k) → (∀ e ∈ rgt ((d, x, b) :: c), k < e.2.1) →
        ∀ rhs : R (AVLTree K V M × Option Nat), rhs = (if s.len ≥ s.capacity then pure (s, none) else do
          let (a, referenceNode) ← s.allocator.addNode { key := k, value := v }
          let t : AVLTree K V M := { s with allocator := a }
          let t ← t.setField x.idx d.toNat referenceNode
          let t ← t.rebalance (fp c x.idx)
          return (t, some referenceNode)) →
        (Absent E k ∧ E.length + kn.lost.length = M ∧ rhs = .ok (s, none)) ∨
        (¬ (Absent E k ∧ E.length + kn.lost.length = M) ∧ ∃ s' i E', rhs = .ok (s', some i) ∧
          Inv (kn := kn.ins (E.map Prod.fst) i) s' E' ∧ Ins E k v i E') := by
      intro d b hT' hl hr rhs hrhs
      have hz := hz0.at hT'
      have hEn := hz.ents
      simp only [ents_nil, List.append_nil] at hEn
      have habs : Absent E k := by rw [← hEn]; exact absent_of hl hr
      by_cases hfull : E.length + kn.lost.length = M
      · left
        refine ⟨habs, hfull, ?_⟩
        rw [hrhs, if_pos (by simp only [len, capacity]; omega)]; rfl
      · right
        obtain ⟨s', t', i, e, hi, hz', ⟨hg', _⟩, _⟩ := attach_spec hM hz0 haT hT' (by omega) k v
        refine ⟨fun hc => hfull hc.2, s', i, _, ?_, ⟨t', kn.ins_new hi ▸ hz', hg', ?_⟩, Or.inr ⟨habs, hi, _, _, hEn.symm, rfl⟩⟩
        · rw [hrhs, if_neg (by simp only [len, capacity]; omega)]; exact e
        · rw [← hEn] at hs; exact hs.insert hl hr i v
    rcases lt_trichotomy k x.key with hlt | heq | hgt
    · rw [if_pos hlt]
      have hTl : T = plug ((false, x, r) :: c) l := hT
      have hlc' : ∀ e ∈ lft ((false, x, r) :: c), e.2.1 < k := by simpa [lft] using hlc
      have hrc' : ∀ e ∈ rgt ((false, x, r) :: c), k < e.2.1 := by
        intro e he
        simp only [rgt, Bool.false_eq_true, if_false, List.mem_append, List.mem_cons] at he
        rcases he with (rfl | he) | he
        · exact hlt
        · exact lt_trans hlt (hx ▸ hst.mid_lt he)
        · exact hrc e he
      by_cases hln : l = .nil
      · subst hln
        exact fin hTl hlc' hrc' _ rfl
      · rw [if_neg (show ¬ l.root = SENTINEL from fun hc => hln ((hz0.at hTl).root_eq_zero.1 hc))]
        exact ihl hTl hln (by omega) hlc' hrc'
    · rw [if_neg (not_lt_of_ge (le_of_eq heq.symm)), if_neg (show ¬ PartialGt.gt k x.key from not_lt_of_ge (le_of_eq heq))]
      right
      have hE' : E = (lft c ++ l.ents) ++ (x.idx, k, x.val) :: (r.ents ++ rgt c) := by
        rw [← hE]; simp [GN.ent, heq]
      have hz := hz0
      rw [hE'] at hz
      obtain ⟨s', e, hz', _⟩ := hz.setVal v
      refine ⟨fun hc => hc.1 (x.idx, k, x.val) (by rw [hE']; simp) rfl, s', x.idx, _, ?_,
        ⟨_, kn.ins_old (show x.idx ∈ E.map Prod.fst by rw [hE']; simp) ▸ hz', haT.put _ _, ?_⟩,
        Or.inl ⟨_, _, _, hE', rfl⟩⟩
      · simp only [e, except_bind_ok]; rfl
      · rw [hE'] at hs; exact hs.set
    · rw [if_neg (not_lt_of_gt hgt), if_pos (show PartialGt.gt k x.key from hgt)]
      have hTr : T = plug ((true, x, l) :: c) r := hT
      have hrc' : ∀ e ∈ rgt ((true, x, l) :: c), k < e.2.1 := by simpa [rgt] using hrc
      have hlc' : ∀ e ∈ lft ((true, x, l) :: c), e.2.1 < k := by
        intro e he
        simp only [lft, if_true, List.mem_append, List.mem_cons, List.not_mem_nil, or_false] at he
        rcases he with he | he | rfl
        · exact hlc e he
        · exact lt_trans (hx ▸ hst.lt_mid he) hgt
        · exact hgt
      by_cases hrn : r = .nil
      · subst hrn
        exact fin hTr hlc' hrc' _ rfl
      · rw [if_neg (show ¬ r.root = SENTINEL from fun hc => hrn ((hz0.at hTr).root_eq_zero.1 hc))]
        exact ihr hTr hrn (by omega) hlc' hrc'

/-- the search of `_remove` -/
theorem removePath_spec (hz0 : Z s [] T.root T [] E) (hs : Sorted E)
    (k : K) : ∀ {t : BT K V} {c : Ctx K V} {fuel : Nat}, T = plug c t → t.height < fuel →
    (∀ e ∈ lft c, e.2.1 < k) → (∀ e ∈ rgt c, k < e.2.1) →
    (Absent E k ∧ ∃ path, s.removePath k fuel t.root (fp c t.root) = .ok (0, path)) ∨
    ∃ c' l x r, T = plug c' (.node l x r) ∧ x.key = k ∧
      s.removePath k fuel t.root (fp c t.root) = .ok (x.idx, fp c' x.idx) := by
  intro t
  induction t with
  | nil =>
    intro c fuel hT hf hlc hrc
    obtain ⟨fuel, rfl⟩ : ∃ f, fuel = f + 1 := ⟨fuel - 1, by simp [height] at hf; omega⟩
    have hEn := (hz0.at hT).ents
    simp only [ents_nil, List.append_nil] at hEn
    exact Or.inl ⟨by rw [← hEn]; exact absent_of hlc hrc, _, rfl⟩
  | node l x r ihl ihr =>
    intro c fuel hT hf hlc hrc
    have h := hz0.at hT
    obtain ⟨fuel, rfl⟩ : ∃ f, fuel = f + 1 := ⟨fuel - 1, by simp [height] at hf; omega⟩
    have hE := h.ents
    have hst : Sorted (l.ents ++ x.ent :: r.ents) := by rw [← hE] at hs; exact hs.mid
    have hx : x.ent.2.1 = x.key := rfl
    have hxr := h.rng (i := x.idx) (Or.inl (by simp))
    have hx0 : ¬ x.idx = SENTINEL := by simp only [SENTINEL]; omega
    simp only [height] at hf
    rw [root_node]
    simp only [removePath, hx0, if_false, h.getNode, h.getLeft, h.getRight, except_bind_ok]
    rcases lt_trichotomy k x.key with hlt | heq | hgt
    · rw [if_pos hlt]
      have hTl : T = plug ((false, x, r) :: c) l := hT
      have hlc' : ∀ e ∈ lft ((false, x, r) :: c), e.2.1 < k := by simpa [lft] using hlc
      have hrc' : ∀ e ∈ rgt ((false, x, r) :: c), k < e.2.1 := by
        intro e he
        simp only [rgt, Bool.false_eq_true, if_false, List.mem_append, List.mem_cons] at he
        rcases he with (rfl | he) | he
        · exact hlt
        · exact lt_trans hlt (hx ▸ hst.mid_lt he)
        · exact hrc e he
      exact ihl hTl (by omega) hlc' hrc'
    · rw [if_neg (not_lt_of_ge (le_of_eq heq.symm)), if_neg (show ¬ PartialGt.gt k x.key from not_lt_of_ge (le_of_eq heq))]
      exact Or.inr ⟨c, l, x, r, hT, heq.symm, rfl⟩
    · rw [if_neg (not_lt_of_gt hgt), if_pos (show PartialGt.gt k x.key from hgt)]
      have hTr : T = plug ((true, x, l) :: c) r := hT
      have hrc' : ∀ e ∈ rgt ((true, x, l) :: c), k < e.2.1 := by simpa [rgt] using hrc
      have hlc' : ∀ e ∈ lft ((true, x, l) :: c), e.2.1 < k := by
        intro e he
        simp only [lft, if_true, List.mem_append, List.mem_cons, List.not_mem_nil, or_false] at he
        rcases he with he | he | rfl
        · exact hlc e he
        · exact lt_trans (hx ▸ hst.lt_mid he) hgt
        · exact hgt
      exact ihr hTr (by omega) hlc' hrc'

end AVLTree
end Sokoban
