import Verif.Proof.AVLIter
import Verif.Spec.AVL

/-
The laws of `Api.Laws` for the AVL tree, its extremes, balance and histories.
-/
namespace Sokoban
open BT Ctx NodeAllocator Ents MapSpec
variable {K V : Type}

namespace AVLTree
variable {M : Nat} {s : AVLTree K V M} {c : Ctx K V} {t : BT K V} {X E : List (Nat × K × V)}
  {l r : BT K V} {x : GN K V} {k : K} {v : V} {i : Nat}

/-! ### extremes -/
section
variable {kn : Known}

theorem minLoop_spec : ∀ {t : BT K V} {c : Ctx K V} {fuel : Nat}, Z s c t.root t X E → t ≠ .nil → t.height ≤ fuel →
    ∃ e, t.ents.head? = some e ∧ s.minLoop fuel t.root = .ok e.1 := by
  intro t
  induction t with
  | nil => intro c fuel _ h; exact absurd rfl h
  | node l x r ihl _ =>
    intro c fuel h _ hf
    obtain ⟨fuel, rfl⟩ : ∃ f, fuel = f + 1 := ⟨fuel - 1, by simp [height] at hf; omega⟩
    simp only [height] at hf
    have hl : Z s ((false, x, r) :: c) l.root l X E := Z.down (d := false) h
    simp only [root_node, minLoop, h.getLeft, except_bind_ok]
    by_cases hln : l = .nil
    · subst hln
      exact ⟨x.ent, rfl, by simp [SENTINEL]⟩
    · obtain ⟨e, he, e'⟩ := ihl (fuel := fuel) hl hln (by omega)
      refine ⟨e, by simp [he], ?_⟩
      rw [if_pos (show l.root ≠ SENTINEL from fun hc => hln (hl.root_eq_zero.1 hc)), e']

theorem maxLoop_spec : ∀ {t : BT K V} {c : Ctx K V} {fuel : Nat}, Z s c t.root t X E → t ≠ .nil → t.height ≤ fuel →
    ∃ e, t.ents.getLast? = some e ∧ s.maxLoop fuel t.root = .ok e.1 := by
  intro t
  induction t with
  | nil => intro c fuel _ h; exact absurd rfl h
  | node l x r _ ihr =>
    intro c fuel h _ hf
    obtain ⟨fuel, rfl⟩ : ∃ f, fuel = f + 1 := ⟨fuel - 1, by simp [height] at hf; omega⟩
    simp only [height] at hf
    have hr : Z s ((true, x, l) :: c) r.root r X E := Z.down (d := true) h
    simp only [root_node, maxLoop, h.getRight, except_bind_ok]
    by_cases hrn : r = .nil
    · subst hrn
      exact ⟨x.ent, by simp, by simp [SENTINEL]⟩
    · obtain ⟨e, he, e'⟩ := ihr (fuel := fuel) hr hrn (by omega)
      refine ⟨e, by rw [ents_node, List.getLast?_append, List.getLast?_cons, he]; simp, ?_⟩
      rw [if_pos (show r.root ≠ SENTINEL from fun hc => hrn (hr.root_eq_zero.1 hc)), e']

/-! ### balance along paths -/
open AVLSpec

theorem Z.range {h : Nat} (hz : Z s [] h t [] E) : ∀ j ∈ t.ids, 1 ≤ j ∧ j ≤ M := fun _ hj => hz.rng (Or.inl hj)

theorem step_ok (h : AShape s.rg t) (hr : ∀ j ∈ t.ids, 1 ≤ j ∧ j ≤ M) (d : Bool) (ht : t ≠ .nil) :
    ∃ a y b, t = br d a y b ∧ (if d then s.getField t.root RIGHT else s.getField t.root LEFT) = .ok a.root ∧
      AShape s.rg a ∧ ∀ j ∈ a.ids, 1 ≤ j ∧ j ≤ M := by
  cases t with
  | nil => exact absurd rfl ht
  | node l x r =>
    have hx := hr x.idx (by simp)
    obtain ⟨k1, k2, _, k5, k6⟩ := h
    cases d
    · exact ⟨l, x, r, rfl, by simp [getLeft_ok hx.2, k1], k5, fun j hj => hr j (by simp [hj])⟩
    · exact ⟨r, x, l, rfl, by simp [getRight_ok hx.2, k2], k6, fun j hj => hr j (by simp [hj])⟩

theorem walk_zero : ∀ ds, walk s 0 ds = .ok 0
  | [] => rfl
  | d :: ds => by
    have h0 : s.getField 0 LEFT = .ok 0 := by rw [getLeft_ok (by omega)]; exact congrArg _ (reg_zero _ _)
    have h1 : s.getField 0 RIGHT = .ok 0 := by rw [getRight_ok (by omega)]; exact congrArg _ (reg_zero _ _)
    unfold walk
    cases d <;> simp [h0, h1, walk_zero ds]

/-- a path leads to a subtree -/
theorem walk_spec : ∀ (ds : List Bool) {t : BT K V}, AShape s.rg t →
    (∀ j ∈ t.ids, 1 ≤ j ∧ j ≤ M) → AVL t →
    ∃ t' : BT K V, walk s t.root ds = .ok t'.root ∧ AShape s.rg t' ∧ (∀ j ∈ t'.ids, 1 ≤ j ∧ j ≤ M) ∧ AVL t'
  | [], t, h, hr, hb => ⟨t, rfl, h, hr, hb⟩
  | d :: ds, t, h, hr, hb => by
    by_cases ht : t = .nil
    · subst ht
      exact ⟨.nil, walk_zero _, h, hr, hb⟩
    · obtain ⟨a, y, b, rfl, e, ha, har⟩ := step_ok h hr d ht
      obtain ⟨t', e', h'⟩ := walk_spec ds ha har (AVL_br.1 hb).2.2.2.1
      refine ⟨t', ?_, h'⟩
      unfold walk
      rw [e]; exact e'

/-- a subtree has as many levels as its height -/
theorem levels : ∀ {t : BT K V}, AShape s.rg t → (∀ j ∈ t.ids, 1 ≤ j ∧ j ≤ M) → Levels s t.root t.height
  | .nil, _, _ => .nil
  | .node l x r, ⟨h1, h2, _, h4, h5⟩, hr => by
    have hx := hr x.idx (by simp)
    exact .node (by simp only [root_node, SENTINEL]; omega) (by rw [root_node, getLeft_ok hx.2, h1])
      (by rw [root_node, getRight_ok hx.2, h2])
      (levels h4 fun j hj => hr j (by simp [hj])) (levels h5 fun j hj => hr j (by simp [hj]))

/-! ### laws -/
variable [LinearOrder K]

theorem Inv.newF (z : AVLNode K V) : Inv (kn := .exactly []) (new z : AVLTree K V M) [] :=
  ⟨.nil, @Z.mk _ _ _ (.exactly []) _ _ _ _ _ _ trivial rfl rfl (Base.newF z), trivial, List.Pairwise.nil⟩

theorem Inv.forget (h : Inv (kn := kn) s E) : Inv (kn := kn.quiet) s E :=
  let ⟨t, hz, hg, hs⟩ := h
  ⟨t, hz.forget, hg, hs⟩

theorem Inv.new (z : AVLNode K V) : Inv (kn := .nothing) (new z : AVLTree K V M) [] := (Inv.newF z).forget

theorem Inv.base (h : Inv s E) : ABase s.allocator E := by
  obtain ⟨t, h, _⟩ := h
  have := h.base
  rwa [List.nil_append] at this

/-- a tree with its root and entries -/
theorem Inv.tree (h : Inv s E) : ∃ t, Z s [] t.root t [] E ∧ AVL t ∧ Sorted E ∧ t.ents = E ∧ s.root = t.root ∧
    (t = .nil ↔ E = []) ∧ (s.root = 0 ↔ E = []) ∧ t.height ≤ M + 1 ∧ ∀ f, Deep E.length f → t.height ≤ f := by
  have hle := h.base.le
  obtain ⟨t, hz, hg, hs⟩ := h
  have hE := hz.ents
  simp only [lft, rgt, List.nil_append, List.append_nil] at hE
  have h1 := height_le t
  have h2 := fun f => hg.height_le (f := f)
  rw [hE] at h1 h2
  have hnil : t = .nil ↔ E = [] := by
    rw [← hE]
    cases t <;> simp
  have hroot : s.root = t.root := hz.cshape
  refine ⟨t, hz, hg, hs, hE, hroot, hnil, ?_, by omega, h2⟩
  rw [hroot, hz.root_eq_zero, hnil]

theorem Inv.search (h : Inv s E) (hne : E ≠ []) (k : K) {fuel : Nat}
    (hf : Deep E.length fuel ∨ M + 1 ≤ fuel) :
    (Absent E k ∧ s.searchLoop k fuel s.root = .ok 0) ∨
    ∃ i v, (i, k, v) ∈ E ∧ s.searchLoop k fuel s.root = .ok i := by
  obtain ⟨t, hz, hg, hs, hE, hroot, hnil, _, hh', hh⟩ := h.tree
  rw [hroot]
  have := Z.searchLoop k hz (fun hc => hne (hnil.1 hc)) (hf.elim (hh _) hh'.trans) (by rw [hE]; exact hs)
  rwa [hE] at this

theorem Inv.getAddr (h : Inv s E) (k : K) : (Absent E k ∧ s.getAddr k = .ok 0) ∨
    ∃ i v, (i, k, v) ∈ E ∧ s.getAddr k = .ok i := by
  obtain ⟨t, hz, hg, hs, hE, hroot, hnil, hr0, hh, _⟩ := h.tree
  unfold AVLTree.getAddr
  by_cases hne : E = []
  · left
    rw [if_pos (show s.root = SENTINEL from hr0.2 hne)]
    exact ⟨by simp [hne, Absent], rfl⟩
  · rw [if_neg (show ¬ s.root = SENTINEL from fun hc => hne (hr0.1 hc)), hroot]
    have := Z.searchLoop k hz (fun hc => hne (hnil.1 hc)) (by omega : t.height ≤ M + 1) (by rw [hE]; exact hs)
    rwa [hE] at this

theorem Inv.slot (h : Inv s E) {i' : Nat} {v' : V} (h1 : (i, k, v) ∈ E) (h2 : (i', k, v') ∈ E) : i = i' ∧ v = v' := by
  obtain ⟨t, _, _, hs⟩ := h
  have := FMap.lists_ofList (L := E.map Prod.snd) (by rw [List.map_map]; exact hs.keys)
  exact slot_unique this h1 h2

theorem Inv.getAddr_none (h : Inv s E) (ha : Absent E k) : s.getAddr k = .ok 0 := by
  rcases h.getAddr k with ⟨_, e⟩ | ⟨i, v, hi, _⟩
  · exact e
  · exact absurd rfl (ha _ hi)

theorem Inv.getAddr_some (h : Inv s E) (hi : (i, k, v) ∈ E) : s.getAddr k = .ok i := by
  rcases h.getAddr k with ⟨ha, _⟩ | ⟨i', v', hi', e⟩
  · exact absurd rfl (ha _ hi)
  · rw [e, (h.slot hi hi').1]

/-- insertion, also with a smaller number of loop iterations allowed -/
theorem Inv.insertLoop [kn.Low] (hM : M + 1 < 2 ^ 32) (h : Inv s E) (hne : E ≠ []) (k : K) (v : V) {fuel : Nat}
    (hf : Deep E.length fuel ∨ M + 1 ≤ fuel) :
    (Absent E k ∧ E.length + kn.lost.length = M ∧ s.insertLoop k v fuel s.root [(none, none, s.root)] = .ok (s, none)) ∨
    (¬ (Absent E k ∧ E.length + kn.lost.length = M) ∧ ∃ s' i E', s.insertLoop k v fuel s.root [(none, none, s.root)] = .ok (s', some i) ∧
      Inv (kn := kn.ins (E.map Prod.fst) i) s' E' ∧ Ins E k v i E') := by
  obtain ⟨t, hz, hg, hs, hE, hroot, hnil, _, hh, hh'⟩ := h.tree
  rw [hroot]
  exact insertLoop_spec hM hz hg hs k v (c := []) rfl (fun hc => hne (hnil.1 hc)) (hf.elim (hh' _) hh.trans) (by simp [lft]) (by simp [rgt])

theorem Inv.insert [kn.Low] (hM : M + 1 < 2 ^ 32) (hM0 : kn.lost.length < M) (h : Inv s E) (k : K) (v : V) :
    (Absent E k ∧ E.length + kn.lost.length = M ∧ s.insert k v = .ok (s, none)) ∨
    (¬ (Absent E k ∧ E.length + kn.lost.length = M) ∧ ∃ s' i E', s.insert k v = .ok (s', some i) ∧
      Inv (kn := kn.ins (E.map Prod.fst) i) s' E' ∧ Ins E k v i E') := by
  obtain ⟨t, hz, hg, hs, hE, hroot, hnil, hr0, hh, _⟩ := h.tree
  unfold AVLTree.insert
  by_cases hne : E = []
  · rw [if_pos (show s.root = SENTINEL from hr0.2 hne)]
    right
    subst hne
    obtain ⟨a', i, e, hi, hi1, hi2, hb', hzr, hfr⟩ := h.base.addL hM (by simpa using hM0) k v
    refine ⟨by simp; omega, ⟨i, a'⟩, i, [(i, k, v)], ?_, ⟨.node .nil ⟨i, 0, k, v⟩ .nil, ?_, ?_, by simp [Sorted]⟩,
      Or.inr ⟨by simp [Absent], by simp, [], [], rfl, rfl⟩⟩
    · simp only [e, except_bind_ok]; rfl
    · exact @Z.mk _ _ _ kn.pop _ _ _ _ _ _ ⟨hzr 0 (by omega), hzr 1 (by omega), hzr 2 (by omega), trivial, trivial⟩
        rfl (by simp [lft, rgt, GN.ent]) (by simpa using hb')
    · exact ⟨rfl, by simp [height], by simp [height], trivial, trivial⟩
  · rw [if_neg (show ¬ s.root = SENTINEL from fun hc => hne (hr0.1 hc))]
    exact h.insertLoop hM hne k v (Or.inr (Nat.le_refl _))

/-- `insert` panics when every slot is in use elsewhere: the check for a full allocator is made only in a tree which is
not empty -/
theorem Inv.insert_stuck (hM : M + 1 < 2 ^ 32) (hl : kn.lost.length = M) (h : Inv s E) {k : K} {v : V} :
    s.insert k v = .error .bufferFull := by
  obtain ⟨t, hz, hg, hs, hE, hroot, hnil, hr0, hh, _⟩ := h.tree
  have hle := h.base.leL
  have hne : E = [] := List.length_eq_zero_iff.1 (by omega)
  unfold AVLTree.insert
  rw [if_pos (show s.root = SENTINEL from hr0.2 hne), h.base.fullL hM (by omega)]; rfl

theorem Inv.removePath (h : Inv s E) (k : K) {fuel : Nat}
    (hf : Deep E.length (fuel - 1) ∧ 0 < fuel ∨ M + 1 < fuel) :
    (Absent E k ∧ ∃ path, s.removePath k fuel s.root [(none, none, s.root)] = .ok (0, path)) ∨
    ∃ T c l x r, Z s [] T.root T [] E ∧ AVL T ∧ T = plug c (.node l x r) ∧ x.key = k ∧
      s.removePath k fuel s.root [(none, none, s.root)] = .ok (x.idx, fp c x.idx) := by
  obtain ⟨t, hz, hg, hs, hE, hroot, hnil, _, hh, hh'⟩ := h.tree
  rw [hroot]
  rcases removePath_spec hz hs k (t := t) (c := []) (fuel := fuel) rfl
    (hf.elim (fun h => by have := hh' _ h.1; omega) (by omega)) (by simp [lft]) (by simp [rgt])
    with h1 | ⟨c', l, x, r, h1, h2, h3⟩
  · exact Or.inl h1
  · exact Or.inr ⟨t, c', l, x, r, hz, hg, h1, h2, h3⟩

theorem Inv.remove [kn.Low] (hM : M + 1 < 2 ^ 32) (h : Inv s E) (k : K) :
    (Absent E k ∧ s.remove k = .ok (s, none)) ∨
    (∃ s' v E' i, s.remove k = .ok (s', some v) ∧ Inv (kn := kn.push i) s' E' ∧ Del E k v E' ∧ (i, k, v) ∈ E) := by
  obtain ⟨t, _, _, hs, hE, hroot, hnil, hr0, hh, _⟩ := h.tree
  unfold AVLTree.remove
  by_cases hne : E = []
  · rw [if_pos (show s.root = SENTINEL from hr0.2 hne)]
    exact Or.inl ⟨by simp [hne, Absent], rfl⟩
  · rw [if_neg (show ¬ s.root = SENTINEL from fun hc => hne (hr0.1 hc))]
    rcases h.removePath k (fuel := M + 2) (Or.inr (by omega)) with ⟨ha, path, e⟩ | ⟨T, c, l, x, r, hz, hg, hT, hk, e⟩
    · left
      refine ⟨ha, ?_⟩
      simp only [e, except_bind_ok]; rfl
    · right
      obtain ⟨s', t', e', hz', hg', _⟩ := hz.removeNode (lim := M + 1) hM hg hT (by
        have := T.height_le
        have := hz.len_le
        omega)
      have hz2 := hz.at hT
      have hx := hz2.rng (i := x.idx) (Or.inl (by simp))
      have hd : Del E k x.val (lft c ++ (l.ents ++ r.ents) ++ rgt c) :=
        ⟨lft c ++ l.ents, x.idx, r.ents ++ rgt c, by rw [← hz2.ents]; simp [GN.ent, hk], by simp⟩
      refine ⟨s', x.val, _, x.idx, ?_, ⟨t', hz', hg', hd.sorted hs⟩, hd, by rw [← hz2.ents]; simp [GN.ent, hk]⟩
      simp only [e, except_bind_ok]
      rw [if_neg (show ¬ x.idx = SENTINEL by simp only [SENTINEL]; omega), e']

theorem Inv.getMin (h : Inv s E) : s.getMinIndex = .ok ((E.head?.map Prod.fst).getD 0) ∧
    s.getMin = .ok (E.head?.map Prod.snd) := by
  obtain ⟨t, hz, hg, hs, hE, hroot, hnil, hr0, hh, _⟩ := h.tree
  have hi : s.getMinIndex = .ok ((E.head?.map Prod.fst).getD 0) := by
    unfold AVLTree.getMinIndex
    by_cases hne : E = []
    · rw [hr0.2 hne, hne]
      rfl
    · rw [if_neg (show ¬ s.root = SENTINEL from fun hc => hne (hr0.1 hc))]
      obtain ⟨e, he, e'⟩ := minLoop_spec hz (fun hc => hne (hnil.1 hc)) hh
      rw [hroot, e', ← hE, he]; rfl
  refine ⟨hi, ?_⟩
  unfold AVLTree.getMin
  rw [hi, except_bind_ok]
  cases hEh : E with
  | nil => simp [SENTINEL]
  | cons e E' =>
    have hr := h.base.range (i := e.1) (by rw [hEh]; simp)
    have hn := getNode_ok h.base (i := e.1) (k := e.2.1) (v := e.2.2) (by rw [hEh]; simp)
    show (if e.1 = SENTINEL then _ else _) = _
    rw [if_neg (show ¬ e.1 = SENTINEL by simp [SENTINEL]; omega)]
    show (s.getNode e.1 >>= _) = _
    rw [hn]; rfl

theorem Inv.getMax (h : Inv s E) : s.getMaxIndex = .ok ((E.getLast?.map Prod.fst).getD 0) ∧
    s.getMax = .ok (E.getLast?.map Prod.snd) := by
  obtain ⟨t, hz, hg, hs, hE, hroot, hnil, hr0, hh, _⟩ := h.tree
  have hi : s.getMaxIndex = .ok ((E.getLast?.map Prod.fst).getD 0) := by
    unfold AVLTree.getMaxIndex
    by_cases hne : E = []
    · rw [hr0.2 hne, hne]
      rfl
    · rw [if_neg (show ¬ s.root = SENTINEL from fun hc => hne (hr0.1 hc))]
      obtain ⟨e, he, e'⟩ := maxLoop_spec hz (fun hc => hne (hnil.1 hc)) hh
      rw [hroot, e', ← hE, he]; rfl
  refine ⟨hi, ?_⟩
  unfold AVLTree.getMax
  rw [hi, except_bind_ok]
  rcases List.eq_nil_or_concat E with hEh | ⟨E', e, hEh⟩
  · simp [hEh, SENTINEL]
  · have hr := h.base.range (i := e.1) (by rw [hEh]; simp)
    have hn := getNode_ok h.base (i := e.1) (k := e.2.1) (v := e.2.2) (by rw [hEh]; simp)
    have hl : E.getLast? = some e := by rw [hEh]; simp
    rw [hl]
    show (if e.1 = SENTINEL then _ else _) = _
    rw [if_neg (show ¬ e.1 = SENTINEL by simp [SENTINEL]; omega)]
    show (s.getNode e.1 >>= _) = _
    rw [hn]; rfl

end
open AVLSpec
variable [LinearOrder K]

omit [LinearOrder K] in
theorem findMin_eq (s : AVLTree K V M) : s.findMin = (s.getMin).map (Option.map Prod.snd) := by
  unfold AVLTree.findMin AVLTree.getMin
  cases s.getMinIndex with
  | error _ => rfl
  | ok i =>
    simp only [except_bind_ok]
    split
    · rfl
    · cases s.getNode i <;> rfl

omit [LinearOrder K] in
theorem findMax_eq (s : AVLTree K V M) : s.findMax = (s.getMax).map (Option.map Prod.snd) := by
  unfold AVLTree.findMax AVLTree.getMax
  cases s.getMaxIndex with
  | error _ => rfl
  | ok i =>
    simp only [except_bind_ok]
    split
    · rfl
    · cases s.getNode i <;> rfl

omit [LinearOrder K] in
/-- `get` is `get_addr` and reading there -/
theorem get_eq [LT K] [DecidableLT K] [PartialGt K] (s : AVLTree K V M) (k : K) : s.get k = (do
    let i ← s.getAddr k
    if i = SENTINEL then return none
    return some (← s.getNode i).value) := by
  unfold AVLTree.get AVLTree.getAddr
  split
  · rfl
  · rfl

omit [LinearOrder K] in
theorem getMut_eq [LT K] [DecidableLT K] [PartialGt K] (s : AVLTree K V M) (k : K) : s.getMut k = (do
    let i ← s.getAddr k
    if i = SENTINEL then return none
    let _ ← s.getNode i
    return some i) := by
  unfold AVLTree.getMut AVLTree.getAddr
  split
  · rfl
  · rfl

/-- Iteration, whatever is known about the free list. -/
theorem walksL (kn : Known) :
    ((api : Api (AVLTree K V M) K V).less kn.lost.length).Walks M (Inv (kn := kn)) It where
  slots h := h.base.nodup
  range h := fun hi => h.base.range hi
  le h := h.base.le
  len {s E} h := by
    show s.allocator.size - _ = _
    rw [h.base.sizeL]; omega
  empty _ := rfl
  contains {s k r} e := by
    show AVLTree.contains _ _ = _
    unfold AVLTree.contains
    rw [show AVLTree.get s k = _ from e]; rfl
  index {s k r} e := by
    show AVLTree.index _ _ = _
    unfold AVLTree.index
    rw [show AVLTree.get s k = _ from e]; rfl
  readVal {s E} h {i k v} hi := by
    show (do let n ← s.getNode i; return n.value) = _
    rw [getNode_ok h.base hi]; rfl
  read {s E it l} h _ {i k v} _ hi := by
    have hi : (i, k, v) ∈ E := hi
    show (do let n ← s.getNode i; return (n.key, n.value)) = _
    rw [getNode_ok h.base hi]; rfl
  write := by
    rintro s L1 i k v L2 ⟨t, hz, hg, hs⟩ w
    obtain ⟨s', e, hz', _, hrg⟩ := hz.setVal w
    exact ⟨s', e, ⟨_, hz', hg.put _ _,
      hs.set⟩, fun it l hi => It.congr hrg hi⟩
  it := fun ⟨t, hz, _⟩ => ⟨_, It.new hz, by simp [api, Api.less]⟩
  nextMut _ h := h.nextMut
  nextBackMut _ h := h.nextBackMut
  next s it := by
    show Iter.next s it = (Iter.nextLoop s (M + 2) it >>= _)
    unfold Iter.next
    cases Iter.nextLoop s (M + 2) it with
    | error _ => rfl
    | ok p =>
      obtain ⟨it, o⟩ := p
      cases o with
      | none => rfl
      | some i =>
        show (s.getNode i >>= _) = ((s.getNode i >>= _) >>= _)
        cases s.getNode i <;> rfl
  nextBack s it := by
    show Iter.nextBack s it = (Iter.nextBackLoop s (M + 2) it >>= _)
    unfold Iter.nextBack
    cases Iter.nextBackLoop s (M + 2) it with
    | error _ => rfl
    | ok p =>
      obtain ⟨it, o⟩ := p
      cases o with
      | none => rfl
      | some i =>
        show (s.getNode i >>= _) = ((s.getNode i >>= _) >>= _)
        cases s.getNode i <;> rfl

theorem walks (kn : Known) (hL : kn.lost = [] := by rfl) :
    (api : Api (AVLTree K V M) K V).Walks M (Inv (kn := kn)) It :=
  (walksL kn).plain (by rw [hL]; rfl) fun _ => rfl

/-- The AVL tree satisfies the laws of a bounded ordered map. -/
theorem lawsS (kn : Known) [kn.Low] (hM : M + 1 < 2 ^ 32) :
    ((api : Api (AVLTree K V M) K V).less kn.lost.length).soft.Laws M (fun E k => Absent E k ∧ E.length + kn.lost.length = M) (Inv (kn := kn.quiet)) It where
  toWalks := (walksL kn.quiet).soft
  sorted := fun ⟨_, _, _, hs⟩ => hs
  keys := fun ⟨_, _, _, hs⟩ => hs.keys
  insert {s E} h k v := by
    have hsoft : ((api : Api (AVLTree K V M) K V).less kn.lost.length).soft.insert s k v =
        Api.refuse s (s.insert k v) := rfl
    rw [hsoft]
    rcases Nat.lt_or_ge kn.lost.length M with hM0 | hM0
    · rcases h.insert (kn := kn.quiet) hM hM0 k v with ⟨h1, h2, e⟩ | ⟨h1, s', i, E', e, h', hi⟩
      · exact Or.inl ⟨⟨h1, h2⟩, by rw [e]; rfl⟩
      · exact Or.inr ⟨h1, s', i, i, E', by rw [e]; rfl, h', hi⟩
    · have hle : E.length + kn.lost.length ≤ M := h.base.leL
      have hE : E = [] := List.length_eq_zero_iff.1 (by omega)
      subst hE
      exact Or.inl ⟨⟨by simp [Absent], by simp only [List.length_nil]; omega⟩, by rw [h.insert_stuck (kn := kn.quiet) hM (show kn.lost.length = M by omega)]; rfl⟩
  remove h k := by
    rcases h.remove hM k with h | ⟨s', v, E', i, e, h', hd, _⟩
    · exact Or.inl h
    · exact Or.inr ⟨s', v, E', e, h', hd⟩
  get_none h k ha := by
    show AVLTree.get _ _ = _
    rw [get_eq]
    rw [h.getAddr_none ha, except_bind_ok]; rfl
  get_some {s E} h {i k v} hi := by
    show AVLTree.get _ _ = _
    rw [get_eq]
    have hr := h.base.range (i := i) (List.mem_map_of_mem (f := Prod.fst) hi)
    rw [h.getAddr_some hi, except_bind_ok, if_neg (show ¬ i = SENTINEL by simp [SENTINEL]; omega),
      getNode_ok h.base hi]
    rfl
  getMut_none h k ha := by
    show AVLTree.getMut _ _ = _
    rw [getMut_eq]
    rw [h.getAddr_none ha, except_bind_ok]; rfl
  getMut_some {s E} h {i k v} hi := by
    show AVLTree.getMut _ _ = _
    rw [getMut_eq]
    have hr := h.base.range (i := i) (List.mem_map_of_mem (f := Prod.fst) hi)
    rw [h.getAddr_some hi, except_bind_ok, if_neg (show ¬ i = SENTINEL by simp [SENTINEL]; omega),
      getNode_ok h.base hi]
    rfl

/-- The laws while the slots in use elsewhere leave room: `insert` does not panic. -/
theorem lawsL (kn : Known) [kn.Low] (hM : M + 1 < 2 ^ 32) (hM0 : kn.lost.length < M) :
    ((api : Api (AVLTree K V M) K V).less kn.lost.length).Laws M (fun E k => Absent E k ∧ E.length + kn.lost.length = M) (Inv (kn := kn.quiet)) It :=
  (lawsS kn hM).firm (walksL kn.quiet) fun {s E} h k v => by
    show s.insert k v ≠ _
    rcases h.insert (kn := kn.quiet) hM hM0 k v with ⟨_, _, e⟩ | ⟨_, s', i, E', e, _⟩ <;> rw [e] <;> simp

/-- The laws when no slot is in use elsewhere. -/
theorem laws (hM : M + 1 < 2 ^ 32) (hM0 : 0 < M) :
    (api : Api (AVLTree K V M) K V).Laws M (fun E k => Absent E k ∧ E.length = M) Inv It :=
  (lawsL .nothing hM hM0).plain rfl fun _ => rfl

/-- One call is one step of a bounded finite map; entries keep their slots. -/
theorem call_spec (hM : M + 1 < 2 ^ 32) (hM0 : 0 < M) (s : AVLTree K V M) (E : Ents K V) (m : FMap K V)
    (op : Op K V) (h : Inv s E) (hm : m.Lists (E.map Prod.snd)) :
    ∃ s' o E' m', call s op = .ok (s', o) ∧ Inv s' E' ∧ m'.Lists (E'.map Prod.snd) ∧
      Step (treeRules K V M) m op o m' ∧
      ∀ i k v, (i, k, v) ∈ E → ¬ op = .remove k → ∃ v', (i, k, v') ∈ E' := by
  obtain ⟨s', o, E', m', e, h', hm', hst, hk⟩ := (laws hM hM0).call_spec (Rl := treeRules K V M)
    (by
      intro E m k hm
      rw [absent_iff hm]
      simp only [treeRules, hm.len, List.length_map])
    (fun _ h => h) rfl s E m op h hm
  refine ⟨s', o, E', m', e, h', hm', hst, ?_⟩
  intro i k v hi hr
  refine hk i k v hi ?_
  rintro k' rfl rfl
  exact hr rfl

/-- every history on a new tree -/
theorem run_new (hM : M + 1 < 2 ^ 32) (hM0 : 0 < M) (z : AVLNode K V) (ops : List (Op K V)) :
    ∃ s os E m, run call (new z : AVLTree K V M) ops = .ok (s, os) ∧ Inv s E ∧
      m.Lists (E.map Prod.snd) ∧ Steps (treeRules K V M) FMap.empty ops os m := by
  obtain ⟨s, os, E, m, e, h, hm, ht, _⟩ := run_trace (gone := fun op _ k => op = .remove k) (call_spec hM hM0) ops
    (new z) [] FMap.empty (Inv.new z) ⟨List.Pairwise.nil, by simp [FMap.empty], rfl⟩
  exact ⟨s, os, E, m, e, h, hm, ht⟩

/-! ### more loop iterations allowed: same result -/

omit [LinearOrder K] in
theorem searchLoop_mono [LT K] [DecidableLT K] [PartialGt K] (k : K) {r : Nat} : ∀ {f f' i : Nat}, s.searchLoop k f i = .ok r → f ≤ f' →
    s.searchLoop k f' i = .ok r := by
  intro f
  induction f with
  | zero => intro f' i h; cases h
  | succ f ih =>
    intro f' i h hf
    obtain ⟨g, rfl⟩ : ∃ g, f' = g + 1 := ⟨f' - 1, by omega⟩
    simp only [AVLTree.searchLoop] at h ⊢
    cases e : s.getNode i with
    | error _ => rw [e] at h; cases h
    | ok n =>
      simp only [e, except_bind_ok] at h ⊢
      have aux : ∀ j, (if j = SENTINEL then pure SENTINEL else s.searchLoop k f j) = (.ok r : R Nat) →
          (if j = SENTINEL then pure SENTINEL else s.searchLoop k g j) = (.ok r : R Nat) := by
        intro j hj
        by_cases h0 : j = SENTINEL
        · rw [if_pos h0] at hj ⊢; exact hj
        · rw [if_neg h0] at hj ⊢; exact ih hj (by omega)
      by_cases h1 : k < n.key
      · rw [if_pos h1] at h ⊢
        cases e' : s.getField i LEFT with
        | error _ => rw [e'] at h; cases h
        | ok j =>
          rw [e', except_bind_ok] at h; rw [except_bind_ok]
          exact aux j h
      · rw [if_neg h1] at h ⊢
        by_cases h2 : PartialGt.gt k n.key
        · rw [if_pos h2] at h ⊢
          cases e' : s.getField i RIGHT with
          | error _ => rw [e'] at h; cases h
          | ok j =>
            rw [e', except_bind_ok] at h; rw [except_bind_ok]
            exact aux j h
        · rw [if_neg h2] at h ⊢; exact h

omit [LinearOrder K] in
theorem insertLoop_mono [LT K] [DecidableLT K] [PartialGt K] (k : K) (v : V) {r : AVLTree K V M × Option Nat} : ∀ {f f' i : Nat} {p : List Ancestor},
    s.insertLoop k v f i p = .ok r → f ≤ f' → s.insertLoop k v f' i p = .ok r := by
  intro f
  induction f with
  | zero => intro f' i p h; cases h
  | succ f ih =>
    intro f' i p h hf
    obtain ⟨g, rfl⟩ : ∃ g, f' = g + 1 := ⟨f' - 1, by omega⟩
    simp only [AVLTree.insertLoop] at h ⊢
    cases e : s.getNode i with
    | error _ => rw [e] at h; cases h
    | ok n =>
      simp only [e, except_bind_ok] at h ⊢
      by_cases h1 : k < n.key
      · rw [if_pos h1] at h ⊢
        cases e' : s.getField i LEFT with
        | error _ => rw [e'] at h; cases h
        | ok j =>
          rw [e', except_bind_ok] at h; rw [except_bind_ok]
          by_cases h0 : j = SENTINEL
          · rw [if_pos h0] at h ⊢; exact h
          · rw [if_neg h0] at h ⊢; exact ih h (by omega)
      · rw [if_neg h1] at h ⊢
        by_cases h2 : PartialGt.gt k n.key
        · rw [if_pos h2] at h ⊢
          cases e' : s.getField i RIGHT with
          | error _ => rw [e'] at h; cases h
          | ok j =>
            rw [e', except_bind_ok] at h; rw [except_bind_ok]
            by_cases h0 : j = SENTINEL
            · rw [if_pos h0] at h ⊢; exact h
            · rw [if_neg h0] at h ⊢; exact ih h (by omega)
        · rw [if_neg h2] at h ⊢; exact h

omit [LinearOrder K] in
theorem removePath_mono [LT K] [DecidableLT K] [PartialGt K] (k : K) {r : Nat × List Ancestor} : ∀ {f f' i : Nat} {p : List Ancestor},
    s.removePath k f i p = .ok r → f ≤ f' → s.removePath k f' i p = .ok r := by
  intro f
  induction f with
  | zero => intro f' i p h; cases h
  | succ f ih =>
    intro f' i p h hf
    obtain ⟨g, rfl⟩ : ∃ g, f' = g + 1 := ⟨f' - 1, by omega⟩
    simp only [AVLTree.removePath] at h ⊢
    by_cases h0 : i = SENTINEL
    · rw [if_pos h0] at h ⊢; exact h
    · rw [if_neg h0] at h ⊢
      cases e : s.getNode i with
      | error _ => rw [e] at h; cases h
      | ok n =>
        simp only [e, except_bind_ok] at h ⊢
        by_cases h1 : k < n.key
        · rw [if_pos h1] at h ⊢
          cases e' : s.getField i LEFT with
          | error _ => rw [e'] at h; cases h
          | ok j =>
            rw [e', except_bind_ok] at h; rw [except_bind_ok]
            exact ih h (by omega)
        · rw [if_neg h1] at h ⊢
          by_cases h2 : PartialGt.gt k n.key
          · rw [if_pos h2] at h ⊢
            cases e' : s.getField i RIGHT with
            | error _ => rw [e'] at h; cases h
            | ok j =>
              rw [e', except_bind_ok] at h; rw [except_bind_ok]
              exact ih h (by omega)
          · rw [if_neg h2] at h ⊢; exact h

/-- the loops stop after logarithmically many iterations -/
theorem Inv.depth (hM : M + 1 < 2 ^ 32) (h : Inv s E) (hne : E ≠ []) (k : K) (v : V) {fuel : Nat}
    (hf : Deep E.length fuel) :
    s.searchLoop k fuel s.root = s.getAddr k ∧
    s.insertLoop k v fuel s.root [(none, none, s.root)] = s.insert k v ∧
    s.removePath k (fuel + 1) s.root [(none, none, s.root)] =
      s.removePath k (M + 2) s.root [(none, none, s.root)] := by
  obtain ⟨t, hz, hg, hs, hE, hroot, hnil, hr0, hh, _⟩ := h.tree
  have hr : ¬ s.root = SENTINEL := fun hc => hne (hr0.1 hc)
  refine ⟨?_, ?_, ?_⟩
  · unfold AVLTree.getAddr
    rw [if_neg hr]
    have h1 : ∀ f, (Deep E.length f ∨ M + 1 ≤ f) → ∃ r, s.searchLoop k f s.root = .ok r := by
      intro f hf
      rcases h.search hne k hf with ⟨_, e⟩ | ⟨i, _, _, e⟩ <;> exact ⟨_, e⟩
    obtain ⟨r1, e1⟩ := h1 fuel (Or.inl hf)
    obtain ⟨r2, e2⟩ := h1 (M + 1) (Or.inr (Nat.le_refl _))
    rcases Nat.le_total fuel (M + 1) with hle | hle
    · rw [searchLoop_mono k e1 hle, e1]
    · rw [searchLoop_mono k e2 hle, e2]
  · unfold AVLTree.insert
    rw [if_neg hr]
    have h1 : ∀ f, (Deep E.length f ∨ M + 1 ≤ f) →
        ∃ r, s.insertLoop k v f s.root [(none, none, s.root)] = .ok r := by
      intro f hf
      rcases h.insertLoop hM hne k v hf with ⟨_, _, e⟩ | ⟨_, _, _, _, e, _⟩ <;> exact ⟨_, e⟩
    obtain ⟨r1, e1⟩ := h1 fuel (Or.inl hf)
    obtain ⟨r2, e2⟩ := h1 (M + 1) (Or.inr (Nat.le_refl _))
    rcases Nat.le_total fuel (M + 1) with hle | hle
    · rw [insertLoop_mono k v e1 hle, e1]
    · rw [insertLoop_mono k v e2 hle, e2]
  · have h1 : ∀ f, (Deep E.length (f - 1) ∧ 0 < f ∨ M + 1 < f) →
        ∃ r, s.removePath k f s.root [(none, none, s.root)] = .ok r := by
      intro f hf
      rcases h.removePath k hf with ⟨_, p, e⟩ | ⟨_, _, _, _, _, _, _, _, _, e⟩ <;> exact ⟨_, e⟩
    obtain ⟨r1, e1⟩ := h1 (fuel + 1) (Or.inl ⟨hf, by omega⟩)
    obtain ⟨r2, e2⟩ := h1 (M + 2) (Or.inr (by omega))
    rcases Nat.le_total (fuel + 1) (M + 2) with hle | hle
    · rw [removePath_mono k e1 hle, e1]
    · rw [removePath_mono k e2 hle, e2]

/-! ### addresses -/

theorem Inv.getAddr_iff (h : Inv s E) (hi : i ≠ 0) : s.getAddr k = .ok i ↔ ∃ v, (i, k, v) ∈ E := by
  constructor
  · intro e
    rcases h.getAddr k with ⟨_, e'⟩ | ⟨i', v', hi', e'⟩
    · rw [e] at e'; cases e'; exact absurd rfl hi
    · rw [e] at e'; cases e'; exact ⟨v', hi'⟩
  · rintro ⟨v, hv⟩; exact h.getAddr_some hv

end AVLTree
end Sokoban

