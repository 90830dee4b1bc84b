import Verif.Proof.RBIter
import Verif.Proof.RBPic
import Verif.Spec.RedBlack

/-
The laws of `Api.Laws` for the red-black tree, its extremes, balance and histories.
-/
namespace Sokoban
open BT Ctx NodeAllocator Ents MapSpec
variable {K V : Type}

namespace RedBlackTree
variable {M : Nat} {s : RedBlackTree K V M} {c : Ctx K V} {t : BT K V} {X E : List (Nat × K × V)}
  {l r : BT K V} {x : GN K V} {k : K} {v : V} {i : Nat}

/-! ### extremes -/
section
variable {kn : Known}

theorem findMin_spec : ∀ {t : BT K V} {c : Ctx K V} {fuel : Nat}, Z s c t X E → t ≠ .nil → t.height ≤ fuel →
    ∃ e, t.ents.head? = some e ∧ s.findMin fuel t.root = .ok e.1 := by
  intro t
  induction t with
  | nil => intro c fuel _ h; exact absurd rfl h
  | node l x r ihl _ =>
    intro c fuel h _ hf
    obtain ⟨fuel, rfl⟩ : ∃ f, fuel = f + 1 := ⟨fuel - 1, by simp [height] at hf; omega⟩
    simp only [height] at hf
    have hl := Z.down (d := false) h
    simp only [root_node, findMin, h.getLeft, except_bind_ok]
    by_cases hln : l = .nil
    · subst hln
      exact ⟨x.ent, rfl, by simp [SENTINEL]⟩
    · obtain ⟨e, he, e'⟩ := ihl (fuel := fuel) hl hln (by omega)
      refine ⟨e, by simp [he], ?_⟩
      rw [if_pos (show l.root ≠ SENTINEL from fun hc => hln (hl.root_eq_zero.1 hc)), e']

theorem findMax_spec : ∀ {t : BT K V} {c : Ctx K V} {fuel : Nat}, Z s c t X E → t ≠ .nil → t.height ≤ fuel →
    ∃ e, t.ents.getLast? = some e ∧ s.findMax fuel t.root = .ok e.1 := by
  intro t
  induction t with
  | nil => intro c fuel _ h; exact absurd rfl h
  | node l x r _ ihr =>
    intro c fuel h _ hf
    obtain ⟨fuel, rfl⟩ : ∃ f, fuel = f + 1 := ⟨fuel - 1, by simp [height] at hf; omega⟩
    simp only [height] at hf
    have hr := Z.down (d := true) h
    simp only [root_node, findMax, h.getRight, except_bind_ok]
    by_cases hrn : r = .nil
    · subst hrn
      exact ⟨x.ent, by simp, by simp [SENTINEL]⟩
    · obtain ⟨e, he, e'⟩ := ihr (fuel := fuel) hr hrn (by omega)
      refine ⟨e, by rw [ents_node, List.getLast?_append, List.getLast?_cons, he]; simp, ?_⟩
      rw [if_pos (show r.root ≠ SENTINEL from fun hc => hrn (hr.root_eq_zero.1 hc)), e']

/-! ### validity -/

theorem tag_ok (h : RBShape s.rg i t) (hr : ∀ j ∈ t.ids, 1 ≤ j ∧ j ≤ M) :
    s.isRed t.root = .ok (decide (t.tag = 1)) ∧ s.isBlack t.root = .ok (decide (t.tag = 0)) := by
  cases t with
  | nil =>
    have : s.rg 0 3 = 0 := reg_zero _ _
    exact ⟨by rw [root_nil, isRed_ok (by omega), this]; rfl, by rw [root_nil, isBlack_ok (by omega), this]; rfl⟩
  | node l x r =>
    have hx := hr x.idx (by simp)
    obtain ⟨_, _, _, h4, _, _⟩ := h
    exact ⟨by rw [root_node, isRed_ok hx.2, h4]; rfl, by rw [root_node, isBlack_ok hx.2, h4]; rfl⟩

theorem root_nil_iff (hr : ∀ j ∈ t.ids, 1 ≤ j ∧ j ≤ M) : t.root = 0 ↔ t = .nil := by
  cases t with
  | nil => simp
  | node l x r => have := hr x.idx (by simp); simp; omega

theorem Z.range (h : Z s [] t [] E) : ∀ j ∈ t.ids, 1 ≤ j ∧ j ≤ M := fun _ hj => h.rng (Or.inl hj)

open RedBlackSpec in
theorem isValid_spec (h : Z s [] t [] E) (hg : Good [] t) (hL : kn.lost = [] := by rfl) : s.isValid = .ok true := by
  have hb := h.base
  rw [List.nil_append] at hb
  have hE := h.ents
  simp only [lft, rgt, List.nil_append, List.append_nil] at hE
  have hsz : s.len = E.length := hb.size hL
  obtain ⟨n, h1, _, _, h4⟩ := hg
  by_cases h0 : s.len = 0
  · unfold isValid; rw [if_pos h0]; rfl
  · have hne : toPic t ≠ .nil := by
      cases t with
      | nil => simp at hE; rw [hsz] at h0; exact absurd (by rw [hE]; rfl) h0
      | node l x r => simp [toPic]
    obtain ⟨b, e, hb'⟩ := isValid_pic (p := toPic t) (s := s) ⟨by rw [h.root]; exact holds_toPic h, by
      rw [nodes_toPic, hE]; simpa [List.map_map, Function.comp_def] using hb.nodup⟩ hne h0
    rw [e, hb'.2 ⟨by rw [red_toPic, h4 rfl]; decide, noRedRed_toPic h1, fun a ha b hb => by
      rw [nilBlacks_toPic h1 a (leafBlacks_sub _ a ha), nilBlacks_toPic h1 b (leafBlacks_sub _ b hb)]⟩]

/-! ### the red-black conditions along paths -/
open RedBlackSpec

theorem step_ok (h : RBShape s.rg i t) (hr : ∀ j ∈ t.ids, 1 ≤ j ∧ j ≤ M) (d : Bool) (ht : t ≠ .nil) :
    ∃ a y b p, t = br d a y b ∧ (if d then s.getRight t.root else s.getLeft t.root) = .ok a.root ∧
      RBShape s.rg p a ∧ ∀ j ∈ a.ids, 1 ≤ j ∧ j ≤ M := by
  cases t with
  | nil => exact absurd rfl ht
  | node l x r =>
    have hx := hr x.idx (by simp)
    obtain ⟨k1, k2, _, _, k5, k6⟩ := h
    cases d
    · exact ⟨l, x, r, _, rfl, by simp [getLeft_ok hx.2, k1], k5, fun j hj => hr j (by simp [hj])⟩
    · exact ⟨r, x, l, _, rfl, by simp [getRight_ok hx.2, k2], k6, fun j hj => hr j (by simp [hj])⟩

theorem walk_zero : ∀ ds, walk s 0 ds = .ok 0
  | [] => rfl
  | d :: ds => by
    have h0 : s.getLeft 0 = .ok 0 := by rw [getLeft_ok (by omega)]; exact congrArg _ (reg_zero _ _)
    have h1 : s.getRight 0 = .ok 0 := by rw [getRight_ok (by omega)]; exact congrArg _ (reg_zero _ _)
    unfold walk
    cases d <;> simp [h0, h1, walk_zero ds]

/-- a path leads to a subtree -/
theorem walk_spec : ∀ (ds : List Bool) {t : BT K V} {i n : Nat}, RBShape s.rg i t →
    (∀ j ∈ t.ids, 1 ≤ j ∧ j ≤ M) → RB t n →
    ∃ (t' : BT K V) (i' n' : Nat), walk s t.root ds = .ok t'.root ∧ RBShape s.rg i' t' ∧ (∀ j ∈ t'.ids, 1 ≤ j ∧ j ≤ M) ∧ RB t' n'
  | [], t, i, n, h, hr, hb => ⟨t, i, n, rfl, h, hr, hb⟩
  | d :: ds, t, i, n, h, hr, hb => by
    by_cases ht : t = .nil
    · subst ht
      exact ⟨.nil, i, n, walk_zero _, h, hr, hb⟩
    · obtain ⟨a, y, b, p, rfl, e, ha, har⟩ := step_ok h hr d ht
      have : ∃ m, RB a m := by
        rcases RB_br.1 hb with ⟨_, _, _, h, _⟩ | ⟨_, m, _, h, _⟩
        · exact ⟨_, h⟩
        · exact ⟨_, h⟩
      obtain ⟨m, hm⟩ := this
      obtain ⟨t', i', n', e', h'⟩ := walk_spec ds ha har hm
      refine ⟨t', i', n', ?_, h'⟩
      unfold walk
      rw [e]; exact e'

theorem blacks_spec : ∀ (ds : List Bool) {t : BT K V} {i n : Nat}, RBShape s.rg i t →
    (∀ j ∈ t.ids, 1 ≤ j ∧ j ≤ M) → RB t n → ToNil s t.root ds → blacks s t.root ds = .ok n
  | [], t, i, n, h, hr, hb, ⟨hw, _⟩ => by
    have : t = .nil := (root_nil_iff hr).1 (by simpa [walk, SENTINEL] using hw)
    subst this
    have : n = 0 := hb
    rw [this]; rfl
  | d :: ds, t, i, n, h, hr, hb, ⟨hw, hp⟩ => by
    have ht : t ≠ .nil := by
      obtain ⟨j, e, hj⟩ := hp [] d (by simp)
      rintro rfl
      simp [walk] at e
      exact hj e.symm
    have etag := (tag_ok h hr).2
    obtain ⟨a, y, b, p, rfl, e, ha, har⟩ := step_ok h hr d ht
    rw [tag_br] at etag
    have hn : ∃ m, RB a m ∧ n = m + (if y.tag = 0 then 1 else 0) := by
      rcases RB_br.1 hb with ⟨h1, _, _, h, _⟩ | ⟨h1, m, h2, h, _⟩
      · exact ⟨_, h, by simp [h1]⟩
      · exact ⟨_, h, by simp [h1, h2]⟩
    obtain ⟨m, hm, hnm⟩ := hn
    have hnil : ToNil s a.root ds := by
      refine ⟨?_, fun q d' hq => ?_⟩
      · unfold walk at hw; rw [e] at hw; exact hw
      · obtain ⟨j, ej, hj⟩ := hp (d :: q) d' (by simpa using hq)
        refine ⟨j, ?_, hj⟩
        unfold walk at ej; rw [e] at ej; exact ej
    have ih := blacks_spec ds ha har hm hnil
    unfold blacks
    rw [etag, except_bind_ok, e, except_bind_ok, ih, except_bind_ok, hnm]
    simp only [decide_eq_true_eq]; rfl

/-! ### laws -/
variable [LinearOrder K]

theorem Inv.newF (z : RBNode K V) : Inv (kn := .exactly []) (new z : RedBlackTree K V M) [] :=
  ⟨.nil, @Z.mk _ _ _ (.exactly []) _ _ _ _ _ trivial rfl rfl (Base.newF z), ⟨0, rfl, trivial, by simp [ctag], by simp⟩, List.Pairwise.nil⟩

theorem Inv.forget (h : Inv (kn := kn) s E) : Inv (kn := kn.quiet) s E :=
  let ⟨t, hz, hg, hs⟩ := h
  ⟨t, hz.forget, hg, hs⟩

theorem Inv.new (z : RBNode K V) : Inv (kn := .nothing) (new z : RedBlackTree K V M) [] := (Inv.newF z).forget

theorem Inv.base (h : Inv s E) : RBase s.allocator E := by
  obtain ⟨t, h, _⟩ := h
  have := h.base
  rwa [List.nil_append] at this

omit [LinearOrder K] in
/-- height bound -/
theorem Good.height_le (h : Good [] t) : t.height ≤ 2 * (t.ents.length + 1).log2 := by
  obtain ⟨n, h1, _, _, h4⟩ := h
  have h5 := h1.height
  have h6 := h1.size
  rw [h4 rfl] at h5
  have : n ≤ (t.ents.length + 1).log2 := (Nat.le_log2 (by omega)).2 h6
  omega

/-- a tree with its root and entries -/
theorem Inv.tree (h : Inv s E) : ∃ t, Z s [] t [] E ∧ Good [] t ∧ Sorted E ∧ t.ents = E ∧ s.root = t.root ∧
    (t = .nil ↔ E = []) ∧ (s.root = 0 ↔ E = []) ∧ t.height ≤ M + 1 ∧ t.height ≤ 2 * (E.length + 1).log2 := by
  have hle := h.base.le
  obtain ⟨t, hz, hg, hs⟩ := h
  have hE := hz.ents
  simp only [lft, rgt, List.nil_append, List.append_nil] at hE
  have h1 := height_le t
  have h2 := Good.height_le hg
  rw [hE] at h1 h2
  have hnil : t = .nil ↔ E = [] := by
    rw [← hE]
    cases t <;> simp
  refine ⟨t, hz, hg, hs, hE, hz.root, hnil, ?_, by omega, h2⟩
  rw [hz.root, hz.root_eq_zero, hnil]

theorem Inv.search (h : Inv s E) (hne : E ≠ []) (k : K) {fuel : Nat} (hf : 2 * (E.length + 1).log2 ≤ fuel) :
    (Absent E k ∧ s.getAddrLoop k fuel s.root = .ok 0) ∨
    ∃ i v, (i, k, v) ∈ E ∧ s.getAddrLoop k fuel s.root = .ok i := by
  obtain ⟨t, hz, hg, hs, hE, hroot, hnil, _, _, hh⟩ := h.tree
  rw [hroot]
  have := Z.getAddrLoop k hz (fun hc => hne (hnil.1 hc)) (by omega : t.height ≤ fuel) (by rw [hE]; exact hs)
  rwa [hE] at this

theorem Inv.getAddr (h : Inv s E) (k : K) : (Absent E k ∧ s.getAddr k = .ok 0) ∨
    ∃ i v, (i, k, v) ∈ E ∧ s.getAddr k = .ok i := by
  obtain ⟨t, hz, hg, hs, hE, hroot, hnil, hr0, hh, _⟩ := h.tree
  unfold RedBlackTree.getAddr
  by_cases hne : E = []
  · left
    rw [if_pos (show s.root = SENTINEL from hr0.2 hne)]
    exact ⟨by simp [hne, Absent], rfl⟩
  · rw [if_neg (show ¬ s.root = SENTINEL from fun hc => hne (hr0.1 hc)), hroot]
    have := Z.getAddrLoop k hz (fun hc => hne (hnil.1 hc)) (by omega : t.height ≤ M + 1) (by rw [hE]; exact hs)
    rwa [hE] at this

theorem Inv.slot (h : Inv s E) {i' : Nat} {v' : V} (h1 : (i, k, v) ∈ E) (h2 : (i', k, v') ∈ E) : i = i' ∧ v = v' := by
  obtain ⟨t, _, _, hs⟩ := h
  have := FMap.lists_ofList (L := E.map Prod.snd) (by rw [List.map_map]; exact hs.keys)
  exact slot_unique this h1 h2

theorem Inv.getAddr_none (h : Inv s E) (ha : Absent E k) : s.getAddr k = .ok 0 := by
  rcases h.getAddr k with ⟨_, e⟩ | ⟨i, v, hi, _⟩
  · exact e
  · exact absurd rfl (ha _ hi)

theorem Inv.getAddr_some (h : Inv s E) (hi : (i, k, v) ∈ E) : s.getAddr k = .ok i := by
  rcases h.getAddr k with ⟨ha, _⟩ | ⟨i', v', hi', e⟩
  · exact absurd rfl (ha _ hi)
  · rw [e, (h.slot hi hi').1]

/-- insertion, also with a smaller number of loop iterations allowed -/
theorem Inv.insertLoop (hM : M + 1 < 2 ^ 32) (h : Inv s E) (hne : E ≠ []) (k : K) (v : V) {fuel : Nat}
    (hf : 2 * (E.length + 1).log2 ≤ fuel ∨ M + 1 ≤ fuel) :
    (Absent E k ∧ E.length + kn.lost.length = M ∧ s.insertLoop k v fuel s.root = .ok (s, none)) ∨
    (¬ (Absent E k ∧ E.length + kn.lost.length = M) ∧ ∃ s' i E', s.insertLoop k v fuel s.root = .ok (s', some i) ∧
      Inv (kn := kn.ins (E.map Prod.fst) i) s' E' ∧ Ins E k v i E') := by
  obtain ⟨t, hz, hg, hs, hE, hroot, hnil, _, hh, hh'⟩ := h.tree
  rw [hroot]
  exact insertLoop_spec hM k v hz hg (fun hc => hne (hnil.1 hc)) (by omega) hs (by simp [lft]) (by simp [rgt])

theorem Inv.insert (hM : M + 1 < 2 ^ 32) (hM0 : kn.lost.length < M) (h : Inv s E) (k : K) (v : V) :
    (Absent E k ∧ E.length + kn.lost.length = M ∧ s.insert k v = .ok (s, none)) ∨
    (¬ (Absent E k ∧ E.length + kn.lost.length = M) ∧ ∃ s' i E', s.insert k v = .ok (s', some i) ∧
      Inv (kn := kn.ins (E.map Prod.fst) i) s' E' ∧ Ins E k v i E') := by
  obtain ⟨t, hz, hg, hs, hE, hroot, hnil, hr0, hh, _⟩ := h.tree
  unfold RedBlackTree.insert
  by_cases hne : E = []
  · rw [if_pos (show s.root = SENTINEL from hr0.2 hne)]
    right
    subst hne
    obtain ⟨a', i, e, hi, hi1, hi2, hb', hzr, hfr⟩ := h.base.addL hM (by simpa using hM0) k v
    refine ⟨by simp; omega, ⟨i, a'⟩, i, [(i, k, v)], ?_, ⟨.node .nil ⟨i, 0, k, v⟩ .nil, ?_, ?_, by simp [Sorted]⟩,
      Or.inr ⟨by simp [Absent], by simp, [], [], rfl, rfl⟩⟩
    · simp only [e, except_bind_ok]; rfl
    · exact @Z.mk _ _ _ kn.pop _ _ _ _ _ ⟨hzr 0 (by omega), hzr 1 (by omega), hzr 2 (by omega), hzr 3 (by omega), trivial, trivial⟩
        rfl (by simp [lft, rgt, GN.ent]) (by simpa using hb')
    · exact ⟨1, Or.inr ⟨rfl, 0, rfl, rfl, rfl⟩, trivial, by simp [ctag], by simp⟩
  · rw [if_neg (show ¬ s.root = SENTINEL from fun hc => hne (hr0.1 hc))]
    exact h.insertLoop hM hne k v (Or.inr (by omega))

/-- `insert` panics when every slot is in use elsewhere: the check for a full allocator is made only in a tree which is
not empty -/
theorem Inv.insert_stuck (hM : M + 1 < 2 ^ 32) (hl : kn.lost.length = M) (h : Inv s E) {k : K} {v : V} :
    s.insert k v = .error .bufferFull := by
  obtain ⟨t, hz, hg, hs, hE, hroot, hnil, hr0, hh, _⟩ := h.tree
  have hle := h.base.leL
  have hne : E = [] := List.length_eq_zero_iff.1 (by omega)
  unfold RedBlackTree.insert
  rw [if_pos (show s.root = SENTINEL from hr0.2 hne), h.base.fullL hM (by omega)]; rfl

theorem Inv.removeLoop (h : Inv s E) (hne : E ≠ []) (k : K) {fuel : Nat}
    (hf : 2 * (E.length + 1).log2 ≤ fuel ∨ M + 1 ≤ fuel) :
    (Absent E k ∧ s.removeLoop k fuel s.root = .ok (s, none)) ∨
    (∃ s' v E' i, s.removeLoop k fuel s.root = .ok (s', some v) ∧ Inv (kn := kn.push i) s' E' ∧ Del E k v E' ∧ (i, k, v) ∈ E) := by
  obtain ⟨t, hz, hg, hs, hE, hroot, hnil, _, hh, hh'⟩ := h.tree
  rw [hroot]
  exact removeLoop_spec k hz hg (fun hc => hne (hnil.1 hc)) (by omega) hs (by simp [lft]) (by simp [rgt])

theorem Inv.remove (h : Inv s E) (k : K) :
    (Absent E k ∧ s.remove k = .ok (s, none)) ∨
    (∃ s' v E' i, s.remove k = .ok (s', some v) ∧ Inv (kn := kn.push i) s' E' ∧ Del E k v E' ∧ (i, k, v) ∈ E) := by
  obtain ⟨t, hz, hg, hs, hE, hroot, hnil, hr0, hh, _⟩ := h.tree
  unfold RedBlackTree.remove
  by_cases hne : E = []
  · rw [if_pos (show s.root = SENTINEL from hr0.2 hne)]
    exact Or.inl ⟨by simp [hne, Absent], rfl⟩
  · rw [if_neg (show ¬ s.root = SENTINEL from fun hc => hne (hr0.1 hc))]
    exact h.removeLoop hne k (Or.inr (by omega))

theorem Inv.removeRoot (h : Inv s E) :
    (E = [] ∧ s.removeRoot = .ok (s, none)) ∨
    (∃ s' k v E' i, s.removeRoot = .ok (s', some ⟨k, v⟩) ∧ Inv (kn := kn.push i) s' E' ∧ Del E k v E' ∧ (i, k, v) ∈ E) := by
  obtain ⟨t, hz, hg, hs, hE, hroot, hnil, hr0, hh, _⟩ := h.tree
  unfold RedBlackTree.removeRoot
  by_cases hne : E = []
  · rw [if_pos (show s.root = SENTINEL from hr0.2 hne)]
    exact Or.inl ⟨hne, rfl⟩
  · rw [if_neg (show ¬ s.root = SENTINEL from fun hc => hne (hr0.1 hc)), hroot]
    right
    cases t with
    | nil => exact absurd (hnil.1 rfl) hne
    | node l x r =>
      obtain ⟨s', t', e, hz', hg', _⟩ := removeTreeNode_spec (lim := M + 2) hz hg (by have := hz.lim_ok; omega)
      have hd : Del E x.key x.val (lft [] ++ (l.ents ++ r.ents) ++ rgt []) :=
        ⟨l.ents, x.idx, r.ents, by rw [← hE]; rfl, by simp [lft, rgt]⟩
      refine ⟨s', x.key, x.val, _, x.idx, ?_, ⟨t', hz', hg', hd.sorted hs⟩, hd, by rw [← hE]; simp [GN.ent]⟩
      rw [root_node, hz.getNode, except_bind_ok, e]; rfl

theorem Inv.getMin (h : Inv s E) : s.getMinIndex = .ok ((E.head?.map Prod.fst).getD 0) ∧
    s.getMin = .ok (E.head?.map Prod.snd) := by
  obtain ⟨t, hz, hg, hs, hE, hroot, hnil, hr0, hh, _⟩ := h.tree
  have hi : s.getMinIndex = .ok ((E.head?.map Prod.fst).getD 0) := by
    unfold RedBlackTree.getMinIndex
    by_cases hne : E = []
    · rw [hr0.2 hne, hne]
      have : s.getLeft 0 = .ok 0 := by rw [getLeft_ok (by omega)]; exact congrArg _ (reg_zero _ _)
      simp [findMin, this, SENTINEL]
    · obtain ⟨e, he, e'⟩ := findMin_spec hz (fun hc => hne (hnil.1 hc)) hh
      rw [hroot, e', ← hE, he]; rfl
  refine ⟨hi, ?_⟩
  unfold RedBlackTree.getMin
  rw [hi, except_bind_ok]
  cases hEh : E with
  | nil => simp [SENTINEL]
  | cons e E' =>
    have hr := h.base.range (i := e.1) (by rw [hEh]; simp)
    have hn := getNode_ok h.base (i := e.1) (k := e.2.1) (v := e.2.2) (by rw [hEh]; simp)
    show (if e.1 = SENTINEL then _ else _) = _
    rw [if_neg (show ¬ e.1 = SENTINEL by simp [SENTINEL]; omega)]
    show (s.getNode e.1 >>= _) = _
    rw [hn]; rfl

theorem Inv.getMax (h : Inv s E) : s.getMaxIndex = .ok ((E.getLast?.map Prod.fst).getD 0) ∧
    s.getMax = .ok (E.getLast?.map Prod.snd) := by
  obtain ⟨t, hz, hg, hs, hE, hroot, hnil, hr0, hh, _⟩ := h.tree
  have hi : s.getMaxIndex = .ok ((E.getLast?.map Prod.fst).getD 0) := by
    unfold RedBlackTree.getMaxIndex
    by_cases hne : E = []
    · rw [hr0.2 hne, hne]
      have : s.getRight 0 = .ok 0 := by rw [getRight_ok (by omega)]; exact congrArg _ (reg_zero _ _)
      simp [findMax, this, SENTINEL]
    · obtain ⟨e, he, e'⟩ := findMax_spec hz (fun hc => hne (hnil.1 hc)) hh
      rw [hroot, e', ← hE, he]; rfl
  refine ⟨hi, ?_⟩
  unfold RedBlackTree.getMax
  rw [hi, except_bind_ok]
  rcases List.eq_nil_or_concat E with hEh | ⟨E', e, hEh⟩
  · simp [hEh, SENTINEL]
  · have hr := h.base.range (i := e.1) (by rw [hEh]; simp)
    have hn := getNode_ok h.base (i := e.1) (k := e.2.1) (v := e.2.2) (by rw [hEh]; simp)
    have hl : E.getLast? = some e := by rw [hEh]; simp
    rw [hl]
    show (if e.1 = SENTINEL then _ else _) = _
    rw [if_neg (show ¬ e.1 = SENTINEL by simp [SENTINEL]; omega)]
    show (s.getNode e.1 >>= _) = _
    rw [hn]; rfl

end
open RedBlackSpec
variable [LinearOrder K]

/-- Iteration, whatever is known about the free list. -/
theorem walksL (kn : Known) :
    ((api : Api (RedBlackTree K V M) K V).less kn.lost.length).Walks M (Inv (kn := kn)) It where
  slots h := h.base.nodup
  range h := fun hi => h.base.range hi
  le h := h.base.le
  len {s E} h := by
    show s.allocator.size - _ = _
    rw [h.base.sizeL]; omega
  empty _ := rfl
  contains {s k r} e := by
    show RedBlackTree.contains _ _ = _
    unfold RedBlackTree.contains
    rw [show RedBlackTree.get s k = _ from e]; rfl
  index {s k r} e := by
    show RedBlackTree.index _ _ = _
    unfold RedBlackTree.index
    rw [show RedBlackTree.get s k = _ from e]; rfl
  readVal {s E} h {i k v} hi := by
    show (do let n ← s.getNode i; return n.value) = _
    rw [getNode_ok h.base hi]; rfl
  read {s E it l} h _ {i k v} _ hi := by
    have hi : (i, k, v) ∈ E := hi
    show (do let n ← s.getNode i; return (n.key, n.value)) = _
    rw [getNode_ok h.base hi]; rfl
  write := by
    rintro s L1 i k v L2 ⟨t, hz, ⟨n, g1, g2, g3, g4⟩, hs⟩ w
    obtain ⟨s', e, hz', _, hrg⟩ := hz.setVal w
    exact ⟨s', e, ⟨_, hz', ⟨n, g1.put _ _, trivial, by simp [ctag], fun _ => by rw [BT.tag_put]; exact g4 rfl⟩,
      hs.set⟩, fun it l hi => It.congr hrg hi⟩
  it := fun ⟨t, hz, _⟩ => ⟨_, It.new hz, by simp [api, Api.less]⟩
  nextMut _ h := h.nextMut
  nextBackMut _ h := h.nextBackMut
  next s it := by
    show Iter.next s it = (Iter.nextLoop s (M + 2) it >>= _)
    unfold Iter.next
    cases Iter.nextLoop s (M + 2) it with
    | error _ => rfl
    | ok p =>
      obtain ⟨it, o⟩ := p
      cases o with
      | none => rfl
      | some i =>
        show (s.getNode i >>= _) = ((s.getNode i >>= _) >>= _)
        cases s.getNode i <;> rfl
  nextBack s it := by
    show Iter.nextBack s it = (Iter.nextBackLoop s (M + 2) it >>= _)
    unfold Iter.nextBack
    cases Iter.nextBackLoop s (M + 2) it with
    | error _ => rfl
    | ok p =>
      obtain ⟨it, o⟩ := p
      cases o with
      | none => rfl
      | some i =>
        show (s.getNode i >>= _) = ((s.getNode i >>= _) >>= _)
        cases s.getNode i <;> rfl

theorem walks (kn : Known) (hL : kn.lost = [] := by rfl) :
    (api : Api (RedBlackTree K V M) K V).Walks M (Inv (kn := kn)) It :=
  (walksL kn).plain (by rw [hL]; rfl) fun _ => rfl

/-- The red-black tree satisfies the laws of a bounded ordered map. -/
theorem lawsS (kn : Known) (hM : M + 1 < 2 ^ 32) :
    ((api : Api (RedBlackTree K V M) K V).less kn.lost.length).soft.Laws M (fun E k => Absent E k ∧ E.length + kn.lost.length = M) (Inv (kn := kn.quiet)) It where
  toWalks := (walksL kn.quiet).soft
  sorted := fun ⟨_, _, _, hs⟩ => hs
  keys := fun ⟨_, _, _, hs⟩ => hs.keys
  insert {s E} h k v := by
    have hsoft : ((api : Api (RedBlackTree K V M) K V).less kn.lost.length).soft.insert s k v =
        Api.refuse s (s.insert k v) := rfl
    rw [hsoft]
    rcases Nat.lt_or_ge kn.lost.length M with hM0 | hM0
    · rcases h.insert (kn := kn.quiet) hM hM0 k v with ⟨h1, h2, e⟩ | ⟨h1, s', i, E', e, h', hi⟩
      · exact Or.inl ⟨⟨h1, h2⟩, by rw [e]; rfl⟩
      · exact Or.inr ⟨h1, s', i, i, E', by rw [e]; rfl, h', hi⟩
    · have hle : E.length + kn.lost.length ≤ M := h.base.leL
      have hE : E = [] := List.length_eq_zero_iff.1 (by omega)
      subst hE
      exact Or.inl ⟨⟨by simp [Absent], by simp only [List.length_nil]; omega⟩, by rw [h.insert_stuck (kn := kn.quiet) hM (show kn.lost.length = M by omega)]; rfl⟩
  remove h k := by
    rcases h.remove k with h | ⟨s', v, E', i, e, h', hd, _⟩
    · exact Or.inl h
    · exact Or.inr ⟨s', v, E', e, h', hd⟩
  get_none h k ha := by
    show RedBlackTree.get _ _ = _
    unfold RedBlackTree.get
    rw [h.getAddr_none ha, except_bind_ok]; rfl
  get_some {s E} h {i k v} hi := by
    show RedBlackTree.get _ _ = _
    unfold RedBlackTree.get
    have hr := h.base.range (i := i) (List.mem_map_of_mem (f := Prod.fst) hi)
    rw [h.getAddr_some hi, except_bind_ok, if_neg (show ¬ i = SENTINEL by simp [SENTINEL]; omega),
      getNode_ok h.base hi]
    rfl
  getMut_none h k ha := by
    show RedBlackTree.getMut _ _ = _
    unfold RedBlackTree.getMut
    rw [h.getAddr_none ha, except_bind_ok]; rfl
  getMut_some {s E} h {i k v} hi := by
    show RedBlackTree.getMut _ _ = _
    unfold RedBlackTree.getMut
    have hr := h.base.range (i := i) (List.mem_map_of_mem (f := Prod.fst) hi)
    rw [h.getAddr_some hi, except_bind_ok, if_neg (show ¬ i = SENTINEL by simp [SENTINEL]; omega),
      getNode_ok h.base hi]
    rfl

/-- The laws while the slots in use elsewhere leave room: `insert` does not panic. -/
theorem lawsL (kn : Known) (hM : M + 1 < 2 ^ 32) (hM0 : kn.lost.length < M) :
    ((api : Api (RedBlackTree K V M) K V).less kn.lost.length).Laws M (fun E k => Absent E k ∧ E.length + kn.lost.length = M) (Inv (kn := kn.quiet)) It :=
  (lawsS kn hM).firm (walksL kn.quiet) fun {s E} h k v => by
    show s.insert k v ≠ _
    rcases h.insert (kn := kn.quiet) hM hM0 k v with ⟨_, _, e⟩ | ⟨_, s', i, E', e, _⟩ <;> rw [e] <;> simp

/-- The laws when no slot is in use elsewhere. -/
theorem laws (hM : M + 1 < 2 ^ 32) (hM0 : 0 < M) :
    (api : Api (RedBlackTree K V M) K V).Laws M (fun E k => Absent E k ∧ E.length = M) Inv It :=
  (lawsL .nothing hM hM0).plain rfl fun _ => rfl

/-- One call is one step of a bounded finite map; entries keep their slots. -/
theorem call_spec (hM : M + 1 < 2 ^ 32) (hM0 : 0 < M) (s : RedBlackTree K V M) (E : Ents K V) (m : FMap K V)
    (op : TOp K V) (h : Inv s E) (hm : m.Lists (E.map Prod.snd)) :
    ∃ s' o E' m', call s op = .ok (s', o) ∧ Inv s' E' ∧ m'.Lists (E'.map Prod.snd) ∧ TStep M m op o m' ∧
      ∀ i k v, (i, k, v) ∈ E → ¬ Removes k (op, o) → ∃ v', (i, k, v') ∈ E' := by
  cases op with
  | map op =>
    obtain ⟨s', o, E', m', e, h', hm', hst, hk⟩ := (laws hM hM0).call_spec (Rl := treeRules K V M)
      (by
        intro E m k hm
        rw [absent_iff hm]
        simp only [treeRules, hm.len, List.length_map])
      (fun _ h => h) rfl s E m op h hm
    refine ⟨s', .map o, E', m', by simp only [call, e]; rfl, h', hm', hst, ?_⟩
    intro i k v hi hr
    refine hk i k v hi ?_
    rintro k' rfl hkk
    exact hr hkk
  | removeRoot =>
    rcases h.removeRoot with ⟨rfl, e⟩ | ⟨s', k, v, E', _, e, h', hd, _⟩
    · exact ⟨s, .root none, [], m, by simp only [call, e]; rfl, h, hm, ⟨by simpa using hm.len, rfl⟩, by simp⟩
    · obtain ⟨i0, hi0⟩ := hd.mem
      refine ⟨s', .root (some (k, v)), E', _, by simp only [call, e]; rfl, h', hd.lists hm,
        ⟨Ents.get_some hm hi0, rfl⟩, ?_⟩
      intro i k' v' hi hr
      exact ⟨v', hd.kept' hi (fun hc => hr hc.symm)⟩

/-- every history on a new tree -/
theorem run_new (hM : M + 1 < 2 ^ 32) (hM0 : 0 < M) (z : RBNode K V) (ops : List (TOp K V)) :
    ∃ s os E m, run call (new z : RedBlackTree K V M) ops = .ok (s, os) ∧ Inv s E ∧
      m.Lists (E.map Prod.snd) ∧ TSteps M FMap.empty ops os m := by
  obtain ⟨s, os, E, m, e, h, hm, ht, _⟩ := run_trace (gone := fun op o k => Removes k (op, o)) (call_spec hM hM0) ops
    (new z) [] FMap.empty (Inv.new z) ⟨List.Pairwise.nil, by simp [FMap.empty], rfl⟩
  exact ⟨s, os, E, m, e, h, hm, ht⟩

/-! ### more loop iterations allowed: same result -/

omit [LinearOrder K] in
theorem getAddrLoop_mono [Ord K] (k : K) {r : Nat} : ∀ {f f' i : Nat}, s.getAddrLoop k f i = .ok r → f ≤ f' →
    s.getAddrLoop k f' i = .ok r := by
  intro f
  induction f with
  | zero => intro f' i h; cases h
  | succ f ih =>
    intro f' i h hf
    obtain ⟨g, rfl⟩ : ∃ g, f' = g + 1 := ⟨f' - 1, by omega⟩
    simp only [getAddrLoop] at h ⊢
    cases e : s.getNode i with
    | error _ => rw [e] at h; cases h
    | ok n =>
      simp only [e, except_bind_ok] at h ⊢
      split at h
      · cases e' : s.getLeft i with
        | error _ => rw [e'] at h; cases h
        | ok j =>
          simp only [e', except_bind_ok] at h ⊢
          split at h
          · rwa [if_pos (by assumption)]
          · rw [if_neg (by assumption)]; exact ih h (by omega)
      · cases e' : s.getRight i with
        | error _ => rw [e'] at h; cases h
        | ok j =>
          simp only [e', except_bind_ok] at h ⊢
          split at h
          · rwa [if_pos (by assumption)]
          · rw [if_neg (by assumption)]; exact ih h (by omega)
      · exact h

omit [LinearOrder K] in
theorem removeLoop_mono [Ord K] (k : K) {r : RedBlackTree K V M × Option V} : ∀ {f f' i : Nat},
    s.removeLoop k f i = .ok r → f ≤ f' → s.removeLoop k f' i = .ok r := by
  intro f
  induction f with
  | zero => intro f' i h; cases h
  | succ f ih =>
    intro f' i h hf
    obtain ⟨g, rfl⟩ : ∃ g, f' = g + 1 := ⟨f' - 1, by omega⟩
    simp only [RedBlackTree.removeLoop] at h ⊢
    cases e : s.getNode i with
    | error _ => rw [e] at h; cases h
    | ok n =>
      simp only [e, except_bind_ok] at h ⊢
      split at h
      · cases e' : s.getLeft i with
        | error _ => rw [e'] at h; cases h
        | ok j =>
          simp only [e', except_bind_ok] at h ⊢
          split at h
          · rwa [if_pos (by assumption)]
          · rw [if_neg (by assumption)]; exact ih h (by omega)
      · cases e' : s.getRight i with
        | error _ => rw [e'] at h; cases h
        | ok j =>
          simp only [e', except_bind_ok] at h ⊢
          split at h
          · rwa [if_pos (by assumption)]
          · rw [if_neg (by assumption)]; exact ih h (by omega)
      · exact h

omit [LinearOrder K] in
theorem insertLoop_mono [Ord K] (k : K) (v : V) {r : RedBlackTree K V M × Option Nat} : ∀ {f f' i : Nat},
    s.insertLoop k v f i = .ok r → f ≤ f' → s.insertLoop k v f' i = .ok r := by
  intro f
  induction f with
  | zero => intro f' i h; cases h
  | succ f ih =>
    intro f' i h hf
    obtain ⟨g, rfl⟩ : ∃ g, f' = g + 1 := ⟨f' - 1, by omega⟩
    simp only [RedBlackTree.insertLoop] at h ⊢
    cases e : s.getNode i with
    | error _ => rw [e] at h; cases h
    | ok n =>
      simp only [e, except_bind_ok] at h ⊢
      split at h
      · cases e' : s.getLeft i with
        | error _ => rw [e'] at h; cases h
        | ok j =>
          simp only [e', except_bind_ok] at h ⊢
          by_cases hj : j = SENTINEL
          · rw [if_pos hj] at h ⊢; exact h
          · rw [if_neg hj] at h ⊢; exact ih h (by omega)
      · cases e' : s.getRight i with
        | error _ => rw [e'] at h; cases h
        | ok j =>
          simp only [e', except_bind_ok] at h ⊢
          by_cases hj : j = SENTINEL
          · rw [if_pos hj] at h ⊢; exact h
          · rw [if_neg hj] at h ⊢; exact ih h (by omega)
      · exact h

/-- the loops stop after logarithmically many iterations -/
theorem Inv.depth (hM : M + 1 < 2 ^ 32) (h : Inv s E) (hne : E ≠ []) (k : K) (v : V) {fuel : Nat}
    (hf : 2 * (E.length + 1).log2 ≤ fuel) :
    s.getAddrLoop k fuel s.root = s.getAddr k ∧ s.insertLoop k v fuel s.root = s.insert k v ∧
    s.removeLoop k fuel s.root = s.remove k := by
  obtain ⟨t, hz, hg, hs, hE, hroot, hnil, hr0, hh, _⟩ := h.tree
  have hr : ¬ s.root = SENTINEL := fun hc => hne (hr0.1 hc)
  refine ⟨?_, ?_, ?_⟩
  · unfold RedBlackTree.getAddr
    rw [if_neg hr]
    have h1 : ∃ r, s.getAddrLoop k fuel s.root = .ok r := by
      rcases h.search hne k hf with ⟨_, e⟩ | ⟨i, _, _, e⟩ <;> exact ⟨_, e⟩
    have h2 : ∃ r, s.getAddrLoop k (M + 1) s.root = .ok r := by
      rcases h.getAddr k with ⟨_, e⟩ | ⟨i, _, _, e⟩ <;>
        (unfold RedBlackTree.getAddr at e; rw [if_neg hr] at e; exact ⟨_, e⟩)
    obtain ⟨r1, e1⟩ := h1
    obtain ⟨r2, e2⟩ := h2
    rcases Nat.le_total fuel (M + 1) with hle | hle
    · rw [getAddrLoop_mono k e1 hle, e1]
    · rw [getAddrLoop_mono k e2 hle, e2]
  · unfold RedBlackTree.insert
    rw [if_neg hr]
    have h1 : ∀ f, (2 * (E.length + 1).log2 ≤ f ∨ M + 1 ≤ f) → ∃ r, s.insertLoop k v f s.root = .ok r := by
      intro f hf
      rcases h.insertLoop hM hne k v hf with ⟨_, _, e⟩ | ⟨_, _, _, _, e, _⟩ <;> exact ⟨_, e⟩
    obtain ⟨r1, e1⟩ := h1 fuel (Or.inl hf)
    obtain ⟨r2, e2⟩ := h1 (M + 2) (Or.inr (by omega))
    rcases Nat.le_total fuel (M + 2) with hle | hle
    · rw [insertLoop_mono k v e1 hle, e1]
    · rw [insertLoop_mono k v e2 hle, e2]
  · unfold RedBlackTree.remove
    rw [if_neg hr]
    have h1 : ∀ f, (2 * (E.length + 1).log2 ≤ f ∨ M + 1 ≤ f) → ∃ r, s.removeLoop k f s.root = .ok r := by
      intro f hf
      rcases h.removeLoop hne k hf with ⟨_, e⟩ | ⟨_, _, _, _, e, _⟩ <;> exact ⟨_, e⟩
    obtain ⟨r1, e1⟩ := h1 fuel (Or.inl hf)
    obtain ⟨r2, e2⟩ := h1 (M + 2) (Or.inr (by omega))
    rcases Nat.le_total fuel (M + 2) with hle | hle
    · rw [removeLoop_mono k e1 hle, e1]
    · rw [removeLoop_mono k e2 hle, e2]

/-! ### addresses -/

theorem Inv.getAddr_iff (h : Inv s E) (hi : i ≠ 0) : s.getAddr k = .ok i ↔ ∃ v, (i, k, v) ∈ E := by
  constructor
  · intro e
    rcases h.getAddr k with ⟨_, e'⟩ | ⟨i', v', hi', e'⟩
    · rw [e] at e'; cases e'; exact absurd rfl hi
    · rw [e] at e'; cases e'; exact ⟨v', hi'⟩
  · rintro ⟨v, hv⟩; exact h.getAddr_some hv

end RedBlackTree
end Sokoban
