import Verif.Proof.RBLaws
import Verif.Proof.AnyOrder

/-
The red-black tree when nothing is assumed about the comparison of keys.
-/
namespace Sokoban
open BT Ctx NodeAllocator Ents MapSpec RedBlackSpec Textbook
variable {K V : Type}

namespace RedBlackTree
variable {M : Nat} {s : RedBlackTree K V M} {c : Ctx K V} {t : BT K V} {X E : List (Nat × K × V)}
  {l r : BT K V} {x : GN K V} {k : K} {v : V} {i : Nat}

/-- the red-black tree `s` holds the entries `E`, in the order of iteration; nothing about keys -/
def Held (s : RedBlackTree K V M) (E : Ents K V) : Prop := ∃ t, Z s [] t [] E ∧ Good [] t

/-- and the tree of the keys and colours is `T` -/
def HeldT (T : RBTree K) (s : RedBlackTree K V M) (E : Ents K V) : Prop := ∃ t, Z s [] t [] E ∧ Good [] t ∧ t.rsk = T

theorem HeldT.held {T : RBTree K} (h : HeldT T s E) : Held s E := by
  obtain ⟨t, h1, h2, _⟩ := h
  exact ⟨t, h1, h2⟩

theorem Held.heldT (h : Held s E) : ∃ T, HeldT T s E := by
  obtain ⟨t, h1, h2⟩ := h
  exact ⟨_, t, h1, h2, rfl⟩

theorem Good.insUp {c : Ctx K V} {t : BT K V} (h : Good [] (Ctx.plug c t)) : insUp c t.rsk = (Ctx.plug c t).rsk := by
  have h' := Good.downs h
  rw [List.append_nil] at h'
  obtain ⟨n, h1, h2, h3, _⟩ := h'
  rw [h2.insUp h1 h3, blacken_of_black (by simp [h.root_black])]

theorem Good.delUp {c : Ctx K V} {t : BT K V} (h : Good [] (Ctx.plug c t)) : delUp c (t.rsk, false) = (Ctx.plug c t).rsk := by
  rw [delUp_false, blacken_of_black (by simp [h.root_black])]

theorem Held.base (h : Held s E) : RBase s.allocator E := by
  obtain ⟨t, h, _⟩ := h
  have := h.base
  rwa [List.nil_append] at this

theorem Held.new (z : RBNode K V) : Held (new z : RedBlackTree K V M) [] :=
  ⟨.nil, ⟨trivial, rfl, rfl, Base.new z⟩, ⟨0, rfl, trivial, by simp [ctag], by simp⟩⟩

theorem Held.tree (h : Held s E) : ∃ t, Z s [] t [] E ∧ Good [] t ∧ t.ents = E ∧ s.root = t.root ∧
    (t = .nil ↔ E = []) ∧ (s.root = 0 ↔ E = []) ∧ t.height ≤ M + 1 ∧ t.height ≤ 2 * (E.length + 1).log2 := by
  have hle := h.base.le
  obtain ⟨t, hz, hg⟩ := h
  have hE := hz.ents
  simp only [lft, rgt, List.nil_append, List.append_nil] at hE
  have h1 := height_le t
  have h2 := Good.height_le hg
  rw [hE] at h1 h2
  have hnil : t = .nil ↔ E = [] := by
    rw [← hE]
    cases t <;> simp
  refine ⟨t, hz, hg, hE, hz.root, hnil, ?_, by omega, h2⟩
  rw [hz.root, hz.root_eq_zero, hnil]

theorem HeldT.tree {T : RBTree K} (h : HeldT T s E) : ∃ t, Z s [] t [] E ∧ Good [] t ∧ t.ents = E ∧ s.root = t.root ∧
    (t = .nil ↔ E = []) ∧ (s.root = 0 ↔ E = []) ∧ t.height ≤ M + 1 ∧ t.rsk = T := by
  have hle := h.held.base.le
  obtain ⟨t, hz, hg, hT⟩ := h
  have hE := hz.ents
  simp only [lft, rgt, List.nil_append, List.append_nil] at hE
  have h1 := height_le t
  rw [hE] at h1
  have hnil : t = .nil ↔ E = [] := by
    rw [← hE]
    cases t <;> simp
  refine ⟨t, hz, hg, hE, hz.root, hnil, ?_, by omega, hT⟩
  rw [hz.root, hz.root_eq_zero, hnil]

theorem HeldT.setVal {T : RBTree K} {L1 L2 : Ents K V} (h : HeldT T s (L1 ++ (i, k, v) :: L2)) (w : V) :
    ∃ s', s.setNodeValue i w = .ok s' ∧ HeldT T s' (L1 ++ (i, k, w) :: L2) ∧ s'.rg = s.rg := by
  obtain ⟨t, hz, ⟨n, g1, g2, g3, g4⟩, hT⟩ := h
  obtain ⟨s', e, hz', _, hrg⟩ := hz.setVal w
  exact ⟨s', e, ⟨_, hz', ⟨n, g1.put _ _, trivial, by simp [ctag], fun _ => by rw [BT.tag_put]; exact g4 rfl⟩,
    by rw [rsk_put, hT]⟩, hrg⟩

theorem Held.setVal {L1 L2 : Ents K V} (h : Held s (L1 ++ (i, k, v) :: L2)) (w : V) :
    ∃ s', s.setNodeValue i w = .ok s' ∧ Held s' (L1 ++ (i, k, w) :: L2) ∧ s'.rg = s.rg := by
  obtain ⟨t, hz, n, g1, g2, g3, g4⟩ := h
  obtain ⟨s', e, hz', _, hrg⟩ := hz.setVal w
  exact ⟨s', e, ⟨_, hz', ⟨n, g1.put _ _, trivial, by simp [ctag], fun _ => by rw [BT.tag_put]; exact g4 rfl⟩⟩, hrg⟩

variable [Ord K]

/-- the search follows the comparisons -/
theorem getAddrLoop_any (k : K) : ∀ {t : BT K V} {c : Ctx K V} {fuel : Nat}, Z s c t X E → t ≠ .nil →
    t.height ≤ fuel → s.getAddrLoop k fuel t.root = .ok (t.descend (compare k) c).2.root := by
  intro t
  induction t with
  | nil => intro c fuel _ h; exact absurd rfl h
  | node l x r ihl ihr =>
    intro c fuel h _ hf
    obtain ⟨fuel, rfl⟩ : ∃ f, fuel = f + 1 := ⟨fuel - 1, by simp [height] at hf; omega⟩
    have hl := Z.down (d := false) h
    have hr := Z.down (d := true) h
    simp only [height] at hf
    simp only [root_node, RedBlackTree.getAddrLoop, h.getNode, h.getLeft, h.getRight, except_bind_ok]
    unfold descend
    cases hc : compare k x.key with
    | lt =>
      by_cases hln : l = .nil
      · subst hln; simp [SENTINEL, descend]
      · simp only [if_neg (show ¬ l.root = SENTINEL from fun hc => hln (hl.root_eq_zero.1 hc))]
        exact ihl (fuel := fuel) hl hln (by omega)
    | eq => rfl
    | gt =>
      by_cases hrn : r = .nil
      · subst hrn; simp [SENTINEL, descend]
      · simp only [if_neg (show ¬ r.root = SENTINEL from fun hc => hrn (hr.root_eq_zero.1 hc))]
        exact ihr (fuel := fuel) hr hrn (by omega)

theorem insertLoop_any (hM : M + 1 < 2 ^ 32) (k : K) (v : V) : ∀ {t : BT K V} {c : Ctx K V} {fuel lim : Nat},
    Z s c t [] E → Good c t → t ≠ .nil → t.height ≤ fuel → c.length + t.height + 2 ≤ lim →
    ((t.descend (compare k) c).2 = .nil ∧
      ((E.length = M ∧ s.insertLoop k v fuel t.root lim = .ok (s, none)) ∨
       (E.length < M ∧ ∃ s' i, s.insertLoop k v fuel t.root lim = .ok (s', some i) ∧
        HeldT (insUp (t.descend (compare k) c).1 (.node true .leaf k .leaf)) s' (lft (t.descend (compare k) c).1 ++ (i, k, v) :: rgt (t.descend (compare k) c).1)))) ∨
    ∃ l x r, (t.descend (compare k) c).2 = .node l x r ∧
      ∃ s', s.insertLoop k v fuel t.root lim = .ok (s', some x.idx) ∧
        HeldT (plug c t).rsk s' ((lft (t.descend (compare k) c).1 ++ l.ents) ++ (x.idx, x.key, v) ::
          (r.ents ++ rgt (t.descend (compare k) c).1)) := by
  intro t
  induction t with
  | nil => intro c fuel lim _ _ h; exact absurd rfl h
  | node l x r ihl ihr =>
    intro c fuel lim h hg _ hf hlim
    obtain ⟨fuel, rfl⟩ : ∃ f, fuel = f + 1 := ⟨fuel - 1, by simp [height] at hf; omega⟩
    have hle := h.base.le
    have hsz := h.base.size
    rw [List.nil_append] at hle hsz
    have hE := h.ents
    simp only [height] at hf hlim
    simp only [root_node, insertLoop, h.getNode, h.getLeft, h.getRight, except_bind_ok]
    unfold descend
    have fin : ∀ {d : Bool} {b : BT K V}, Z s ((d, x, b) :: c) .nil [] E → Good ((d, x, b) :: c) .nil →
        ∀ rhs : R (RedBlackTree K V M × Option Nat), rhs = (if s.len ≥ s.capacity then pure (s, none) else do
          let (a, nodeIndex) ← s.allocator.addNode { key := k, value := v }
          let t : RedBlackTree K V M := { s with allocator := a }
          let t ← t.colorRed nodeIndex
          let t ← t.connect x.idx nodeIndex d.toNat
          let grandparent ← t.getParent x.idx
          let t ← (if grandparent ≠ SENTINEL then t.fixInsert nodeIndex lim else pure t)
          return (t, some nodeIndex)) →
        (E.length = M ∧ rhs = .ok (s, none)) ∨ (E.length < M ∧ ∃ s' i, rhs = .ok (s', some i) ∧
          HeldT (insUp ((d, x, b) :: c) (.node true .leaf k .leaf)) s' (lft ((d, x, b) :: c) ++ (i, k, v) :: rgt ((d, x, b) :: c))) := by
      intro d b hz hgn rhs hrhs
      by_cases hfull : E.length = M
      · left
        refine ⟨hfull, ?_⟩
        rw [hrhs, if_pos (by simp only [len, capacity]; omega)]; rfl
      · right
        obtain ⟨s', t', i, e, hi, hz', hg', _⟩ := attach_spec (lim := lim) hM hz hgn (show E.length < M by omega) k v (by omega)
        refine ⟨by omega, s', i, ?_, ⟨t', hz', hg'⟩⟩
        rw [hrhs, if_neg (by simp only [len, capacity]; omega)]; exact e
    cases hc : compare k x.key with
    | lt =>
      have hl := Z.down (d := false) h
      have hgl := Good.down (d := false) hg
      by_cases hln : l = .nil
      · subst hln
        exact Or.inl ⟨rfl, fin hl hgl _ rfl⟩
      · simp only [if_neg (show ¬ l.root = SENTINEL from fun hc => hln (hl.root_eq_zero.1 hc))]
        exact ihl hl hgl hln (by omega) (by simp only [List.length_cons]; omega)
    | eq =>
      right
      refine ⟨l, x, r, rfl, ?_⟩
      have hE' : E = (lft c ++ l.ents) ++ (x.idx, x.key, x.val) :: (r.ents ++ rgt c) := by
        rw [← hE]; simp [GN.ent]
      have hH : HeldT (plug c (.node l x r)).rsk s E := ⟨_, h.unzip, hg.plug, rfl⟩
      rw [hE'] at hH
      obtain ⟨s', e, hz', _⟩ := hH.setVal v
      exact ⟨s', by simp only [e, except_bind_ok]; rfl, hz'⟩
    | gt =>
      have hr := Z.down (d := true) h
      have hgr := Good.down (d := true) hg
      by_cases hrn : r = .nil
      · subst hrn
        exact Or.inl ⟨rfl, fin hr hgr _ rfl⟩
      · simp only [if_neg (show ¬ r.root = SENTINEL from fun hc => hrn (hr.root_eq_zero.1 hc))]
        exact ihr hr hgr hrn (by omega) (by simp only [List.length_cons]; omega)

theorem removeLoop_any (k : K) : ∀ {t : BT K V} {c : Ctx K V} {fuel lim : Nat},
    Z s c t [] E → Good c t → t ≠ .nil → t.height ≤ fuel → c.length + t.height + 2 ≤ lim →
    ((t.descend (compare k) c).2 = .nil ∧ s.removeLoop k fuel t.root lim = .ok (s, none)) ∨
    ∃ l x r, (t.descend (compare k) c).2 = .node l x r ∧
      ∃ s', s.removeLoop k fuel t.root lim = .ok (s', some x.val) ∧
        HeldT (delUp (t.descend (compare k) c).1 (RBTree.join (decide (x.tag = 1)) l.rsk r.rsk)) s' ((lft (t.descend (compare k) c).1 ++ l.ents) ++ (r.ents ++ rgt (t.descend (compare k) c).1)) := by
  intro t
  induction t with
  | nil => intro c fuel lim _ _ h; exact absurd rfl h
  | node l x r ihl ihr =>
    intro c fuel lim h hg _ hf hlim
    obtain ⟨fuel, rfl⟩ : ∃ f, fuel = f + 1 := ⟨fuel - 1, by simp [height] at hf; omega⟩
    simp only [height] at hf hlim
    simp only [root_node, removeLoop, h.getNode, h.getLeft, h.getRight, except_bind_ok]
    unfold descend
    cases hc : compare k x.key with
    | lt =>
      have hl := Z.down (d := false) h
      have hgl := Good.down (d := false) hg
      by_cases hln : l = .nil
      · subst hln
        exact Or.inl ⟨rfl, rfl⟩
      · simp only [if_neg (show ¬ l.root = SENTINEL from fun hc => hln (hl.root_eq_zero.1 hc))]
        exact ihl hl hgl hln (by omega) (by simp only [List.length_cons]; omega)
    | eq =>
      right
      refine ⟨l, x, r, rfl, ?_⟩
      obtain ⟨s', t', e, hz', hg'⟩ := removeTreeNode_spec (lim := lim) h hg (by simp only [height]; omega)
      exact ⟨s', by simp only [e, except_bind_ok]; rfl, t', by simpa using hz', hg'⟩
    | gt =>
      have hr := Z.down (d := true) h
      have hgr := Good.down (d := true) hg
      by_cases hrn : r = .nil
      · subst hrn
        exact Or.inl ⟨rfl, rfl⟩
      · simp only [if_neg (show ¬ r.root = SENTINEL from fun hc => hrn (hr.root_eq_zero.1 hc))]
        exact ihr hr hgr hrn (by omega) (by simp only [List.length_cons]; omega)

theorem HeldT.find {T : RBTree K} (hM : M + 1 < 2 ^ 32) (hM0 : 0 < M) (h : HeldT T s E) (k : K) :
    (s.getAddr k = .ok 0 ∧ s.remove k = .ok (s, none) ∧ (T.has (compare k) = false ∧ T.remove (compare k) = T) ∧
      ∀ v, (E.length = M ∧ s.insert k v = .ok (s, none)) ∨
        (E.length < M ∧ ∃ s' i L1 L2, E = L1 ++ L2 ∧ s.insert k v = .ok (s', some i) ∧
          HeldT (T.insert (compare k) k) s' (L1 ++ (i, k, v) :: L2))) ∨
    ∃ L1 i k' w L2, E = L1 ++ (i, k', w) :: L2 ∧ compare k k' = .eq ∧ s.getAddr k = .ok i ∧
      (∃ s', s.remove k = .ok (s', some w) ∧ HeldT (T.remove (compare k)) s' (L1 ++ L2)) ∧
      (T.has (compare k) = true ∧ T.insert (compare k) k = T) ∧
      ∀ v, ∃ s', s.insert k v = .ok (s', some i) ∧ HeldT T s' (L1 ++ (i, k', v) :: L2) := by
  obtain ⟨t, hz, hg, hE, hroot, hnil, hr0, hh, hT⟩ := h.tree
  have hhas := rhas_descend (st := compare k) t []
  have hins := rinsert_descend (st := compare k) (k := k) t []
  have hrem := rremove_descend (st := compare k) t []
  rw [hT] at hhas hins hrem
  simp only [insUp, delUp] at hins hrem
  change T.insert (compare k) k = _ at hins
  change T.remove (compare k) = _ at hrem
  unfold RedBlackTree.getAddr RedBlackTree.remove RedBlackTree.insert
  by_cases hne : E = []
  · simp only [if_pos (show s.root = SENTINEL from hr0.2 hne)]
    left
    subst hne
    have htn := hnil.2 rfl
    subst htn
    subst hT
    refine ⟨rfl, rfl, ⟨rfl, rfl⟩, fun v => Or.inr ⟨hM0, ?_⟩⟩
    obtain ⟨a', i, e, hi, hi1, hi2, hb', hzr, hfr⟩ := h.held.base.add hM (by simpa using hM0) k v
    refine ⟨⟨i, a'⟩, i, [], [], rfl, ?_, ⟨.node .nil ⟨i, 0, k, v⟩ .nil, ?_, ?_, rfl⟩⟩
    · simp only [e, except_bind_ok]; rfl
    · exact ⟨⟨hzr 0 (by omega), hzr 1 (by omega), hzr 2 (by omega), hzr 3 (by omega), trivial, trivial⟩, rfl,
        by simp [lft, rgt, GN.ent], by simpa using hb'⟩
    · exact ⟨1, Or.inr ⟨rfl, 0, rfl, rfl, rfl⟩, trivial, by simp [ctag], by simp⟩
  · have htn : t ≠ .nil := fun hc => hne (hnil.1 hc)
    simp only [if_neg (show ¬ s.root = SENTINEL from fun hc => hne (hr0.1 hc))]
    simp only [hroot]
    have hS := getAddrLoop_any k hz htn hh
    have hR := removeLoop_any k hz hg htn (by omega : t.height ≤ M + 2) hz.lim_ok
    have hI := fun v => insertLoop_any hM k v hz hg htn (by omega : t.height ≤ M + 2) hz.lim_ok
    have hp : E = lft (t.descend (compare k) []).1 ++ (t.descend (compare k) []).2.ents ++
        rgt (t.descend (compare k) []).1 := by
      rw [← ents_plug, plug_descend]; exact hE.symm
    have hpl : plug (t.descend (compare k) []).1 (t.descend (compare k) []).2 = t := plug_descend t []
    cases hd : (t.descend (compare k) []).2 with
    | nil =>
      left
      rw [hd] at hS hp hR hhas hins hrem hpl
      have hrem' : T.remove (compare k) = T := by
        rw [hrem, ← hT]
        exact (Good.delUp (t := .nil) (by rw [hpl]; exact hg)).trans (by rw [hpl])
      refine ⟨hS, ?_, ⟨by simpa using hhas, hrem'⟩, fun v => ?_⟩
      · rcases hR with ⟨_, e⟩ | ⟨_, _, _, h, _⟩
        · exact e
        · cases h
      · have hI := hI v
        rw [hd] at hI
        rcases hI with ⟨_, h1 | ⟨h1, s', i, h2⟩⟩ | ⟨_, _, _, h, _⟩
        · exact Or.inl h1
        · rw [← hins] at h2
          refine Or.inr ⟨h1, s', i, _, _, ?_, h2⟩
          rw [hp]; simp
        · cases h
    | node l x r =>
      right
      rw [hd] at hS hp hR hhas hins hrem hpl
      have hins' : T.insert (compare k) k = T := by
        rw [hins, ← hT]
        exact (Good.insUp (t := .node l x r) (by rw [hpl]; exact hg)).trans (by rw [hpl])
      refine ⟨lft (t.descend (compare k) []).1 ++ l.ents, x.idx, x.key, x.val,
        r.ents ++ rgt (t.descend (compare k) []).1, ?_, descend_eq hd, hS, ?_, ⟨by simpa using hhas, hins'⟩, fun v => ?_⟩
      · rw [hp]; simp [GN.ent]
      · rcases hR with ⟨h, _⟩ | ⟨_, _, _, h, h'⟩
        · cases h
        · cases h; rw [hrem]; exact h'
      · have hI := hI v
        rw [hd] at hI
        rcases hI with ⟨h, _⟩ | ⟨_, _, _, h, h'⟩
        · cases h
        · cases h; rw [← hT]; exact h'

theorem Held.find (hM : M + 1 < 2 ^ 32) (hM0 : 0 < M) (h : Held s E) (k : K) :
    (s.getAddr k = .ok 0 ∧ s.remove k = .ok (s, none) ∧
      ∀ v, (E.length = M ∧ s.insert k v = .ok (s, none)) ∨
        (E.length < M ∧ ∃ s' i L1 L2, E = L1 ++ L2 ∧ s.insert k v = .ok (s', some i) ∧
          Held s' (L1 ++ (i, k, v) :: L2))) ∨
    ∃ L1 i k' w L2, E = L1 ++ (i, k', w) :: L2 ∧ compare k k' = .eq ∧ s.getAddr k = .ok i ∧
      (∃ s', s.remove k = .ok (s', some w) ∧ Held s' (L1 ++ L2)) ∧
      ∀ v, ∃ s', s.insert k v = .ok (s', some i) ∧ Held s' (L1 ++ (i, k', v) :: L2) := by
  obtain ⟨T, hT⟩ := h.heldT
  rcases hT.find hM hM0 k with ⟨h1, h2, _, h4⟩ | ⟨L1, i, k', w, L2, h1, h2, h3, ⟨s', h4, h5⟩, _, h7⟩
  · refine Or.inl ⟨h1, h2, fun v => ?_⟩
    rcases h4 v with h | ⟨h, s', i, L1, L2, g1, g2, g3⟩
    · exact Or.inl h
    · exact Or.inr ⟨h, s', i, L1, L2, g1, g2, g3.held⟩
  · refine Or.inr ⟨L1, i, k', w, L2, h1, h2, h3, ⟨s', h4, h5.held⟩, fun v => ?_⟩
    obtain ⟨s', g1, g2⟩ := h7 v
    exact ⟨s', g1, g2.held⟩

theorem loose (hM : M + 1 < 2 ^ 32) (hM0 : 0 < M) :
    (api : Api (RedBlackTree K V M) K V).Loose (fun k k' => compare k k' = .eq) M Held It where
  slots h := h.base.nodup
  range h := fun hi => h.base.range hi
  le h := h.base.le
  len h := h.base.size
  empty _ := rfl
  contains {s k r} e := by
    show RedBlackTree.contains _ _ = _
    unfold RedBlackTree.contains
    rw [show RedBlackTree.get s k = _ from e]; rfl
  index {s k r} e := by
    show RedBlackTree.index _ _ = _
    unfold RedBlackTree.index
    rw [show RedBlackTree.get s k = _ from e]; rfl
  readVal {s E} h {i k v} hi := by
    show (do let n ← s.getNode i; return n.value) = _
    rw [getNode_ok h.base hi]; rfl
  read {s E it l} h _ {i k v} _ hi := by
    have hi : (i, k, v) ∈ E := hi
    show (do let n ← s.getNode i; return (n.key, n.value)) = _
    rw [getNode_ok h.base hi]; rfl
  write := by
    intro s L1 i k v L2 h w
    obtain ⟨s', e, h', hrg⟩ := h.setVal w
    exact ⟨s', e, h', fun it l hi => It.congr hrg hi⟩
  it := fun ⟨t, hz, _⟩ => ⟨_, It.new hz, by simp [api]⟩
  nextMut _ h := h.nextMut
  nextBackMut _ h := h.nextBackMut
  next s it := by
    show Iter.next s it = (Iter.nextLoop s (M + 2) it >>= _)
    unfold Iter.next
    cases Iter.nextLoop s (M + 2) it with
    | error _ => rfl
    | ok p =>
      obtain ⟨it, o⟩ := p
      cases o with
      | none => rfl
      | some i =>
        show (s.getNode i >>= _) = ((s.getNode i >>= _) >>= _)
        cases s.getNode i <;> rfl
  nextBack s it := by
    show Iter.nextBack s it = (Iter.nextBackLoop s (M + 2) it >>= _)
    unfold Iter.nextBack
    cases Iter.nextBackLoop s (M + 2) it with
    | error _ => rfl
    | ok p =>
      obtain ⟨it, o⟩ := p
      cases o with
      | none => rfl
      | some i =>
        show (s.getNode i >>= _) = ((s.getNode i >>= _) >>= _)
        cases s.getNode i <;> rfl
  find {s E} h k := by
    rcases h.find hM hM0 k with ⟨e1, e2, hi⟩ | ⟨L1, i, k', w, L2, rfl, hs, e1, h2, hi⟩
    · refine Or.inl ⟨?_, ?_, e2, fun v => ?_⟩
      · show RedBlackTree.get _ _ = _
        unfold RedBlackTree.get
        rw [e1, except_bind_ok]; rfl
      · show RedBlackTree.getMut _ _ = _
        unfold RedBlackTree.getMut
        rw [e1, except_bind_ok]; rfl
      · rcases hi v with h1 | ⟨h1, s', i, L1, L2, h2⟩
        · exact Or.inl h1
        · exact Or.inr ⟨h1, s', i, i, L1, L2, h2⟩
    · have hm : (i, k', w) ∈ L1 ++ (i, k', w) :: L2 := by simp
      have hr := h.base.range (i := i) (List.mem_map_of_mem (f := Prod.fst) hm)
      refine Or.inr ⟨L1, i, k', w, L2, rfl, hs, ?_, ?_, h2, fun v => ?_⟩
      · show RedBlackTree.get _ _ = _
        unfold RedBlackTree.get
        rw [e1, except_bind_ok, if_neg (show ¬ i = SENTINEL by simp [SENTINEL]; omega), getNode_ok h.base hm]
        rfl
      · show RedBlackTree.getMut _ _ = _
        unfold RedBlackTree.getMut
        rw [e1, except_bind_ok, if_neg (show ¬ i = SENTINEL by simp [SENTINEL]; omega), getNode_ok h.base hm]
        rfl
      · obtain ⟨s', e, h'⟩ := hi v
        exact ⟨s', i, e, h'⟩


theorem call_any (hM : M + 1 < 2 ^ 32) (hM0 : 0 < M) (s : RedBlackTree K V M) (E : Ents K V) (op : TOp K V)
    (h : Held s E) : ∃ s' o E', call s op = .ok (s', o) ∧ Held s' E' ∧
      AnyOrder.TStep (fun k k' => compare k k' = .eq) M (E.map Prod.snd) op o (E'.map Prod.snd) := by
  cases op with
  | map op =>
    obtain ⟨s', o, E', e, h', hs⟩ := (loose hM hM0).call_spec s E op h
    exact ⟨s', .map o, E', by simp only [call, e]; rfl, h', hs⟩
  | removeRoot =>
    obtain ⟨t, hz, hg, hE, hroot, hnil, hr0, hh, _⟩ := h.tree
    by_cases hne : E = []
    · subst hne
      refine ⟨s, .root none, [], ?_, h, rfl, rfl⟩
      have e : s.removeRoot = .ok (s, none) := by
        unfold RedBlackTree.removeRoot
        rw [if_pos (show s.root = SENTINEL from hr0.2 rfl)]; rfl
      simp only [call, e]; rfl
    · cases t with
      | nil => exact absurd (hnil.1 rfl) hne
      | node l x r =>
        obtain ⟨s', t', e, hz', hg', _⟩ := removeTreeNode_spec (lim := M + 2) hz hg (by have := hz.lim_ok; omega)
        have e' : s.removeRoot = .ok (s', some ⟨x.key, x.val⟩) := by
          unfold RedBlackTree.removeRoot
          rw [if_neg (show ¬ s.root = SENTINEL from fun hc => hne (hr0.1 hc)), hroot, root_node, hz.getNode,
            except_bind_ok, e]; rfl
        refine ⟨s', .root (some (x.key, x.val)), l.ents ++ r.ents, by simp only [call, e']; rfl,
          ⟨t', by simpa [lft, rgt] using hz', hg'⟩, l.ents.map Prod.snd, r.ents.map Prod.snd, ?_, by simp⟩
        rw [← hE]; simp [GN.ent]


/-- every history on a new tree, whatever the comparison -/
theorem run_any (hM : M + 1 < 2 ^ 32) (hM0 : 0 < M) (z : RBNode K V) (ops : List (TOp K V)) :
    ∃ s os E, run call (new z : RedBlackTree K V M) ops = .ok (s, os) ∧ Held s E ∧
      Trace (AnyOrder.TStep (fun k k' => compare k k' = .eq) M) [] ops os (E.map Prod.snd) := by
  obtain ⟨s, os, E, e, h, ht⟩ := run_seq (call_any hM hM0) ops (new z) [] (Held.new z)
  exact ⟨s, os, E, e, h, ht⟩

omit [Ord K] in
/-- the red-black conditions -/
theorem Held.redBlack (h : Held s E) :
    s.isRed s.root = .ok false ∧
    (∀ p, ∃ i, walk s s.root p = .ok i ∧ (s.isRed i = .ok true →
      ∃ l r, s.getLeft i = .ok l ∧ s.getRight i = .ok r ∧ s.isRed l = .ok false ∧ s.isRed r = .ok false)) ∧
    (∃ n, ∀ p, ToNil s s.root p → blacks s s.root p = .ok n) ∧
    s.isValid = .ok true := by
  obtain ⟨b, hz, hg, _, hroot, _⟩ := h.tree
  obtain ⟨n, h1, _, _, h4⟩ := id hg
  rw [hroot]
  refine ⟨by rw [(tag_ok hz.shape hz.range).1, h4 rfl]; rfl, fun p => ?_, ⟨n, fun p hp => ?_⟩, isValid_spec hz hg⟩
  · obtain ⟨t', i', n', e, hsh, hr, hb⟩ := walk_spec p hz.shape hz.range h1
    refine ⟨_, e, fun hred => ?_⟩
    rw [(tag_ok hsh hr).1] at hred
    have ht : t'.tag = 1 := by simpa using hred
    cases t' with
    | nil => simp at ht
    | node l x r =>
      have hx := hr x.idx (by simp)
      obtain ⟨k1, k2, _, _, k5, k6⟩ := hsh
      have hc : l.tag = 0 ∧ r.tag = 0 := by
        rcases hb with ⟨_, h1, h2, _⟩ | ⟨h1, _⟩
        · exact ⟨h1, h2⟩
        · simp [h1] at ht
      refine ⟨l.root, r.root, by rw [BT.root_node, getLeft_ok hx.2, k1], by rw [BT.root_node, getRight_ok hx.2, k2],
        ?_, ?_⟩
      · rw [(tag_ok k5 (fun j hj => hr j (by simp [hj]))).1, hc.1]; rfl
      · rw [(tag_ok k6 (fun j hj => hr j (by simp [hj]))).1, hc.2]; rfl
  · exact blacks_spec p hz.shape hz.range h1 hp

/-- the loops stop after logarithmically many iterations -/
theorem Held.depth (hM : M + 1 < 2 ^ 32) (h : Held s E) (hne : E ≠ []) (k : K) (v : V) {fuel : Nat}
    (hf : 2 * (E.length + 1).log2 ≤ fuel) :
    s.getAddrLoop k fuel s.root = s.getAddr k ∧ s.insertLoop k v fuel s.root = s.insert k v ∧
    s.removeLoop k fuel s.root = s.remove k := by
  obtain ⟨t, hz, hg, hE, hroot, hnil, hr0, hh, hh'⟩ := h.tree
  have hr : ¬ s.root = SENTINEL := fun hc => hne (hr0.1 hc)
  have htn : t ≠ .nil := fun hc => hne (hnil.1 hc)
  unfold RedBlackTree.getAddr RedBlackTree.insert RedBlackTree.remove
  rw [if_neg hr, if_neg hr, if_neg hr, hroot]
  have hf' : t.height ≤ fuel := by omega
  refine ⟨by rw [getAddrLoop_any k hz htn hf', getAddrLoop_any k hz htn hh], ?_, ?_⟩
  · have h1 : ∀ f, t.height ≤ f → ∃ r, s.insertLoop k v f t.root = .ok r := by
      intro f hf
      rcases insertLoop_any hM k v hz hg htn hf hz.lim_ok with ⟨_, ⟨_, e⟩ | ⟨_, _, _, e, _⟩⟩ | ⟨_, _, _, _, _, e, _⟩ <;>
        exact ⟨_, e⟩
    obtain ⟨r1, e1⟩ := h1 fuel hf'
    obtain ⟨r2, e2⟩ := h1 (M + 2) (by omega)
    rcases Nat.le_total fuel (M + 2) with hle | hle
    · rw [insertLoop_mono k v e1 hle, e1]
    · rw [insertLoop_mono k v e2 hle, e2]
  · have h1 : ∀ f, t.height ≤ f → ∃ r, s.removeLoop k f t.root = .ok r := by
      intro f hf
      rcases removeLoop_any k hz hg htn hf hz.lim_ok with ⟨_, e⟩ | ⟨_, _, _, _, _, e, _⟩ <;> exact ⟨_, e⟩
    obtain ⟨r1, e1⟩ := h1 fuel hf'
    obtain ⟨r2, e2⟩ := h1 (M + 2) (by omega)
    rcases Nat.le_total fuel (M + 2) with hle | hle
    · rw [removeLoop_mono k e1 hle, e1]
    · rw [removeLoop_mono k e2 hle, e2]

end RedBlackTree
end Sokoban
