import Verif.Proof.AVLLaws
import Verif.Proof.AnyOrder

/-
The AVL tree when nothing is assumed about the comparison of keys.
-/
namespace Sokoban
open BT Ctx NodeAllocator Ents MapSpec AVLSpec Textbook
variable {K V : Type}

namespace AVLTree
variable {M : Nat} {s : AVLTree K V M} {c : Ctx K V} {t T : BT K V} {X E : List (Nat × K × V)}
  {l r : BT K V} {x : GN K V} {k : K} {v : V} {i : Nat}

/-- the AVL tree `s` holds the entries `E`, in the order of iteration; nothing about keys -/
def Held (s : AVLTree K V M) (E : Ents K V) : Prop := ∃ t, Z s [] t.root t [] E ∧ AVL t

/-- and the tree of the keys is `T` -/
def HeldT (T : Tree K) (s : AVLTree K V M) (E : Ents K V) : Prop := ∃ t, Z s [] t.root t [] E ∧ AVL t ∧ t.sk = T

theorem HeldT.held {T : Tree K} (h : HeldT T s E) : Held s E := by
  obtain ⟨t, h1, h2, _⟩ := h
  exact ⟨t, h1, h2⟩

theorem Held.heldT (h : Held s E) : ∃ T, HeldT T s E := by
  obtain ⟨t, h1, h2⟩ := h
  exact ⟨_, t, h1, h2, rfl⟩

/-- balancing changes nothing in an AVL tree -/
theorem balUp_avl : ∀ {c : Ctx K V} {t : BT K V}, AVL (plug c t) → balUp c t.sk = (plug c t).sk ∧ AVL t
  | [], _, h => ⟨rfl, h⟩
  | (d, x, b) :: c, t, h => by
    obtain ⟨h1, h2⟩ := balUp_avl (c := c) (t := br d t x b) h
    obtain ⟨_, k1, k2, k3, _⟩ := AVL_br.1 h2
    refine ⟨?_, k3⟩
    rw [balUp, bal_even (by simpa using k1) (by simpa using k2), ← sk_br]
    exact h1

theorem Held.base (h : Held s E) : ABase s.allocator E := by
  obtain ⟨t, h, _⟩ := h
  have := h.base
  rwa [List.nil_append] at this

theorem Held.new (z : AVLNode K V) : Held (new z : AVLTree K V M) [] :=
  ⟨.nil, ⟨trivial, rfl, rfl, Base.new z⟩, trivial⟩

theorem Held.tree (h : Held s E) : ∃ t, Z s [] t.root t [] E ∧ AVL t ∧ t.ents = E ∧ s.root = t.root ∧
    (t = .nil ↔ E = []) ∧ (s.root = 0 ↔ E = []) ∧ t.height ≤ M + 1 ∧
    ∀ f, Deep E.length f → t.height ≤ f := by
  have hle := h.base.le
  obtain ⟨t, hz, hg⟩ := h
  have hE := hz.ents
  simp only [lft, rgt, List.nil_append, List.append_nil] at hE
  have h1 := height_le t
  have h2 := fun f => hg.height_le (f := f)
  rw [hE] at h1 h2
  have hnil : t = .nil ↔ E = [] := by
    rw [← hE]
    cases t <;> simp
  have hroot : s.root = t.root := hz.cshape
  refine ⟨t, hz, hg, hE, hroot, hnil, ?_, by omega, h2⟩
  rw [hroot, hz.root_eq_zero, hnil]

theorem HeldT.tree {T' : Tree K} (h : HeldT T' s E) : ∃ t, Z s [] t.root t [] E ∧ AVL t ∧ t.ents = E ∧ s.root = t.root ∧
    (t = .nil ↔ E = []) ∧ (s.root = 0 ↔ E = []) ∧ t.height ≤ M + 1 ∧ t.sk = T' := by
  have hle := h.held.base.le
  obtain ⟨t, hz, hg, hT⟩ := h
  have hE := hz.ents
  simp only [lft, rgt, List.nil_append, List.append_nil] at hE
  have h1 := height_le t
  rw [hE] at h1
  have hnil : t = .nil ↔ E = [] := by
    rw [← hE]
    cases t <;> simp
  have hroot : s.root = t.root := hz.cshape
  refine ⟨t, hz, hg, hE, hroot, hnil, ?_, by omega, hT⟩
  rw [hroot, hz.root_eq_zero, hnil]

theorem HeldT.setVal {T' : Tree K} {L1 L2 : Ents K V} (h : HeldT T' s (L1 ++ (i, k, v) :: L2)) (w : V) :
    ∃ s', s.setNodeValue i w = .ok s' ∧ HeldT T' s' (L1 ++ (i, k, w) :: L2) ∧ s'.rg = s.rg := by
  obtain ⟨t, hz, hg, hT⟩ := h
  obtain ⟨s', e, hz', _, hrg⟩ := hz.setVal w
  exact ⟨s', e, ⟨_, hz', hg.put _ _, by rw [sk_put, hT]⟩, hrg⟩

theorem Held.setVal {L1 L2 : Ents K V} (h : Held s (L1 ++ (i, k, v) :: L2)) (w : V) :
    ∃ s', s.setNodeValue i w = .ok s' ∧ Held s' (L1 ++ (i, k, w) :: L2) ∧ s'.rg = s.rg := by
  obtain ⟨t, hz, hg⟩ := h
  obtain ⟨s', e, hz', _, hrg⟩ := hz.setVal w
  exact ⟨s', e, ⟨_, hz', hg.put _ _⟩, hrg⟩

variable [LT K] [DecidableLT K] [PartialGt K]

/-- the comparisons of the loops (avl_tree.rs) as an answer -/
def cmp (k x : K) : Ordering := if k < x then .lt else if PartialGt.gt k x then .gt else .eq

theorem cmp_eq {k x : K} (h : cmp k x = .eq) : ¬ k < x ∧ ¬ PartialGt.gt k x := by
  unfold cmp at h
  split at h
  · cases h
  · split at h
    · cases h
    · exact ⟨by assumption, by assumption⟩

/-- the search follows the comparisons -/
theorem searchLoop_any (k : K) : ∀ {t : BT K V} {c : Ctx K V} {fuel : Nat}, Z s c t.root t X E → t ≠ .nil →
    t.height ≤ fuel → s.searchLoop k fuel t.root = .ok (t.descend (cmp k) c).2.root := by
  intro t
  induction t with
  | nil => intro c fuel _ h; exact absurd rfl h
  | node l x r ihl ihr =>
    intro c fuel h _ hf
    obtain ⟨fuel, rfl⟩ : ∃ f, fuel = f + 1 := ⟨fuel - 1, by simp [height] at hf; omega⟩
    have hl : Z s ((false, x, r) :: c) l.root l X E := Z.down (d := false) h
    have hr : Z s ((true, x, l) :: c) r.root r X E := Z.down (d := true) h
    simp only [height] at hf
    simp only [root_node, AVLTree.searchLoop, h.getNode, h.getLeft, h.getRight, except_bind_ok]
    unfold descend
    by_cases h1 : k < x.key
    · simp only [cmp, if_pos h1]
      by_cases hln : l = .nil
      · subst hln; simp [SENTINEL, descend]
      · rw [if_neg (show ¬ l.root = SENTINEL from fun hc => hln (hl.root_eq_zero.1 hc))]
        exact ihl (fuel := fuel) hl hln (by omega)
    · by_cases h2 : PartialGt.gt k x.key
      · simp only [cmp, if_neg h1, if_pos h2]
        by_cases hrn : r = .nil
        · subst hrn; simp [SENTINEL, descend]
        · rw [if_neg (show ¬ r.root = SENTINEL from fun hc => hrn (hr.root_eq_zero.1 hc))]
          exact ihr (fuel := fuel) hr hrn (by omega)
      · simp only [cmp, if_neg h1, if_neg h2]; rfl

theorem insertLoop_any (hM : M + 1 < 2 ^ 32) (hz0 : Z s [] T.root T [] E) (haT : AVL T) (k : K) (v : V) :
    ∀ {t : BT K V} {c : Ctx K V} {fuel : Nat}, T = plug c t → t ≠ .nil → t.height ≤ fuel →
    ((t.descend (cmp k) c).2 = .nil ∧
      ((E.length = M ∧ s.insertLoop k v fuel t.root (fp c t.root) = .ok (s, none)) ∨
       (E.length < M ∧ ∃ s' i, s.insertLoop k v fuel t.root (fp c t.root) = .ok (s', some i) ∧
        HeldT (balUp (t.descend (cmp k) c).1 (.node .leaf k .leaf)) s' (lft (t.descend (cmp k) c).1 ++ (i, k, v) :: rgt (t.descend (cmp k) c).1)))) ∨
    ∃ l x r, (t.descend (cmp k) c).2 = .node l x r ∧
      ∃ s', s.insertLoop k v fuel t.root (fp c t.root) = .ok (s', some x.idx) ∧
        HeldT T.sk s' ((lft (t.descend (cmp k) c).1 ++ l.ents) ++ (x.idx, x.key, v) ::
          (r.ents ++ rgt (t.descend (cmp k) c).1)) := by
  intro t
  induction t with
  | nil => intro c fuel _ h; exact absurd rfl h
  | node l x r ihl ihr =>
    intro c fuel hT _ hf
    have h := hz0.at hT
    rw [root_node] at h
    obtain ⟨fuel, rfl⟩ : ∃ f, fuel = f + 1 := ⟨fuel - 1, by simp [height] at hf; omega⟩
    have hle := h.base.le
    have hsz := h.base.size
    rw [List.nil_append] at hle hsz
    have hE := h.ents
    simp only [height] at hf
    simp only [root_node, insertLoop, h.getNode, h.getLeft, h.getRight, except_bind_ok]
    unfold descend
    have fin : ∀ {d : Bool} {b : BT K V}, T = plug ((d, x, b) :: c) .nil →
        ∀ rhs : R (AVLTree K V M × Option Nat), rhs = (if s.len ≥ s.capacity then pure (s, none) else do
          let (a, referenceNode) ← s.allocator.addNode { key := k, value := v }
          let t : AVLTree K V M := { s with allocator := a }
          let t ← t.setField x.idx d.toNat referenceNode
          let t ← t.rebalance (fp c x.idx)
          return (t, some referenceNode)) →
        (E.length = M ∧ rhs = .ok (s, none)) ∨ (E.length < M ∧ ∃ s' i, rhs = .ok (s', some i) ∧
          HeldT (balUp ((d, x, b) :: c) (.node .leaf k .leaf)) s' (lft ((d, x, b) :: c) ++ (i, k, v) :: rgt ((d, x, b) :: c))) := by
      intro d b hT' rhs hrhs
      by_cases hfull : E.length = M
      · left
        refine ⟨hfull, ?_⟩
        rw [hrhs, if_pos (by simp only [len, capacity]; omega)]; rfl
      · right
        obtain ⟨s', t', i, e, hi, hz', ⟨hg', hk'⟩, _⟩ := attach_spec hM hz0 haT hT' (show E.length < M by omega) k v
        refine ⟨by omega, s', i, ?_, ⟨t', hz', hg', hk'⟩⟩
        rw [hrhs, if_neg (by simp only [len, capacity]; omega)]; exact e
    by_cases h1 : k < x.key
    · simp only [cmp, if_pos h1]
      have hTl : T = plug ((false, x, r) :: c) l := hT
      by_cases hln : l = .nil
      · subst hln
        exact Or.inl ⟨rfl, fin hTl _ rfl⟩
      · simp only [if_neg (show ¬ l.root = SENTINEL from fun hc => hln ((hz0.at hTl).root_eq_zero.1 hc))]
        exact ihl hTl hln (by omega)
    · by_cases h2 : PartialGt.gt k x.key
      · simp only [cmp, if_neg h1, if_pos h2]
        have hTr : T = plug ((true, x, l) :: c) r := hT
        by_cases hrn : r = .nil
        · subst hrn
          exact Or.inl ⟨rfl, fin hTr _ rfl⟩
        · simp only [if_neg (show ¬ r.root = SENTINEL from fun hc => hrn ((hz0.at hTr).root_eq_zero.1 hc))]
          exact ihr hTr hrn (by omega)
      · simp only [cmp, if_neg h1, if_neg h2]
        right
        refine ⟨l, x, r, rfl, ?_⟩
        have hE' : E = (lft c ++ l.ents) ++ (x.idx, x.key, x.val) :: (r.ents ++ rgt c) := by
          rw [← hE]; simp [GN.ent]
        have hH : HeldT T.sk s E := ⟨_, hz0, haT, rfl⟩
        rw [hE'] at hH
        obtain ⟨s', e, hz', _⟩ := hH.setVal v
        exact ⟨s', by simp only [e, except_bind_ok]; rfl, hz'⟩

/-- the search of `_remove` follows the comparisons -/
theorem removePath_any (hz0 : Z s [] T.root T [] E) (k : K) : ∀ {t : BT K V} {c : Ctx K V} {fuel : Nat},
    T = plug c t → t.height < fuel →
    ((t.descend (cmp k) c).2 = .nil ∧ ∃ path, s.removePath k fuel t.root (fp c t.root) = .ok (0, path)) ∨
    ∃ l x r, (t.descend (cmp k) c).2 = .node l x r ∧
      s.removePath k fuel t.root (fp c t.root) = .ok (x.idx, fp (t.descend (cmp k) c).1 x.idx) := by
  intro t
  induction t with
  | nil =>
    intro c fuel hT hf
    obtain ⟨fuel, rfl⟩ : ∃ f, fuel = f + 1 := ⟨fuel - 1, by simp [height] at hf; omega⟩
    exact Or.inl ⟨rfl, _, rfl⟩
  | node l x r ihl ihr =>
    intro c fuel hT hf
    have h := hz0.at hT
    obtain ⟨fuel, rfl⟩ : ∃ f, fuel = f + 1 := ⟨fuel - 1, by simp [height] at hf; omega⟩
    have hxr := h.rng (i := x.idx) (Or.inl (by simp))
    have hx0 : ¬ x.idx = SENTINEL := by simp only [SENTINEL]; omega
    simp only [height] at hf
    rw [root_node]
    simp only [removePath, hx0, if_false, h.getNode, h.getLeft, h.getRight, except_bind_ok]
    unfold descend
    by_cases h1 : k < x.key
    · simp only [cmp, if_pos h1]
      exact ihl (show T = plug ((false, x, r) :: c) l from hT) (by omega)
    · by_cases h2 : PartialGt.gt k x.key
      · simp only [cmp, if_neg h1, if_pos h2]
        exact ihr (show T = plug ((true, x, l) :: c) r from hT) (by omega)
      · simp only [cmp, if_neg h1, if_neg h2]
        exact Or.inr ⟨l, x, r, rfl, rfl⟩

theorem HeldT.find {T' : Tree K} (hM : M + 1 < 2 ^ 32) (hM0 : 0 < M) (h : HeldT T' s E) (k : K) :
    (s.getAddr k = .ok 0 ∧ s.remove k = .ok (s, none) ∧ (T'.has (cmp k) = false ∧ T'.remove (cmp k) = T') ∧
      ∀ v, (E.length = M ∧ s.insert k v = .ok (s, none)) ∨
        (E.length < M ∧ ∃ s' i L1 L2, E = L1 ++ L2 ∧ s.insert k v = .ok (s', some i) ∧
          HeldT (T'.insert (cmp k) k) s' (L1 ++ (i, k, v) :: L2))) ∨
    ∃ L1 i k' w L2, E = L1 ++ (i, k', w) :: L2 ∧ (¬ k < k' ∧ ¬ PartialGt.gt k k') ∧ s.getAddr k = .ok i ∧
      (∃ s', s.remove k = .ok (s', some w) ∧ HeldT (T'.remove (cmp k)) s' (L1 ++ L2)) ∧
      (T'.has (cmp k) = true ∧ T'.insert (cmp k) k = T') ∧
      ∀ v, ∃ s', s.insert k v = .ok (s', some i) ∧ HeldT T' s' (L1 ++ (i, k', v) :: L2) := by
  obtain ⟨t, hz, hg, hE, hroot, hnil, hr0, hh, hT'⟩ := h.tree
  have hhas := has_descend (st := cmp k) t []
  have hins := insert_descend (st := cmp k) (k := k) t []
  have hrem := remove_descend (st := cmp k) t []
  rw [hT'] at hhas hins hrem
  rw [balUp] at hins hrem
  unfold AVLTree.getAddr AVLTree.remove AVLTree.insert
  by_cases hne : E = []
  · simp only [if_pos (show s.root = SENTINEL from hr0.2 hne)]
    left
    subst hne
    have htn := hnil.2 rfl
    subst htn
    subst hT'
    refine ⟨rfl, rfl, ⟨rfl, rfl⟩, fun v => Or.inr ⟨hM0, ?_⟩⟩
    obtain ⟨a', i, e, hi, hi1, hi2, hb', hzr, hfr⟩ := h.held.base.add hM (by simpa using hM0) k v
    refine ⟨⟨i, a'⟩, i, [], [], rfl, ?_, ⟨.node .nil ⟨i, 0, k, v⟩ .nil, ?_, ?_, rfl⟩⟩
    · simp only [e, except_bind_ok]; rfl
    · exact ⟨⟨hzr 0 (by omega), hzr 1 (by omega), hzr 2 (by omega), trivial, trivial⟩, rfl,
        by simp [lft, rgt, GN.ent], by simpa using hb'⟩
    · exact ⟨rfl, by simp [height], by simp [height], trivial, trivial⟩
  · have htn : t ≠ .nil := fun hc => hne (hnil.1 hc)
    simp only [if_neg (show ¬ s.root = SENTINEL from fun hc => hne (hr0.1 hc))]
    simp only [hroot]
    have hS := searchLoop_any k hz htn hh
    have hR := removePath_any hz k (t := t) (c := []) (fuel := M + 2) rfl (by omega)
    have hI := fun v => insertLoop_any hM hz hg k v (t := t) (c := []) rfl htn hh
    have hp := plug_descend (st := cmp k) t []
    have hpE : E = lft (t.descend (cmp k) []).1 ++ (t.descend (cmp k) []).2.ents ++
        rgt (t.descend (cmp k) []).1 := by
      rw [← ents_plug, plug_descend]; exact hE.symm
    cases hd : (t.descend (cmp k) []).2 with
    | nil =>
      left
      rw [hd] at hS hpE hR hhas hins hrem hp
      have hrem' : T'.remove (cmp k) = T' := by
        rw [hrem, ← hT']
        exact (balUp_avl (c := (t.descend (cmp k) []).1) (t := .nil) (by rw [hp]; exact hg)).1.trans (by rw [hp]; rfl)
      refine ⟨hS, ?_, ⟨by simpa using hhas, hrem'⟩, fun v => ?_⟩
      · rcases hR with ⟨_, path, e⟩ | ⟨_, _, _, h, _⟩
        · have e' : s.removePath k (M + 2) t.root [(none, none, t.root)] = .ok (0, path) := e
          simp only [e', except_bind_ok]; rfl
        · cases h
      · have hI := hI v
        rw [hd] at hI
        rcases hI with ⟨_, h1 | ⟨h1, s', i, h2⟩⟩ | ⟨_, _, _, h, _⟩
        · exact Or.inl h1
        · rw [← hins] at h2
          refine Or.inr ⟨h1, s', i, _, _, ?_, h2⟩
          rw [hpE]; simp
        · cases h
    | node l x r =>
      right
      rw [hd] at hS hpE hR hp hhas hins hrem
      have hins' : T'.insert (cmp k) k = T' := by
        rw [hins, ← hT']
        exact (balUp_avl (c := (t.descend (cmp k) []).1) (t := .node l x r) (by rw [hp]; exact hg)).1.trans (by rw [hp]; rfl)
      refine ⟨lft (t.descend (cmp k) []).1 ++ l.ents, x.idx, x.key, x.val,
        r.ents ++ rgt (t.descend (cmp k) []).1, ?_, cmp_eq (descend_eq hd), hS, ?_, ⟨by simpa using hhas, hins'⟩, fun v => ?_⟩
      · rw [hpE]; simp [GN.ent]
      · rcases hR with ⟨h, _⟩ | ⟨_, _, _, h, e⟩
        · cases h
        · cases h
          obtain ⟨s', t', e', hz', hg', hk'⟩ := hz.removeNode (lim := M + 1) hM hg (show t = plug _ _ from hp.symm) hh
          have hx := hz.at (show t = plug _ _ from hp.symm) |>.rng (i := x.idx) (Or.inl (by simp))
          have e2 : s.removePath k (M + 2) t.root [(none, none, t.root)] = _ := e
          refine ⟨s', ?_, t', by simpa using hz', hg', by rw [hk', hrem]⟩
          simp only [e2, except_bind_ok]
          rw [if_neg (show ¬ x.idx = SENTINEL by simp only [SENTINEL]; omega), e']
      · have hI := hI v
        rw [hd] at hI
        rcases hI with ⟨h, _⟩ | ⟨_, _, _, h, h'⟩
        · cases h
        · cases h; rw [← hT']; exact h'

theorem Held.find (hM : M + 1 < 2 ^ 32) (hM0 : 0 < M) (h : Held s E) (k : K) :
    (s.getAddr k = .ok 0 ∧ s.remove k = .ok (s, none) ∧
      ∀ v, (E.length = M ∧ s.insert k v = .ok (s, none)) ∨
        (E.length < M ∧ ∃ s' i L1 L2, E = L1 ++ L2 ∧ s.insert k v = .ok (s', some i) ∧
          Held s' (L1 ++ (i, k, v) :: L2))) ∨
    ∃ L1 i k' w L2, E = L1 ++ (i, k', w) :: L2 ∧ (¬ k < k' ∧ ¬ PartialGt.gt k k') ∧ s.getAddr k = .ok i ∧
      (∃ s', s.remove k = .ok (s', some w) ∧ Held s' (L1 ++ L2)) ∧
      ∀ v, ∃ s', s.insert k v = .ok (s', some i) ∧ Held s' (L1 ++ (i, k', v) :: L2) := by
  obtain ⟨T', hT'⟩ := h.heldT
  rcases hT'.find hM hM0 k with ⟨h1, h2, _, h4⟩ | ⟨L1, i, k', w, L2, h1, h2, h3, ⟨s', h4, h5⟩, _, h7⟩
  · refine Or.inl ⟨h1, h2, fun v => ?_⟩
    rcases h4 v with h | ⟨h, s', i, L1, L2, g1, g2, g3⟩
    · exact Or.inl h
    · exact Or.inr ⟨h, s', i, L1, L2, g1, g2, g3.held⟩
  · refine Or.inr ⟨L1, i, k', w, L2, h1, h2, h3, ⟨s', h4, h5.held⟩, fun v => ?_⟩
    obtain ⟨s', g1, g2⟩ := h7 v
    exact ⟨s', g1, g2.held⟩

theorem loose (hM : M + 1 < 2 ^ 32) (hM0 : 0 < M) :
    (api : Api (AVLTree K V M) K V).Loose (fun k k' => ¬ k < k' ∧ ¬ PartialGt.gt k k') M Held It where
  slots h := h.base.nodup
  range h := fun hi => h.base.range hi
  le h := h.base.le
  len h := h.base.size
  empty _ := rfl
  contains {s k r} e := by
    show AVLTree.contains _ _ = _
    unfold AVLTree.contains
    rw [show AVLTree.get s k = _ from e]; rfl
  index {s k r} e := by
    show AVLTree.index _ _ = _
    unfold AVLTree.index
    rw [show AVLTree.get s k = _ from e]; rfl
  readVal {s E} h {i k v} hi := by
    show (do let n ← s.getNode i; return n.value) = _
    rw [getNode_ok h.base hi]; rfl
  read {s E it l} h _ {i k v} _ hi := by
    have hi : (i, k, v) ∈ E := hi
    show (do let n ← s.getNode i; return (n.key, n.value)) = _
    rw [getNode_ok h.base hi]; rfl
  write := by
    intro s L1 i k v L2 h w
    obtain ⟨s', e, h', hrg⟩ := h.setVal w
    exact ⟨s', e, h', fun it l hi => It.congr hrg hi⟩
  it := fun ⟨t, hz, _⟩ => ⟨_, It.new hz, by simp [api]⟩
  nextMut _ h := h.nextMut
  nextBackMut _ h := h.nextBackMut
  next s it := by
    show Iter.next s it = (Iter.nextLoop s (M + 2) it >>= _)
    unfold Iter.next
    cases Iter.nextLoop s (M + 2) it with
    | error _ => rfl
    | ok p =>
      obtain ⟨it, o⟩ := p
      cases o with
      | none => rfl
      | some i =>
        show (s.getNode i >>= _) = ((s.getNode i >>= _) >>= _)
        cases s.getNode i <;> rfl
  nextBack s it := by
    show Iter.nextBack s it = (Iter.nextBackLoop s (M + 2) it >>= _)
    unfold Iter.nextBack
    cases Iter.nextBackLoop s (M + 2) it with
    | error _ => rfl
    | ok p =>
      obtain ⟨it, o⟩ := p
      cases o with
      | none => rfl
      | some i =>
        show (s.getNode i >>= _) = ((s.getNode i >>= _) >>= _)
        cases s.getNode i <;> rfl
  find {s E} h k := by
    rcases h.find hM hM0 k with ⟨e1, e2, hi⟩ | ⟨L1, i, k', w, L2, rfl, hs, e1, h2, hi⟩
    · refine Or.inl ⟨?_, ?_, e2, fun v => ?_⟩
      · show AVLTree.get _ _ = _
        rw [get_eq, e1, except_bind_ok]; rfl
      · show AVLTree.getMut _ _ = _
        rw [getMut_eq, e1, except_bind_ok]; rfl
      · rcases hi v with h1 | ⟨h1, s', i, L1, L2, h2⟩
        · exact Or.inl h1
        · exact Or.inr ⟨h1, s', i, i, L1, L2, h2⟩
    · have hm : (i, k', w) ∈ L1 ++ (i, k', w) :: L2 := by simp
      have hr := h.base.range (i := i) (List.mem_map_of_mem (f := Prod.fst) hm)
      refine Or.inr ⟨L1, i, k', w, L2, rfl, hs, ?_, ?_, h2, fun v => ?_⟩
      · show AVLTree.get _ _ = _
        rw [get_eq, e1, except_bind_ok, if_neg (show ¬ i = SENTINEL by simp [SENTINEL]; omega), getNode_ok h.base hm]
        rfl
      · show AVLTree.getMut _ _ = _
        rw [getMut_eq, e1, except_bind_ok, if_neg (show ¬ i = SENTINEL by simp [SENTINEL]; omega),
          getNode_ok h.base hm]
        rfl
      · obtain ⟨s', e, h'⟩ := hi v
        exact ⟨s', i, e, h'⟩

/-- every history on a new tree, whatever the comparison -/
theorem run_any (hM : M + 1 < 2 ^ 32) (hM0 : 0 < M) (z : AVLNode K V) (ops : List (Op K V)) :
    ∃ s os E, run call (new z : AVLTree K V M) ops = .ok (s, os) ∧ Held s E ∧
      Trace (AnyOrder.Step (fun k k' => ¬ k < k' ∧ ¬ PartialGt.gt k k') M) [] ops os (E.map Prod.snd) := by
  obtain ⟨s, os, E, e, h, ht⟩ := run_seq (loose hM hM0).call_spec ops (new z) [] (Held.new z)
  exact ⟨s, os, E, e, h, ht⟩

omit [LT K] [DecidableLT K] [PartialGt K] in
/-- the balance conditions -/
theorem Held.balanced (h : Held s E) (p : List Bool) :
    ∃ i, walk s s.root p = .ok i ∧ (i ≠ SENTINEL →
      ∃ l r a b, s.getField i LEFT = .ok l ∧ s.getField i RIGHT = .ok r ∧ Levels s l a ∧ Levels s r b ∧
        a ≤ b + 1 ∧ b ≤ a + 1 ∧ s.getField i HEIGHT = .ok (max a b)) := by
  obtain ⟨b, hz, hg, _, hroot, _⟩ := h.tree
  rw [hroot]
  obtain ⟨t', e, hsh, hr, hb⟩ := walk_spec p hz.shape hz.range hg
  refine ⟨_, e, fun h0 => ?_⟩
  cases t' with
  | nil => exact absurd rfl h0
  | node l x r =>
    have hx := hr x.idx (by simp)
    obtain ⟨k1, k2, k3, k4, k5⟩ := hsh
    obtain ⟨g1, g2, g3, _, _⟩ := hb
    exact ⟨l.root, r.root, l.height, r.height, by rw [BT.root_node, getLeft_ok hx.2, k1],
      by rw [BT.root_node, getRight_ok hx.2, k2], levels k4 (fun j hj => hr j (by simp [hj])),
      levels k5 (fun j hj => hr j (by simp [hj])), g2, g3,
      by rw [BT.root_node, HEIGHT, getField_ok hx.2 (by decide), k3, g1]⟩

/-- the loops stop after logarithmically many iterations -/
theorem Held.depth (hM : M + 1 < 2 ^ 32) (h : Held s E) (hne : E ≠ []) (k : K) (v : V) {fuel : Nat}
    (hf : Deep E.length fuel) :
    s.searchLoop k fuel s.root = s.getAddr k ∧
    s.insertLoop k v fuel s.root [(none, none, s.root)] = s.insert k v ∧
    (∃ i path, s.removePath k (fuel + 1) s.root [(none, none, s.root)] = .ok (i, path) ∧
      s.remove k = if i = SENTINEL then .ok (s, none) else s.removeNode i path) := by
  obtain ⟨t, hz, hg, hE, hroot, hnil, hr0, hh, hh'⟩ := h.tree
  have hr : ¬ s.root = SENTINEL := fun hc => hne (hr0.1 hc)
  have htn : t ≠ .nil := fun hc => hne (hnil.1 hc)
  have hf' : t.height ≤ fuel := hh' _ hf
  unfold AVLTree.getAddr AVLTree.insert AVLTree.remove
  rw [if_neg hr, if_neg hr, if_neg hr, hroot]
  refine ⟨by rw [searchLoop_any k hz htn hf', searchLoop_any k hz htn hh], ?_, ?_⟩
  · have h1 : ∀ f, t.height ≤ f → ∃ r, s.insertLoop k v f t.root [(none, none, t.root)] = .ok r := by
      intro f hf
      rcases insertLoop_any hM hz hg k v (t := t) (c := []) rfl htn hf with
        ⟨_, ⟨_, e⟩ | ⟨_, _, _, e, _⟩⟩ | ⟨_, _, _, _, _, e, _⟩ <;> exact ⟨_, e⟩
    obtain ⟨r1, e1⟩ := h1 fuel hf'
    obtain ⟨r2, e2⟩ := h1 (M + 1) hh
    rcases Nat.le_total fuel (M + 1) with hle | hle
    · rw [insertLoop_mono k v e1 hle, e1]
    · rw [insertLoop_mono k v e2 hle, e2]
  · have h1 : ∀ f, t.height < f → ∃ i p, s.removePath k f t.root [(none, none, t.root)] = .ok (i, p) := by
      intro f hf
      rcases removePath_any hz k (t := t) (c := []) rfl hf with ⟨_, p, e⟩ | ⟨_, _, _, _, e⟩ <;> exact ⟨_, _, e⟩
    obtain ⟨i, p, e1⟩ := h1 (fuel + 1) (by omega)
    obtain ⟨i2, p2, e2⟩ := h1 (M + 2) (by omega)
    refine ⟨i, p, e1, ?_⟩
    have : (Except.ok (i, p) : R (Nat × List Ancestor)) = .ok (i2, p2) := by
      rcases Nat.le_total (fuel + 1) (M + 2) with hle | hle
      · rw [← removePath_mono k e1 hle, e2]
      · rw [← removePath_mono k e2 hle, e1]
    cases this
    rw [e2]; rfl

end AVLTree
end Sokoban
