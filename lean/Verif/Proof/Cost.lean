import Verif.Proof.RBAny
import Verif.Proof.AVLAny
import Verif.Proof.HashOrder

/-
The bound on loop iterations does not matter as long as it is not too small: a call that returns with one bound
returns the same with every larger one.
-/
namespace Sokoban
open BT Ctx Ents MapSpec
variable {K V α β : Type}

/-- if the first returns, so does the second, with the same result -/
def Le (x y : R α) : Prop := ∀ r, x = .ok r → y = .ok r

namespace Le
theorem refl (x : R α) : Le x x := fun _ h => h

theorem bind {x y : R α} {f g : α → R β} (h : Le x y) (h' : ∀ a, Le (f a) (g a)) : Le (x >>= f) (y >>= g) := by
  intro r e
  cases hx : x with
  | error p => rw [hx] at e; cases e
  | ok a =>
    rw [hx, except_bind_ok] at e
    rw [h a hx, except_bind_ok]
    exact h' a r e

theorem diverge (y : R α) : Le (.error .diverge) y := fun _ h => by cases h

theorem ite {c : Prop} [Decidable c] {x y x' y' : R α} (h : Le x y) (h' : Le x' y') :
    Le (if c then x else x') (if c then y else y') := by
  split
  · exact h
  · exact h'

/-- equal, if both return -/
theorem eq {F : Nat → R α} (hm : ∀ {f f'}, f ≤ f' → Le (F f) (F f')) {f g : Nat}
    (hf : ∃ r, F f = .ok r) (hg : ∃ r, F g = .ok r) : F f = F g := by
  obtain ⟨r1, e1⟩ := hf
  obtain ⟨r2, e2⟩ := hg
  rcases Nat.le_total f g with h | h
  · rw [e1, hm h _ e1]
  · rw [e2, hm h _ e2]
end Le

macro "le_call" : tactic => `(tactic| fail)
macro "le_step" : tactic => `(tactic| first
  | with_reducible exact Le.refl _
  | assumption
  | le_call
  | (with_reducible refine Le.bind ?_ ?_)
  | (with_reducible refine Le.ite ?_ ?_)
  | intro _
  | split)
macro "le" : tactic => `(tactic| repeat' le_step)

namespace RedBlackTree
variable {M : Nat} {s : RedBlackTree K V M}

theorem le_fixInsertLoop {f g : Nat} {s : RedBlackTree K V M} {i : Nat} (h : f ≤ g) :
    Le (s.fixInsertLoop f i) (s.fixInsertLoop g i) := by
  induction f generalizing g s i with
  | zero => exact Le.diverge _
  | succ f ih =>
    obtain ⟨g, rfl⟩ : ∃ g', g = g' + 1 := ⟨g - 1, by omega⟩
    have ih := fun s i => ih (s := s) (i := i) (Nat.le_of_succ_le_succ h)
    unfold fixInsertLoop
    repeat' first | with_reducible exact ih _ _ | le_step

theorem le_fixRemoveLoop {f g : Nat} {s : RedBlackTree K V M} {i d : Nat} (h : f ≤ g) :
    Le (s.fixRemoveLoop f i d) (s.fixRemoveLoop g i d) := by
  induction f generalizing g s i d with
  | zero => exact Le.diverge _
  | succ f ih =>
    obtain ⟨g, rfl⟩ : ∃ g', g = g' + 1 := ⟨g - 1, by omega⟩
    have ih := fun s i d => ih (s := s) (i := i) (d := d) (Nat.le_of_succ_le_succ h)
    unfold fixRemoveLoop
    repeat' first | with_reducible exact ih _ _ _ | le_step

theorem le_findMax {f g : Nat} {i : Nat} (h : f ≤ g) : Le (s.findMax f i) (s.findMax g i) := by
  induction f generalizing g i with
  | zero => exact Le.diverge _
  | succ f ih =>
    obtain ⟨g, rfl⟩ : ∃ g', g = g' + 1 := ⟨g - 1, by omega⟩
    have ih := fun i => ih (i := i) (Nat.le_of_succ_le_succ h)
    unfold findMax
    repeat' first | with_reducible exact ih _ | le_step

variable {f g : Nat} (h : f ≤ g)
include h

theorem le_fixInsert {i : Nat} : Le (s.fixInsert i f) (s.fixInsert i g) := by
  unfold fixInsert
  exact Le.bind (le_fixInsertLoop h) fun _ => Le.refl _

theorem le_removeTwoChildren {i j : Nat} : Le (s.removeTwoChildren i j f) (s.removeTwoChildren i j g) := by
  unfold removeTwoChildren
  exact Le.bind (le_findMax h) fun _ => Le.refl _

theorem le_fixRemove {i : Nat} {p : Option (Nat × Nat)} : Le (s.fixRemove i p f) (s.fixRemove i p g) := by
  unfold fixRemove
  exact Le.bind (Le.refl _) fun _ => Le.bind (Le.refl _) fun _ => le_fixRemoveLoop h

theorem le_removeTreeNode {i : Nat} : Le (s.removeTreeNode i f) (s.removeTreeNode i g) := by
  unfold removeTreeNode
  repeat' first | with_reducible exact le_removeTwoChildren h | with_reducible exact le_fixRemove h | le_step

theorem le_insertLoop [Ord K] {f' g' : Nat} (h' : f' ≤ g') {k : K} {v : V} {i : Nat} :
    Le (s.insertLoop k v f' i f) (s.insertLoop k v g' i g) := by
  induction f' generalizing g' i with
  | zero => exact Le.diverge _
  | succ f' ih =>
    obtain ⟨g', rfl⟩ : ∃ g, g' = g + 1 := ⟨g' - 1, by omega⟩
    have ih := fun i => ih (i := i) (Nat.le_of_succ_le_succ h')
    unfold insertLoop
    refine Le.bind (Le.refl _) fun n => ?_
    dsimp only
    cases compare k n.key
    all_goals dsimp only
    repeat' first | with_reducible exact ih _ | with_reducible exact le_fixInsert h | le_step

theorem le_removeLoop [Ord K] {f' g' : Nat} (h' : f' ≤ g') {k : K} {i : Nat} :
    Le (s.removeLoop k f' i f) (s.removeLoop k g' i g) := by
  induction f' generalizing g' i with
  | zero => exact Le.diverge _
  | succ f' ih =>
    obtain ⟨g', rfl⟩ : ∃ g, g' = g + 1 := ⟨g' - 1, by omega⟩
    have ih := fun i => ih (i := i) (Nat.le_of_succ_le_succ h')
    unfold removeLoop
    refine Le.bind (Le.refl _) fun n => ?_
    dsimp only
    cases compare k n.key
    all_goals dsimp only
    repeat' first | with_reducible exact ih _ | with_reducible exact le_removeTreeNode h | le_step

theorem le_insert [Ord K] {k : K} {v : V} : Le (s.insert k v f) (s.insert k v g) := by
  unfold RedBlackTree.insert
  exact Le.ite (Le.refl _) (le_insertLoop h h)

theorem le_remove [Ord K] {k : K} : Le (s.remove k f) (s.remove k g) := by
  unfold RedBlackTree.remove
  exact Le.ite (Le.refl _) (le_removeLoop h h)

theorem le_removeRoot : Le (s.removeRoot f) (s.removeRoot g) := by
  unfold RedBlackTree.removeRoot
  exact Le.ite (Le.refl _) (Le.bind (Le.refl _) fun _ => Le.bind (le_removeTreeNode h) fun _ => Le.refl _)

omit h

/-- a bound slightly above the height suffices -/
theorem Held.cost [Ord K] {E : Ents K V} (hM : M + 1 < 2 ^ 32) (h : Held s E) {lim : Nat}
    (hl : 2 * (E.length + 1).log2 + 2 ≤ lim) (k : K) (v : V) :
    s.insert k v lim = s.insert k v ∧ s.remove k lim = s.remove k ∧ s.removeRoot lim = s.removeRoot := by
  obtain ⟨t, hz, hg, hE, hroot, hnil, hr0, hh, hh'⟩ := h.tree
  have hlim : ([] : Ctx K V).length + t.height + 2 ≤ lim := by simp; omega
  have hdef := hz.lim_ok
  by_cases hne : E = []
  · have hr := show s.root = SENTINEL from hr0.2 hne
    unfold RedBlackTree.insert RedBlackTree.remove RedBlackTree.removeRoot
    simp only [if_pos hr, true_and]
  · have hr : ¬ s.root = SENTINEL := fun hc => hne (hr0.1 hc)
    have htn : t ≠ .nil := fun hc => hne (hnil.1 hc)
    refine ⟨Le.eq (F := fun l => s.insert k v l) (fun h => le_insert h) ?_ ?_,
      Le.eq (F := fun l => s.remove k l) (fun h => le_remove h) ?_ ?_,
      Le.eq (F := fun l => s.removeRoot l) (fun h => le_removeRoot h) ?_ ?_⟩
    any_goals
      unfold RedBlackTree.insert
      rw [if_neg hr, hroot]
      first
      | rcases insertLoop_any (lim := lim) hM k v hz hg htn (by omega : t.height ≤ lim) hlim with
          ⟨_, ⟨_, e⟩ | ⟨_, _, _, e, _⟩⟩ | ⟨_, _, _, _, _, e, _⟩ <;> exact ⟨_, e⟩
      | rcases insertLoop_any (lim := M + 2) hM k v hz hg htn (by omega : t.height ≤ M + 2) hdef with
          ⟨_, ⟨_, e⟩ | ⟨_, _, _, e, _⟩⟩ | ⟨_, _, _, _, _, e, _⟩ <;> exact ⟨_, e⟩
    any_goals
      unfold RedBlackTree.remove
      rw [if_neg hr, hroot]
      first
      | rcases removeLoop_any (lim := lim) k hz hg htn (by omega : t.height ≤ lim) hlim with
          ⟨_, e⟩ | ⟨_, _, _, _, _, e, _⟩ <;> exact ⟨_, e⟩
      | rcases removeLoop_any (lim := M + 2) k hz hg htn (by omega : t.height ≤ M + 2) hdef with
          ⟨_, e⟩ | ⟨_, _, _, _, _, e, _⟩ <;> exact ⟨_, e⟩
    all_goals
      cases t with
      | nil => exact absurd rfl htn
      | node l x r =>
        unfold RedBlackTree.removeRoot
        rw [if_neg hr, hroot, root_node, hz.getNode, except_bind_ok]
        first
        | obtain ⟨s', t', e, _⟩ := removeTreeNode_spec (lim := lim) hz hg (by omega)
          rw [e]; exact ⟨_, rfl⟩
        | obtain ⟨s', t', e, _⟩ := removeTreeNode_spec (lim := M + 2) hz hg (by omega)
          rw [e]; exact ⟨_, rfl⟩

/-- the extremes -/
theorem Held.cost_extremes {E : Ents K V} (h : Held s E) (hne : E ≠ []) {lim : Nat}
    (hl : 2 * (E.length + 1).log2 ≤ lim) :
    s.findMin lim s.root = s.getMinIndex ∧ s.findMax lim s.root = s.getMaxIndex := by
  obtain ⟨t, hz, hg, hE, hroot, hnil, hr0, hh, hh'⟩ := h.tree
  have hr : ¬ s.root = SENTINEL := fun hc => hne (hr0.1 hc)
  have htn : t ≠ .nil := fun hc => hne (hnil.1 hc)
  unfold RedBlackTree.getMinIndex RedBlackTree.getMaxIndex
  rw [hroot]
  constructor
  · obtain ⟨e, he, e1⟩ := findMin_spec hz htn (by omega : t.height ≤ lim)
    obtain ⟨e', he', e2⟩ := findMin_spec hz htn hh
    rw [he] at he'; cases he'
    rw [e1, e2]
  · obtain ⟨e, he, e1⟩ := findMax_spec hz htn (by omega : t.height ≤ lim)
    obtain ⟨e', he', e2⟩ := findMax_spec hz htn hh
    rw [he] at he'; cases he'
    rw [e1, e2]

end RedBlackTree

namespace AVLTree
variable {M : Nat} {s : AVLTree K V M}

theorem le_insertLoop [LT K] [DecidableLT K] [PartialGt K] {f g : Nat} (h : f ≤ g) {k : K} {v : V} {i : Nat} {p : List Ancestor} :
    Le (s.insertLoop k v f i p) (s.insertLoop k v g i p) := fun _ e => insertLoop_mono k v e h

theorem le_removePath [LT K] [DecidableLT K] [PartialGt K] {f g : Nat} (h : f ≤ g) {k : K} {i : Nat} {p : List Ancestor} :
    Le (s.removePath k f i p) (s.removePath k g i p) := fun _ e => removePath_mono k e h

theorem le_leftmostLoop {f g : Nat} (h : f ≤ g) {i j : Nat} {p : List Ancestor} :
    Le (s.leftmostLoop f i j p) (s.leftmostLoop g i j p) := by
  induction f generalizing g i j p with
  | zero => exact Le.diverge _
  | succ f ih =>
    obtain ⟨g, rfl⟩ : ∃ g', g = g' + 1 := ⟨g - 1, by omega⟩
    have ih := fun i j p => ih (i := i) (j := j) (p := p) (Nat.le_of_succ_le_succ h)
    unfold leftmostLoop
    repeat' first | with_reducible exact ih _ _ _ | le_step

variable {f g : Nat} (h : f ≤ g)
include h

theorem le_removeTwo {i j : Nat} {p : List Ancestor} : Le (s.removeTwo i j p f) (s.removeTwo i j p g) := by
  unfold removeTwo
  exact Le.bind (le_leftmostLoop h) fun _ => Le.refl _

theorem le_removeNode {i : Nat} {p : List Ancestor} : Le (s.removeNode i p f) (s.removeNode i p g) := by
  unfold AVLTree.removeNode
  exact Le.bind (Le.refl _) fun _ => Le.bind (Le.refl _) fun _ => Le.bind (Le.refl _) fun _ =>
    Le.bind (Le.ite (le_removeTwo h) (Le.refl _)) fun _ => Le.refl _

theorem le_insert [LT K] [DecidableLT K] [PartialGt K] {k : K} {v : V} : Le (s.insert k v f) (s.insert k v g) := by
  unfold AVLTree.insert
  exact Le.ite (Le.refl _) (le_insertLoop h)

theorem le_remove [LT K] [DecidableLT K] [PartialGt K] {k : K} : Le (s.remove k f) (s.remove k g) := by
  unfold AVLTree.remove
  exact Le.ite (Le.refl _) (Le.bind (le_removePath (Nat.succ_le_succ h)) fun _ => Le.ite (Le.refl _) (le_removeNode h))

omit h

/-- a bound slightly above the height suffices -/
theorem Held.cost [LT K] [DecidableLT K] [PartialGt K] {E : Ents K V} (hM : M + 1 < 2 ^ 32) (h : Held s E) {lim : Nat}
    (hl : Deep E.length lim) (k : K) (v : V) :
    s.insert k v lim = s.insert k v ∧ s.remove k lim = s.remove k := by
  obtain ⟨t, hz, hg, hE, hroot, hnil, hr0, hh, hh'⟩ := h.tree
  by_cases hne : E = []
  · have hr := show s.root = SENTINEL from hr0.2 hne
    unfold AVLTree.insert AVLTree.remove
    simp only [if_pos hr, true_and]
  · have hr : ¬ s.root = SENTINEL := fun hc => hne (hr0.1 hc)
    have htn : t ≠ .nil := fun hc => hne (hnil.1 hc)
    have key : ∀ f, t.height ≤ f → ∃ r, s.remove k f = .ok r := by
      intro f hf
      unfold AVLTree.remove
      rw [if_neg hr, hroot]
      rcases removePath_any hz k (t := t) (c := []) (fuel := f + 1) rfl (by omega) with ⟨_, path, e⟩ | ⟨l, x, r, hd, e⟩
      · have e' : s.removePath k (f + 1) t.root [(none, none, t.root)] = .ok (0, path) := e
        exact ⟨_, by simp only [e', except_bind_ok]; rfl⟩
      · have hp := plug_descend (st := cmp k) t []
        rw [hd] at hp
        obtain ⟨s', t', e', _⟩ := hz.removeNode (lim := f) hM hg (show t = plug _ _ from hp.symm) hf
        have hx := hz.at (show t = plug _ _ from hp.symm) |>.rng (i := x.idx) (Or.inl (by simp))
        have e2 : s.removePath k (f + 1) t.root [(none, none, t.root)] = _ := e
        refine ⟨(s', some x.val), ?_⟩
        simp only [e2, except_bind_ok]
        rw [if_neg (show ¬ x.idx = SENTINEL by simp only [SENTINEL]; omega), e']
    refine ⟨?_, Le.eq (F := fun l => s.remove k l) (fun h => le_remove h) (key _ (hh' _ hl)) (key _ hh)⟩
    have h1 := (h.depth hM hne k v hl).2.1
    rw [← h1]
    unfold AVLTree.insert
    rw [if_neg hr]

/-- the extremes -/
theorem Held.cost_extremes {E : Ents K V} (h : Held s E) (hne : E ≠ []) {lim : Nat}
    (hl : Deep E.length lim) :
    s.minLoop lim s.root = s.getMinIndex ∧ s.maxLoop lim s.root = s.getMaxIndex := by
  obtain ⟨t, hz, hg, hE, hroot, hnil, hr0, hh, hh'⟩ := h.tree
  have hr : ¬ s.root = SENTINEL := fun hc => hne (hr0.1 hc)
  have htn : t ≠ .nil := fun hc => hne (hnil.1 hc)
  unfold AVLTree.getMinIndex AVLTree.getMaxIndex
  rw [if_neg hr, if_neg hr, hroot]
  constructor
  · obtain ⟨e, he, e1⟩ := minLoop_spec hz htn (hh' _ hl : t.height ≤ lim)
    obtain ⟨e', he', e2⟩ := minLoop_spec hz htn hh
    rw [he] at he'; cases he'
    rw [e1, e2]
  · obtain ⟨e, he, e1⟩ := maxLoop_spec hz htn (hh' _ hl : t.height ≤ lim)
    obtain ⟨e', he', e2⟩ := maxLoop_spec hz htn hh
    rw [he] at he'; cases he'
    rw [e1, e2]

end AVLTree

namespace HashTable
open NodeAllocator HashTableSpec
variable {B M : Nat} {hash : K → Nat} {h : HashTable K V B M}

/-- the exact number of iterations of the search -/
theorem findLoop_exact [DecidableEq K] (h : HashTable K V B M) (k : K) :
    ∀ (l : List (Ent K V)) (p : Nat), DSeg h.allocator.reg p (ids l) 0 →
      (∀ e ∈ l, h.allocator.val? e.1 = some ⟨e.2.1, e.2.2⟩) →
      (∀ fuel, ((kvs l).takeWhile fun e => e.1 ≠ k).length < fuel →
        h.findLoop k fuel ((ids l).headD 0) = .ok (((l.find? (fun e => e.2.1 == k)).map Prod.fst).getD 0)) ∧
      ∀ fuel ≤ ((kvs l).takeWhile fun e => e.1 ≠ k).length,
        h.findLoop k fuel ((ids l).headD 0) = .error .diverge
  | [], p, _, _ => by
    constructor
    · intro fuel hf
      obtain ⟨fuel, rfl⟩ : ∃ f, fuel = f + 1 := ⟨fuel - 1, by omega⟩
      simp [findLoop, SENTINEL]
    · intro fuel hf
      have : fuel = 0 := by simpa [kvs] using hf
      subst this; rfl
  | e :: l, p, hs, hv => by
    have hr := h.allocator.val?_range (hv e (by simp))
    obtain ⟨_, hn, hs'⟩ := hs
    obtain ⟨ih1, ih2⟩ := findLoop_exact h k l e.1 hs' (fun e' he' => hv e' (by simp [he']))
    have step : ∀ fuel, h.findLoop k (fuel + 1) ((ids (e :: l)).headD 0) =
        if e.2.1 = k then .ok e.1 else h.findLoop k fuel ((ids l).headD 0) := by
      intro fuel
      conv => lhs; unfold findLoop
      simp only [ids, List.map_cons, List.headD_cons, SENTINEL]
      rw [if_neg (by omega)]
      simp only [getNode, getValue_ok _ (hv e (by simp)), except_bind_ok, beq_iff_eq]
      by_cases hk : e.2.1 = k
      · rw [if_pos hk, if_pos hk]; rfl
      · rw [if_neg hk, if_neg hk]
        simp only [getNext, RIGHT, getRegister_ok _ hr.2 (by omega : 1 < 4), except_bind_ok]
        rw [show h.allocator.reg e.1 1 = (ids l).headD 0 from hn]
    by_cases hk : e.2.1 = k
    · constructor
      · intro fuel hf
        obtain ⟨fuel, rfl⟩ : ∃ f, fuel = f + 1 := ⟨fuel - 1, by omega⟩
        rw [step, if_pos hk]; simp [hk]
      · intro fuel hf
        have : fuel = 0 := by simpa [kvs, hk] using hf
        subst this; rfl
    · have ht : ((kvs (e :: l)).takeWhile fun e => e.1 ≠ k).length = ((kvs l).takeWhile fun e => e.1 ≠ k).length + 1 := by
        simp [kvs, hk]
      rw [ht]
      constructor
      · intro fuel hf
        obtain ⟨fuel, rfl⟩ : ∃ f, fuel = f + 1 := ⟨fuel - 1, by omega⟩
        rw [step, if_neg hk, ih1 fuel (by omega)]; simp [hk]
      · intro fuel hf
        cases fuel with
        | zero => rfl
        | succ fuel => rw [step, if_neg hk, ih2 fuel (by omega)]

end HashTable
end Sokoban
