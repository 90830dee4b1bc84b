import Verif.Proof.Relink
import Verif.Proof.Cost

/-
Property theorems C76: how many nodes a call changes.
-/
namespace Sokoban.Props
open MapSpec RelinkSpec
variable {K V T : Type} {M N B : Nat}

/-- C76 for the red-black tree, insertion: however large the tree, the links and entries of all but 10 nodes are the same
after `insert` as before. The comparison need not be lawful. Colours are left out: recolouring may go up to the root. -/
theorem C76_rb_insert [Ord K] (hM0 : 0 < M) (hM : M + 1 < 2 ^ 32) (z : RBNode K V) (ops : List (RedBlackSpec.TOp K V))
    {t t' : RedBlackTree K V M} {outs : List (RedBlackSpec.TOut K V)}
    (hrun : run RedBlackSpec.call (RedBlackTree.new z) ops = .ok (t, outs))
    {k : K} {v : V} {o : Option Nat} (h : t.insert k v = .ok (t', o)) : AllBut 10 (RBSame t t') := by
  obtain ⟨t0, os, E, e, hh, _⟩ := RedBlackTree.run_any hM hM0 z ops
  rw [hrun] at e; cases e
  exact (hh.near_insert hM h).allBut

/-- C76 for the red-black tree, removal: all but 19 nodes are the same after `remove` and `remove_root`. This holds for
the contents of any buffer, whether or not it is a tree. -/
theorem C76_rb_remove [Ord K] (t : RedBlackTree K V M) :
    (∀ k t' o, t.remove k = .ok (t', o) → AllBut 19 (RBSame t t')) ∧
    ∀ t' o, t.removeRoot = .ok (t', o) → AllBut 19 (RBSame t t') :=
  ⟨fun _ _ _ h => (RedBlackTree.near_remove h).allBut, fun _ _ h => (RedBlackTree.near_removeRoot h).allBut⟩

/-- C76 for the AVL tree: `insert` rotates at one node only, so all but 8 nodes keep links and entry. `remove` may
rotate at every node of a path, so all but logarithmically many keep them. Heights are left out. The comparison need
not be lawful. -/
theorem C76_avl [LT K] [DecidableLT K] [PartialGt K] (hM0 : 0 < M) (hM : M + 1 < 2 ^ 32) (z : AVLNode K V) (ops : List (Op K V))
    {t : AVLTree K V M} {outs : List (Out K V)} (hrun : run AVLSpec.call (AVLTree.new z) ops = .ok (t, outs)) :
    (∀ k v t' o, t.insert k v = .ok (t', o) → AllBut 8 (AVLSame t t')) ∧
    ∀ k t' o, t.remove k = .ok (t', o) → AllBut (24 * (t.len + 1).log2 + 29) (AVLSame t t') := by
  obtain ⟨t0, os, E, e, hh, _⟩ := AVLTree.run_any hM hM0 z ops
  rw [hrun] at e; cases e
  refine ⟨fun k v t' o h => (hh.near_insert hM h).allBut, fun k t' o h => ?_⟩
  cases E with
  | nil =>
    have hr : t.root = 0 := by
      obtain ⟨_, _, _, _, _, _, hr0, _⟩ := hh.tree
      exact hr0.2 rfl
    unfold AVLTree.remove at h
    rw [if_pos (by rw [hr]; rfl)] at h
    cases h
    exact ⟨[], by simp, fun _ _ => ⟨rfl, rfl, rfl⟩⟩
  | cons x E' =>
    have hlen : t.len = (x :: E').length := hh.base.size
    have hc := (hh.cost hM (deep_of_log (Nat.le_refl _)) k x.2.2).2
    rw [← hc] at h
    refine (AVLTree.near_remove h).allBut.imp fun S hS => ⟨Nat.le_trans hS.1 ?_, hS.2⟩
    rw [hlen]; omega

/-- C76 for the deque: a push changes at most two nodes, a pop at most three, in any state. -/
theorem C76_deque (d d' : Deque T M) :
    (∀ v, d.pushBack v = .ok d' → AllBut 2 (DequeSame d d')) ∧
    (∀ v, d.pushFront v = .ok d' → AllBut 2 (DequeSame d d')) ∧
    (∀ o, d.popBack = .ok (d', o) → AllBut 3 (DequeSame d d')) ∧
    (∀ o, d.popFront = .ok (d', o) → AllBut 3 (DequeSame d d')) :=
  ⟨fun _ => Deque.touch_pushBack, fun _ => Deque.touch_pushFront, fun _ => Deque.touch_popBack,
    fun _ => Deque.touch_popFront⟩

/-- C76 for the hash table: `insert` changes at most two nodes, `remove` three, `get_mut`, which moves the node to the
front of its bucket, four, and each of them changes the head of one bucket at most; in any state. -/
theorem C76_hash [BEq K] (hash : K → Nat) (h h' : HashTable K V B M) :
    (∀ k v o, h.insert hash k v = .ok (h', o) →
      AllBut 2 (HashSame h h') ∧ AllBut 1 fun b => h'.bucket b = h.bucket b) ∧
    (∀ k o, h.remove hash k = .ok (h', o) → AllBut 3 (HashSame h h') ∧ AllBut 1 fun b => h'.bucket b = h.bucket b) ∧
    (∀ k o, h.getMut hash k = .ok (h', o) → AllBut 4 (HashSame h h') ∧ AllBut 1 fun b => h'.bucket b = h.bucket b) :=
  ⟨fun _ _ _ e => (HashTable.touch_insert e).allBut, fun _ _ e => (HashTable.touch_remove e).allBut,
    fun _ _ e => (HashTable.touch_getMut e).allBut⟩

/-- C76 for the critbit tree: `insert` changes at most five nodes and one leaf, `remove` six and one, in any state. -/
theorem C76_critbit (t t' : Critbit V N M) :
    (∀ k v o, t.insert k v = .ok (t', o) →
      AllBut 5 (CritbitSame t t') ∧ AllBut 1 fun l => t'.getLeaf l = t.getLeaf l) ∧
    (∀ k o, t.remove k = .ok (t', o) → AllBut 6 (CritbitSame t t') ∧ AllBut 1 fun l => t'.getLeaf l = t.getLeaf l) :=
  ⟨fun _ _ _ e => (Critbit.touch_insert e).allBut, fun _ _ e => (Critbit.touch_remove e).allBut⟩

/-! ### examples -/

/-- Two nodes that differ are more than one. -/
theorem not_allBut_one {P : Nat → Prop} {i j : Nat} (hij : i ≠ j) (hi : ¬ P i) (hj : ¬ P j) : ¬ AllBut 1 P := by
  rintro ⟨S, h1, h2⟩
  have m1 : i ∈ S := by by_contra hc; exact hi (h2 i hc)
  have m2 : j ∈ S := by by_contra hc; exact hj (h2 j hc)
  match S, h1 with
  | [], _ => simp at m1
  | [x], _ => simp at m1 m2; exact hij (m1.trans m2.symm)

set_option maxRecDepth 100000 in
/-- A tree of 20 nodes: `insert` and `remove` succeed and leave at least 10 and 1 of them alone; the last insertion does
change more than one node. -/
example : ∃ t t' outs o t2 o2, run RedBlackSpec.call (RedBlackTree.new ⟨0, 0⟩ : RedBlackTree Nat Nat 60)
    ((List.range 20).map fun k => .map (.insert k k)) = .ok (t, outs) ∧ t.insert 20 20 = .ok (t', o) ∧
    AllBut 10 (RBSame t t') ∧ ¬ AllBut 1 (RBSame t t') ∧ t.remove 7 = .ok (t2, o2) ∧ AllBut 19 (RBSame t t2) := by
  obtain ⟨t, outs, e⟩ : ∃ t outs, run RedBlackSpec.call (RedBlackTree.new ⟨0, 0⟩ : RedBlackTree Nat Nat 60)
    ((List.range 20).map fun k => .map (.insert k k)) = .ok (t, outs) := ⟨_, _, rfl⟩
  obtain ⟨t', o, h1⟩ : ∃ t' o, t.insert 20 20 = .ok (t', o) := by cases e; exact ⟨_, _, rfl⟩
  obtain ⟨t2, o2, h2⟩ : ∃ t2 o2, t.remove 7 = .ok (t2, o2) := by cases e; exact ⟨_, _, rfl⟩
  have hn : t.getRight 20 = .ok 0 ∧ t'.getRight 20 = .ok 21 ∧ t.getParent 21 = .ok 0 ∧ t'.getParent 21 = .ok 20 := by
    cases e; cases h1; exact ⟨rfl, rfl, rfl, rfl⟩
  refine ⟨t, t', outs, o, t2, o2, e, h1, C76_rb_insert (by omega) (by omega) _ _ e h1, ?_, h2, (C76_rb_remove t).1 _ _ _ h2⟩
  refine not_allBut_one (i := 20) (j := 21) (by omega) ?_ ?_
  · rintro ⟨_, hc, _⟩; rw [hn.1, hn.2.1] at hc; cases hc
  · rintro ⟨_, _, hc, _⟩; rw [hn.2.2.1, hn.2.2.2] at hc; cases hc

/-- An insertion into an AVL tree of 7 nodes. -/
example : ∃ t t' outs o t2 o2, run AVLSpec.call (AVLTree.new ⟨0, 0⟩ : AVLTree Nat Nat 60)
    ((List.range 7).map fun k => .insert k k) = .ok (t, outs) ∧ t.insert 20 20 = .ok (t', o) ∧
    AllBut 8 (AVLSame t t') ∧ ¬ AllBut 0 (AVLSame t t') ∧ t.remove 3 = .ok (t2, o2) ∧
    AllBut (24 * (t.len + 1).log2 + 29) (AVLSame t t2) := by
  obtain ⟨t, outs, e⟩ : ∃ t outs, run AVLSpec.call (AVLTree.new ⟨0, 0⟩ : AVLTree Nat Nat 60)
    ((List.range 7).map fun k => .insert k k) = .ok (t, outs) := ⟨_, _, rfl⟩
  obtain ⟨t', o, h1⟩ : ∃ t' o, t.insert 20 20 = .ok (t', o) := by cases e; exact ⟨_, _, rfl⟩
  obtain ⟨t2, o2, h2⟩ : ∃ t2 o2, t.remove 3 = .ok (t2, o2) := by cases e; exact ⟨_, _, rfl⟩
  have hn : t.getField 7 1 = .ok 0 ∧ t'.getField 7 1 = .ok 8 := by cases e; cases h1; exact ⟨rfl, rfl⟩
  have H := C76_avl (by omega) (by omega) _ _ e
  refine ⟨t, t', outs, o, t2, o2, e, h1, H.1 _ _ _ _ h1, ?_, h2, H.2 _ _ _ h2⟩
  rintro ⟨S, g1, g2⟩
  have := (g2 7 (by rw [List.length_eq_zero_iff.1 (Nat.le_zero.1 g1)]; simp)).2.1
  rw [show AVLTree.RIGHT = 1 from rfl, hn.1, hn.2] at this; cases this

/-- Appending to a deque of two elements changes two nodes, not one. -/
example : ∃ d d' : Deque Nat 5, (do (← (Deque.new 0 : Deque Nat 5).pushBack 1).pushBack 2) = .ok d ∧
    d.pushBack 3 = .ok d' ∧ AllBut 2 (DequeSame d d') ∧ ¬ AllBut 1 (DequeSame d d') := by
  obtain ⟨d, e⟩ : ∃ d : Deque Nat 5, (do (← (Deque.new 0 : Deque Nat 5).pushBack 1).pushBack 2) = .ok d := ⟨_, rfl⟩
  obtain ⟨d', e'⟩ : ∃ d', d.pushBack 3 = .ok d' := by cases e; exact ⟨_, rfl⟩
  have hn : d.getNext 2 = .ok 0 ∧ d'.getNext 2 = .ok 3 ∧ d.getPrev 3 = .ok 0 ∧ d'.getPrev 3 = .ok 2 := by
    cases e; cases e'; exact ⟨rfl, rfl, rfl, rfl⟩
  refine ⟨d, d', e, e', (C76_deque d d').1 _ e', not_allBut_one (i := 2) (j := 3) (by omega) ?_ ?_⟩
  · rintro ⟨hc, _⟩; rw [hn.1, hn.2.1] at hc; cases hc
  · rintro ⟨_, hc, _⟩; rw [hn.2.2.1, hn.2.2.2] at hc; cases hc

/-- Three keys in one bucket: `get_mut` of the one in the middle. -/
example : ∃ h h' : HashTable Nat Nat 2 5, ∃ outs o, run (HashTableSpec.call id) (HashTable.new ⟨0, 0⟩)
    [.insert 0 0, .insert 2 2, .insert 4 4] = .ok (h, outs) ∧ h.getMut id 2 = .ok (h', o) ∧
    AllBut 4 (HashSame h h') ∧ ¬ AllBut 1 (HashSame h h') ∧ h'.bucket 0 = .ok 2 ∧ h.bucket 0 = .ok 3 := by
  obtain ⟨h, outs, e⟩ : ∃ (h : HashTable Nat Nat 2 5) (outs : _), run (HashTableSpec.call id) (HashTable.new ⟨0, 0⟩)
    [.insert 0 0, .insert 2 2, .insert 4 4] = .ok (h, outs) := ⟨_, _, rfl⟩
  obtain ⟨h', o, e'⟩ : ∃ h' o, h.getMut id 2 = .ok (h', o) := by cases e; exact ⟨_, _, rfl⟩
  have hn : h.getNext 3 = .ok 2 ∧ h'.getNext 3 = .ok 1 ∧ h.getNext 2 = .ok 1 ∧ h'.getNext 2 = .ok 3 ∧
      h'.bucket 0 = .ok 2 ∧ h.bucket 0 = .ok 3 := by
    cases e; cases e'; exact ⟨rfl, rfl, rfl, rfl, rfl, rfl⟩
  refine ⟨h, h', outs, o, e, e', ((C76_hash id h h').2.2 _ _ e').1,
    not_allBut_one (i := 2) (j := 3) (by omega) ?_ ?_, hn.2.2.2.2⟩
  · rintro ⟨hc, _⟩; rw [hn.2.2.1, hn.2.2.2.1] at hc; cases hc
  · rintro ⟨hc, _⟩; rw [hn.1, hn.2.1] at hc; cases hc

set_option maxRecDepth 100000 in
/-- A third key in a critbit tree: the leaf and the inner node are new, more than one node changes. -/
example : ∃ t t' : Critbit Nat 6 3, ∃ o, (do
      let (t, _) ← (Critbit.new ⟨0, 0⟩ 0 : Critbit Nat 6 3).insert 1 10
      let (t, _) ← t.insert 2 20
      return t) = .ok t ∧ t.insert 3 30 = .ok (t', o) ∧
    AllBut 5 (CritbitSame t t') ∧ ¬ AllBut 1 (CritbitSame t t') := by
  obtain ⟨t, e⟩ : ∃ t : Critbit Nat 6 3, (do
      let (t, _) ← (Critbit.new ⟨0, 0⟩ 0 : Critbit Nat 6 3).insert 1 10
      let (t, _) ← t.insert 2 20
      return t) = .ok t := ⟨_, rfl⟩
  obtain ⟨t', o, e'⟩ : ∃ t' o, t.insert 3 30 = .ok (t', o) := by cases e; exact ⟨_, _, rfl⟩
  have hn : t.getParent 4 = .ok 0 ∧ t'.getParent 4 = .ok 2 ∧ t.getParent 5 = .ok 0 ∧ t'.getParent 5 = .ok 2 := by
    cases e; cases e'; exact ⟨rfl, rfl, rfl, rfl⟩
  refine ⟨t, t', o, e, e', ((C76_critbit t t').1 _ _ _ e').1, not_allBut_one (i := 4) (j := 5) (by omega) ?_ ?_⟩
  · rintro ⟨_, _, hc, _⟩; rw [hn.1, hn.2.1] at hc; cases hc
  · rintro ⟨_, _, hc, _⟩; rw [hn.2.2.1, hn.2.2.2] at hc; cases hc

end Sokoban.Props
