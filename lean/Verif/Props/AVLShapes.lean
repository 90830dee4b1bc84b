import Verif.Proof.AVLFull
import Verif.Props.AmortisedAVL

/-
C103: the trees that the AVL tree can have are exactly the AVL trees. The removals that C102 leaves out.
-/
namespace Sokoban.Props
open MapSpec AVLSpec AVLTree Textbook
variable {K V : Type} [LinearOrder K] {M : Nat}

/-- **C103**: a tree of keys is the tree in memory after some history on a new map if and only if it is balanced, its keys ascend,
and it has no more keys than the capacity. -/
theorem C103_avl_shapes (hM0 : 0 < M) (hM : M + 1 < 2 ^ 32) (z : AVLNode K V) (T : Tree K) :
    (∃ (ops : List (Op K V)) (t : AVLTree K V M) (outs : List (Out K V)),
      run call (AVLTree.new z) ops = .ok (t, outs) ∧ AVLIs t t.root T) ↔ T.IsAVL M := by
  constructor
  · rintro ⟨ops, t, outs, e, hT⟩
    exact shape_of hM0 hM z ops e hT
  · intro hT
    obtain ⟨ks, _, t, outs, e, h⟩ := shape_built hM0 hM z z.value hT
    exact ⟨_, t, outs, e, h⟩

/-- **C103**: insertions are enough, each key inserted once. -/
theorem C103_avl_insertions (hM0 : 0 < M) (hM : M + 1 < 2 ^ 32) (z : AVLNode K V) (v : V) {T : Tree K} (hT : T.IsAVL M) :
    ∃ ks : List K, ks.Perm T.keys ∧ ∃ (t : AVLTree K V M) (outs : List (Out K V)),
      run call (AVLTree.new z) (ks.map fun k => .insert k v) = .ok (t, outs) ∧ AVLIs t t.root T :=
  shape_built hM0 hM z v hT

/-- **C103**: the heights that a tree of capacity `M` can have are the `h` with `fib (h + 2) ≤ M + 1`, with natural numbers as keys. -/
theorem C103_avl_heights (hM0 : 0 < M) (hM : M + 1 < 2 ^ 32) (z : AVLNode Nat V) (h : Nat) :
    (∃ (ops : List (Op Nat V)) (t : AVLTree Nat V M) (outs : List (Out Nat V)) (T : Tree Nat),
      run call (AVLTree.new z) ops = .ok (t, outs) ∧ AVLIs t t.root T ∧ T.height = h) ↔ Nat.fib (h + 2) ≤ M + 1 := by
  constructor
  · rintro ⟨ops, t, outs, T, e, hT, rfl⟩
    obtain ⟨h1, _, h3⟩ := shape_of hM0 hM z ops e hT
    have := Tree.fib_le h1
    omega
  · intro hh
    obtain ⟨ks, _, t, outs, e, hT⟩ := shape_built hM0 hM z z.value (Tree.fibTree_avl hh)
    exact ⟨_, t, outs, _, e, hT, (Tree.fibTree_ok h 0).2.1⟩

/-- **C102**: removals spoil the bound. For every `h` with `2 ^ h ≤ M` some history leads to a tree in which inserting one key and
removing it again changes `2 * h` stored heights, however often it is repeated. -/
theorem C102_avl_with_removals (hM0 : 0 < M) (hM : M + 1 < 2 ^ 32) (z : AVLNode Nat V) {h : Nat} (hh : 2 ^ h ≤ M) :
    ∃ (before : List (Op Nat V)) (t : AVLTree Nat V M) (outs : List (Out Nat V)),
      run call (AVLTree.new z) before = .ok (t, outs) ∧
      ∀ v m, Rewritings t (List.replicate m [Op.insert (2 ^ h) v, .remove (2 ^ h)]).flatten (2 * h * m) := by
  obtain ⟨b, _, s, k⟩ := Tree.full_ok h 0
  obtain ⟨ks, _, t, outs, e, hT⟩ := shape_built hM0 hM z z.value
    (T := Tree.full h 0) (M := M) ⟨b, by rw [k]; exact List.pairwise_lt_range', by omega⟩
  obtain ⟨t0, os, E, m, e', hi, hm, _⟩ := AVLTree.run_new hM hM0 z (ks.map fun k => .insert k z.value)
  rw [e] at e'; cases e'
  obtain ⟨T, hT', _⟩ := hi.heights
  have q := hT'.is.1.unique hT
  subst q
  exact ⟨_, t, outs, e, fun v n => full_again hM hM0 hh v n hi hT' hm⟩

/-! ### examples -/

private def one (k : Nat) : Tree Nat := .node .leaf k .leaf

/-- the thinnest tree of height four, leaning to the left -/
private def thin : Tree Nat := .node (.node (.node (one 1) 2 .leaf) 3 (one 4)) 5 (.node (one 6) 7 .leaf)

private theorem thin_avl : thin.IsAVL 7 := by
  refine ⟨?_, ?_, by decide⟩
  · simp [thin, one, Tree.Balanced, Tree.height]
  · decide

/-- It is an AVL tree of capacity 7, so some insertions make it; six slots are too few. -/
example : ∃ ks : List Nat, ks.Perm [1, 2, 3, 4, 5, 6, 7] ∧ ∃ (t : AVLTree Nat Nat 7) (outs : List (Out Nat Nat)),
    run call (AVLTree.new ⟨0, 0⟩) (ks.map fun k => .insert k 0) = .ok (t, outs) ∧ AVLIs t t.root thin :=
  C103_avl_insertions (by decide) (by decide) ⟨0, 0⟩ 0 thin_avl

example : ¬ ∃ (ops : List (Op Nat Nat)) (t : AVLTree Nat Nat 6) (outs : List (Out Nat Nat)),
    run call (AVLTree.new ⟨0, 0⟩) ops = .ok (t, outs) ∧ AVLIs t t.root thin := by
  rw [C103_avl_shapes (by decide) (by decide)]
  exact fun h => absurd h.2.2 (by decide)

/-- A list is no AVL tree; no calls make it. -/
example : ¬ ∃ (ops : List (Op Nat Nat)) (t : AVLTree Nat Nat 6) (outs : List (Out Nat Nat)),
    run call (AVLTree.new ⟨0, 0⟩) ops = .ok (t, outs) ∧ AVLIs t t.root (.node .leaf 1 (.node .leaf 2 (one 3))) := by
  rw [C103_avl_shapes (by decide) (by decide)]
  exact fun h => absurd h.1.2.1 (by decide)

/-- With capacity 100 the heights go up to 9. -/
example (h : Nat) : (∃ (ops : List (Op Nat Nat)) (t : AVLTree Nat Nat 100) (outs : List (Out Nat Nat)) (T : Tree Nat),
    run call (AVLTree.new ⟨0, 0⟩) ops = .ok (t, outs) ∧ AVLIs t t.root T ∧ T.height = h) ↔ h ≤ 9 := by
  rw [C103_avl_heights (by decide) (by decide)]
  constructor
  · intro q
    by_contra hn
    have := Nat.fib_mono (show 10 + 2 ≤ h + 2 by omega)
    have e : Nat.fib (10 + 2) = 144 := by decide
    omega
  · intro q
    have := Nat.fib_mono (show h + 2 ≤ 9 + 2 by omega)
    have e : Nat.fib (9 + 2) = 89 := by decide
    omega

/-- In a tree of capacity 1024, a thousand times in and out changes twenty thousand heights. -/
example : ∃ (before : List (Op Nat Nat)) (t : AVLTree Nat Nat 1024) (outs : List (Out Nat Nat)),
    run call (AVLTree.new ⟨0, 0⟩) before = .ok (t, outs) ∧
      Rewritings t (List.replicate 1000 [Op.insert 1024 0, .remove 1024]).flatten 20000 := by
  obtain ⟨before, t, outs, e, h⟩ := C102_avl_with_removals (M := 1024) (V := Nat) (by decide) (by decide) ⟨0, 0⟩ (h := 10) (by decide)
  exact ⟨before, t, outs, e, h 0 1000⟩

end Sokoban.Props
