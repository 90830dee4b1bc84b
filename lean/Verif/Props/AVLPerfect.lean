import Verif.Proof.AVLPerfect

/-
C109: insertions in ascending order make perfect AVL trees.
-/
namespace Sokoban.Props
open MapSpec AVLSpec AVLTree Textbook
variable {K V : Type} [LinearOrder K] {M : Nat}

/-- **C109**: after the insertion of `2 ^ h - 1` keys in ascending order the AVL tree is perfect: every path from the root has `h`
nodes; the keys in the order of the tree are those inserted. (A red-black tree is as deep as can be
after such insertions, `C108_rb_depth_attained`.) -/
theorem C109_avl_ascending (hM0 : 0 < M) (hM : M + 1 < 2 ^ 32) (z : AVLNode K V) (v : V) {h : Nat} {ks : List K}
    (hlen : ks.length + 1 = 2 ^ h) (hs : ks.Pairwise (· < ·)) (hcap : ks.length ≤ M) :
    ∃ (t : AVLTree K V M) (outs : List (Out K V)) (T : Tree K),
      run call (AVLTree.new z) (ks.map fun k => .insert k v) = .ok (t, outs) ∧
      AVLIs t t.root T ∧ T.Perfect h ∧ T.keys = ks ∧
      ∀ p : List Bool, p.length ≤ h → ∃ i, walk t t.root p = .ok i ∧ (i = SENTINEL ↔ p.length = h) := by
  obtain ⟨t, outs, E, e, hT⟩ := run_textbook (M := M) hM hM0 z (ks.map fun k => .insert k v)
  obtain ⟨e1, e2⟩ := Tree.ascend (M := M) v ks (T := .leaf) (by simpa [Tree.keys] using hs) (by simpa [Tree.keys] using hcap)
  rw [e1] at hT
  have hp := Tree.grow_perfect h hlen
  exact ⟨t, outs, _, e, hT.is.1, hp, by simpa [Tree.keys] using e2, walk_perfect hp hT.is.1⟩

/-! ### examples -/

/-- seven keys, `h = 3` -/
example : ([1, 2, 3, 5, 8, 13, 21] : List Nat).length + 1 = 2 ^ 3 ∧ ([1, 2, 3, 5, 8, 13, 21] : List Nat).Pairwise (· < ·) := by decide

/-- the root is 5, the fourth of the seven; two steps to the right is 21, and one more nothing -/
example : (run AVLSpec.call (AVLTree.new ⟨0, 0⟩ : AVLTree Nat Nat 8) ([1, 2, 3, 5, 8, 13, 21].map fun k => .insert k 0)).map
    (fun x => [[], [false], [true, true], [true, true, true]].map fun p => (AVLSpec.walk x.1 x.1.root p)) =
    .ok [.ok 4, .ok 2, .ok 7, .ok 0] := by decide +kernel

/-- with six keys the levels are not complete -/
example : (run AVLSpec.call (AVLTree.new ⟨0, 0⟩ : AVLTree Nat Nat 8) ([1, 2, 3, 5, 8, 13].map fun k => .insert k 0)).map
    (fun x => [[true, true], [true, false]].map fun p => (AVLSpec.walk x.1 x.1.root p)) = .ok [.ok 6, .ok 0] := by decide +kernel

end Sokoban.Props
