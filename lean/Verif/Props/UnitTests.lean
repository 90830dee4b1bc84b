import Verif.Proof.UnitTests
import Verif.Proof.UnitTestsMore

/-
C92: the unit tests of the crate (`Model/UnitTests.lean`), with every literal and every random choice turned into a
parameter.
-/
namespace Sokoban
open UnitTests
variable {K V : Type} [LinearOrder K] {M : Nat}

/-- C92: the five tests which look at colours and links after single insertions pass for all keys in the same
relative order, all values, and all capacities with room for the keys. -/
theorem C92_red_uncle (hM : M + 1 < 2 ^ 32) (hl : 6 ≤ M) (z : RBNode K V) {k0 k1 k2 k3 k4 k5 : K} (h0 : k1 < k0)
    (h1 : k0 < k3) (h2 : k3 < k2) (h3 : k2 < k4) (h4 : k4 < k5) (v : Nat → V) :
    redParentAndUncle (RedBlackTree.new z : RedBlackTree K V M) k0 k1 k2 k3 k4 k5 v = .ok () :=
  redParentAndUncle_ok hM hl z h0 h1 h2 h3 h4 v

/-- the literals of `test_insert_with_red_parent_and_uncle` -/
example (v : Nat → Nat) :
    redParentAndUncle (RedBlackTree.new ⟨0, 0⟩ : RedBlackTree Nat Nat 1024) 61 52 85 76 93 100 v = .ok () :=
  C92_red_uncle (by omega) (by omega) _ (by omega) (by omega) (by omega) (by omega) (by omega) v

/-- C92: `test_right_insert_with_red_right_child_parent_and_black_uncle`. -/
theorem C92_right_right (hM : M + 1 < 2 ^ 32) (hl : 5 ≤ M) (z : RBNode K V) {k0 k1 k2 k3 k4 : K} (h0 : k1 < k0)
    (h1 : k0 < k2) (h2 : k2 < k3) (h3 : k3 < k4) (v : Nat → V) :
    rightRight (RedBlackTree.new z : RedBlackTree K V M) k0 k1 k2 k3 k4 v = .ok () :=
  rightRight_ok hM hl z h0 h1 h2 h3 v

/-- the literals of the test -/
example (v : Nat → Nat) : rightRight (RedBlackTree.new ⟨0, 0⟩ : RedBlackTree Nat Nat 1024) 61 52 85 93 100 v = .ok () :=
  C92_right_right (by omega) (by omega) _ (by omega) (by omega) (by omega) (by omega) v

/-- C92: `test_left_insert_with_red_right_child_parent_and_black_uncle`. -/
theorem C92_left_right (hM : M + 1 < 2 ^ 32) (hl : 5 ≤ M) (z : RBNode K V) {k0 k1 k2 k3 k4 : K} (h0 : k1 < k0)
    (h1 : k0 < k2) (h2 : k2 < k4) (h3 : k4 < k3) (v : Nat → V) :
    leftRight (RedBlackTree.new z : RedBlackTree K V M) k0 k1 k2 k3 k4 v = .ok () :=
  leftRight_ok hM hl z h0 h1 h2 h3 v

/-- the literals of the test -/
example (v : Nat → Nat) : leftRight (RedBlackTree.new ⟨0, 0⟩ : RedBlackTree Nat Nat 1024) 61 52 85 93 87 v = .ok () :=
  C92_left_right (by omega) (by omega) _ (by omega) (by omega) (by omega) (by omega) v

/-- C92: `test_left_insert_with_red_left_child_parent_and_black_uncle`. -/
theorem C92_left_left (hM : M + 1 < 2 ^ 32) (hl : 5 ≤ M) (z : RBNode K V) {k0 k1 k2 k3 k4 : K} (h0 : k4 < k3)
    (h1 : k3 < k2) (h2 : k2 < k0) (h3 : k0 < k1) (v : Nat → V) :
    leftLeft (RedBlackTree.new z : RedBlackTree K V M) k0 k1 k2 k3 k4 v = .ok () :=
  leftLeft_ok hM hl z h0 h1 h2 h3 v

/-- the literals of the test -/
example (v : Nat → Nat) : leftLeft (RedBlackTree.new ⟨0, 0⟩ : RedBlackTree Nat Nat 1024) 61 85 52 41 25 v = .ok () :=
  C92_left_left (by omega) (by omega) _ (by omega) (by omega) (by omega) (by omega) v

/-- C92: `test_right_insert_with_red_left_child_parent_and_black_uncle`. -/
theorem C92_right_left (debug : K → String) (hM : M + 1 < 2 ^ 32) (hl : 5 ≤ M) (z : RBNode K V) {k0 k1 k2 k3 k4 : K}
    (h0 : k3 < k4) (h1 : k4 < k2) (h2 : k2 < k0) (h3 : k0 < k1) (v : Nat → V) :
    rightLeft debug (RedBlackTree.new z : RedBlackTree K V M) k0 k1 k2 k3 k4 v = .ok () :=
  rightLeft_ok hM hl z debug h0 h1 h2 h3 v

/-- the literals of the test -/
example (v : Nat → Nat) :
    rightLeft toString (RedBlackTree.new ⟨0, 0⟩ : RedBlackTree Nat Nat 1024) 61 85 52 41 47 v = .ok () :=
  C92_right_left toString (by omega) (by omega) _ (by omega) (by omega) (by omega) (by omega) v

/-- C92: the test `remove_root` passes for all keys in the same relative order and all values. -/
theorem C92_remove_root [DecidableEq V] (hM : M + 1 < 2 ^ 32) (hl : 3 ≤ M) (z : RBNode K V) {e0 e1 e2 : K × V}
    (h0 : e2.1 < e0.1) (h1 : e0.1 < e1.1) :
    removeRootTest (RedBlackTree.new z : RedBlackTree K V M) e0 e1 e2 = .ok () :=
  removeRootTest_ok hM hl z h0 h1

/-- the literals of the test -/
example : removeRootTest (RedBlackTree.new ⟨0, 0⟩ : RedBlackTree Nat Nat 4098) (1, 5) (2, 0) (0, 4) = .ok () :=
  C92_remove_root (by omega) (by omega) _ (by omega) (by omega)

/-- C92: `test_delete_multiple_random_1023`, `_512` and `_4098` pass for every sequence of keys without a repetition
that fits, and panic in an `unwrap` for every other. -/
theorem C92_delete_multiple (hM : M + 1 < 2 ^ 32) (hM0 : 0 < M) (z : RBNode K V) (es : List (K × V)) :
    deleteAll (RedBlackTree.new z : RedBlackTree K V M) es =
      if (es.map Prod.fst).Nodup ∧ es.length ≤ M then .ok () else .error .unwrapNone :=
  deleteAll_spec hM hM0 z es

/-- the same for `test_delete_multiple_random_1024`, which also asks for the addresses of all keys at the end of the
insertions -/
theorem C92_delete_multiple_addresses (hM : M + 1 < 2 ^ 32) (hM0 : 0 < M) (z : RBNode K V) (es : List (K × V)) :
    deleteAllAddresses (RedBlackTree.new z : RedBlackTree K V M) es =
      if (es.map Prod.fst).Nodup ∧ es.length ≤ M then .ok () else .error .unwrapNone :=
  deleteAllAddresses_spec hM hM0 z es

/-- the same for `test_delete_multiple_random_2048`, which fills a second tree with the positions of the keys -/
theorem C92_delete_multiple_indices (hM : M + 1 < 2 ^ 32) (hM0 : 0 < M) (z : RBNode K V) (z' : RBNode Nat V)
    (es : List (K × V)) (v : V) :
    deleteAllIndices (RedBlackTree.new z : RedBlackTree K V M) (RedBlackTree.new z') es v =
      if (es.map Prod.fst).Nodup ∧ es.length ≤ M then .ok () else .error .unwrapNone :=
  deleteAllIndices_spec hM hM0 z z' es v

/-- 1023 different keys in a tree for 1023 entries -/
example : deleteAll (RedBlackTree.new ⟨0, 0⟩ : RedBlackTree Nat Nat 1023) ((List.range 1023).map fun i => (7 * i, 0)) =
    .ok () := by
  rw [C92_delete_multiple (by omega) (by omega), if_pos]
  refine ⟨?_, by simp⟩
  rw [List.map_map]
  exact List.nodup_range.map (fun a b h => by simpa using h)

/-- a hash function with a collision makes the test panic although the tree is right -/
example : deleteAllAddresses (RedBlackTree.new ⟨0, 0⟩ : RedBlackTree Nat Nat 1024) [(5, 0), (3, 0), (5, 0)] =
    .error .unwrapNone := by
  rw [C92_delete_multiple_addresses (by omega) (by omega), if_neg (by simp)]

/-- C92: `test_deque` passes for all values, all numbers of pushes at either end and all breakpoints when the values
fit into the deque; otherwise one of its pushes finds no room and panics. -/
theorem C92_deque {T : Type} [DecidableEq T] (hM : M + 1 < 2 ^ 32) (z : T) (b1 f1 b2 f2 : List T)
    (hlen : b1.length + f1.length + b2.length + f2.length < 2 ^ 63) (break1 break2 : Nat) :
    testDeque (Deque.new z : Deque T M) b1 f1 b2 f2 break1 break2 =
      if b1.length + f1.length ≤ M ∧ b2.length + f2.length ≤ M then .ok () else .error .bufferFull :=
  testDeque_spec hM z b1 f1 b2 f2 hlen break1 break2

/-- the sizes of the test -/
example (b1 f1 b2 f2 : List Nat) (h1 : b1.length = 128) (h2 : f1.length = 128) (h3 : b2.length = 128)
    (h4 : f2.length = 128) (break1 break2 : Nat) :
    testDeque (Deque.new 0 : Deque Nat 1024) b1 f1 b2 f2 break1 break2 = .ok () := by
  rw [C92_deque (by omega) 0 b1 f1 b2 f2 (by omega), if_pos ⟨by omega, by omega⟩]

end Sokoban
