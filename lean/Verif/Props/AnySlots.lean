import Verif.Proof.AnySlots
import Verif.Props.Slots

/-
C106: the caller can give every key every slot.
-/
namespace Sokoban.Props
open MapSpec Slots
variable {K V : Type} {B M : Nat}

/-- **C106**: whatever distinct slots are wished for some distinct keys, one and the same history gives these keys these addresses in a red-black
tree, in an AVL tree and in a hash table of capacity `M`, and contains no other keys in the end. There must be enough keys to fill the
memory once, so there are infinitely many here. -/
theorem C106_any_slots [LinearOrder K] [Infinite K] (hB : 0 < B) (hM : M + 1 < 2 ^ 32) (hM0 : 0 < M) (hash : K → Nat) (z1 : RBNode K V)
    (z2 : AVLNode K V) (z3 : HashNode K V) {A : List (K × Nat)} (hA : Wish A M) :
    ∃ (ops : List (Op K V)) (t1 : RedBlackTree K V M) (o1 : List (RedBlackSpec.TOut K V)) (t2 : AVLTree K V M) (o2 : List (Out K V))
      (t3 : HashTable K V B M) (o3 : List (Out K V)),
      run RedBlackSpec.call (RedBlackTree.new z1) (ops.map .map) = .ok (t1, o1) ∧
      run AVLSpec.call (AVLTree.new z2) ops = .ok (t2, o2) ∧
      run (HashTableSpec.call hash) (HashTable.new z3) ops = .ok (t3, o3) ∧
      ∀ k, t1.getAddr k = .ok (wished A k) ∧ t2.getAddr k = .ok (wished A k) ∧ t3.getAddr hash k = .ok (wished A k) := by
  obtain ⟨ops, hops⟩ := exists_calls (V := V) z2.value hA
  obtain ⟨t1, o1, t2, o2, t3, o3, e1, e2, e3, ha, _⟩ := C75_same_slots hB hM hM0 hash z1 z2 z3 ops
  obtain ⟨t2', o2', e2', a2, _⟩ := C75_avl_slots hM hM0 z2 ops
  rw [e2] at e2'; cases e2'
  refine ⟨ops, t1, o1, t2, o2, t3, o3, e1, e2, e3, fun k => ?_⟩
  obtain ⟨i, h1, h2, h3⟩ := ha k
  have := a2 k
  rw [h2, hops k] at this
  injection this with this
  rw [this] at h1 h2 h3
  exact ⟨h1, h2, h3⟩

/-! ### examples -/

/-- Three keys in the slots 7, 2 and 5 of 8. -/
example : ∃ (ops : List (Op Nat Nat)) (t1 : RedBlackTree Nat Nat 8) (o1 : List (RedBlackSpec.TOut Nat Nat)) (t2 : AVLTree Nat Nat 8)
    (o2 : List (Out Nat Nat)) (t3 : HashTable Nat Nat 3 8) (o3 : List (Out Nat Nat)),
    run RedBlackSpec.call (RedBlackTree.new ⟨0, 0⟩) (ops.map .map) = .ok (t1, o1) ∧
    run AVLSpec.call (AVLTree.new ⟨0, 0⟩) ops = .ok (t2, o2) ∧
    run (HashTableSpec.call id) (HashTable.new ⟨0, 0⟩) ops = .ok (t3, o3) ∧
    ∀ k, t1.getAddr k = .ok (wished [(10, 7), (20, 2), (30, 5)] k) ∧ t2.getAddr k = .ok (wished [(10, 7), (20, 2), (30, 5)] k) ∧
      t3.getAddr id k = .ok (wished [(10, 7), (20, 2), (30, 5)] k) :=
  C106_any_slots (by decide) (by decide) (by decide) id _ _ _ ⟨by decide, by decide, by decide⟩

example : wished [(10, 7), (20, 2), (30, 5)] 20 = 2 ∧ wished [(10, 7), (20, 2), (30, 5)] 11 = 0 := by decide

end Sokoban.Props
