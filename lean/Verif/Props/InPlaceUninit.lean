import Verif.Proof.InPlaceUninit

/-
Property theorems C83: on zeroed memory that nobody initialised, the panic of the first insertion (C80), when caught,
leaves an initialised structure.
-/
namespace Sokoban.Props
open InPlace Uninit

section uninit
variable {T K V : Type} {B M N : Nat}

/-- The insertions of which C81 and C83 speak are those of the other theorems: they differ in what is known of the
memory after a panic only. -/
theorem C83_insert_calls [BEq K] [Ord K] [LT K] [DecidableLT K] [PartialGt K] (hash : K → Nat) (k : K) (v : V)
    (r : RedBlackTree K V M) (a : AVLTree K V M) (h : HashTable K V B M) :
    (r.insert k v = match rbInsert k v r with | .ok o t => .ok (t, o) | .error p _ => .error p) ∧
    (a.insert k v = match avlInsert k v a with | .ok o t => .ok (t, o) | .error p _ => .error p) ∧
    (h.insert hash k v = match hashInsert hash k v h with | .ok o t => .ok (t, o) | .error p _ => .error p) := by
  rw [← func_rbInsert, ← func_avlInsert, ← func_hashInsert]
  unfold func forget
  refine ⟨?_, ?_, ?_⟩
  · cases rbInsert k v r <;> rfl
  · cases avlInsert k v a <;> rfl
  · cases hashInsert hash k v h <;> rfl

/-- The first `add_node` on zeroed memory panics, but has by then done what `initialize` does. -/
theorem C83_alloc (hM : (M + 1) % 2 ^ 32 ≠ 0) (z v : T) :
    Alloc.addNode v (NodeAllocator.zeroed z : NodeAllocator T M N) = .error .indexOutOfBounds (NodeAllocator.new z) :=
  InPlace.addNode_zeroed hM z v

/-- C83 for the deque: after the panic of the first push the memory is that of a new deque. -/
theorem C83_deque (hM : (M + 1) % 2 ^ 32 ≠ 0) (z v : T) :
    Deq.call (.pushBack v) (Deque.zeroed z : Deque T M) = .error .indexOutOfBounds (Deque.new z) ∧
    Deq.call (.pushFront v) (Deque.zeroed z : Deque T M) = .error .indexOutOfBounds (Deque.new z) := by
  constructor <;>
  · simp only [Deq.call, Deq.callBy, Deq.pushBackBy, Deq.pushFrontBy, Deq.onAlloc, run_bind]
    rw [run_onField_error Deque.allocator _ _ (Deque.zeroed z) (InPlace.addNode_zeroed hM z v)]; rfl

/-- C83 for the red-black tree. -/
theorem C83_rb [Ord K] (hM : (M + 1) % 2 ^ 32 ≠ 0) (z : RBNode K V) (k : K) (v : V) :
    rbInsert k v (RedBlackTree.zeroed z : RedBlackTree K V M) = .error .indexOutOfBounds (RedBlackTree.new z) := by
  simp only [rbInsert, run_bind, run_get, run_ite]
  rw [if_pos (by rfl), run_onField_error RedBlackTree.allocator _ _ (RedBlackTree.zeroed z) (InPlace.addNode_zeroed hM z _)]; rfl

/-- C83 for the AVL tree. -/
theorem C83_avl [LT K] [DecidableLT K] [PartialGt K] (hM : (M + 1) % 2 ^ 32 ≠ 0) (z : AVLNode K V) (k : K) (v : V) :
    avlInsert k v (AVLTree.zeroed z : AVLTree K V M) = .error .indexOutOfBounds (AVLTree.new z) := by
  simp only [avlInsert, run_bind, run_get, run_ite]
  rw [if_pos (by rfl), run_onField_error AVLTree.allocator _ _ (AVLTree.zeroed z) (InPlace.addNode_zeroed hM z _)]; rfl

/-- C83 for the hash table. -/
theorem C83_hash [BEq K] (hB : 0 < B) (hM0 : 0 < M) (hM : (M + 1) % 2 ^ 32 ≠ 0) (hash : K → Nat) (z : HashNode K V)
    (k : K) (v : V) :
    hashInsert hash k v (HashTable.zeroed z : HashTable K V B M) = .error .indexOutOfBounds (HashTable.new z) := by
  obtain ⟨b, hb, e1, e2⟩ := head_zeroed (hash := hash) (z := z) (M := M) hB k
  simp only [hashInsert]
  rw [run_bind, run_look (fun _ => HashTable.bucketIndex B hash k) (HashTable.zeroed z) e1]
  simp only []
  rw [run_bind, run_look (HashTable.bucket · b) (HashTable.zeroed z) e2]
  simp only []
  rw [run_bind, run_look (HashTable.findLoop · k (M + 1) SENTINEL) (HashTable.zeroed z) (findLoop_zeroed k M)]
  simp only [run_bind, run_get, run_ite]
  rw [if_neg (by simp), if_neg (by simp [HashTable.len, HashTable.capacity, HashTable.zeroed, NodeAllocator.zeroed]; omega),
    run_onField_error HashTable.allocator _ _ (HashTable.zeroed z) (InPlace.addNode_zeroed hM z _)]; rfl

/-- C83 for `Critbit`, which has two allocators: it takes two panics, and the second one costs a node. -/
theorem C83_critbit (hN0 : 0 < N) (hN : N + 1 < 2 ^ 32) (hM : (M + 1) % 2 ^ 32 ≠ 0) (z : CritbitNode) (w : V)
    (k k' : BitVec 128) (v v' : V) :
    ∃ t : Critbit V N M, runCaught (fun e : BitVec 128 × V => Crit.insert e.1 e.2) (Critbit.zeroed z w) [(k, v), (k', v')] =
      (t, [.error .indexOutOfBounds, .error .indexOutOfBounds]) ∧
      t.root = SENTINEL ∧ t.leaves = NodeAllocator.new w ∧ t.len = 0 ∧ t.nodeAllocator.size = 1 := by
  obtain ⟨a, i, e, _, _, _, _, h, _⟩ := NodeAllocator.addNode_spec (NodeAllocator.new_AInv (M := N) (N := 4) z) hN
    (by decide) (by simpa using hN0) ⟨k', 128⟩
  have e1 : Crit.insert k v (Critbit.zeroed z w : Critbit V N M) =
      .error .indexOutOfBounds { (Critbit.zeroed z w : Critbit V N M) with nodeAllocator := NodeAllocator.new z } := by
    simp only [Crit.insert, Crit.addLeaf, Crit.onNodes, run_bind, run_get, run_ite]
    rw [if_pos (by rfl), run_onField_error Critbit.nodeAllocator _ _ (Critbit.zeroed z w) (InPlace.addNode_zeroed (by omega) z _)]
  have e2 : Crit.insert k' v' ({ (Critbit.zeroed z w : Critbit V N M) with nodeAllocator := NodeAllocator.new z } : Critbit V N M) =
      .error .indexOutOfBounds { root := SENTINEL, nodeAllocator := a, leaves := NodeAllocator.new w } := by
    simp only [Crit.insert, Crit.addLeaf, Crit.onNodes, Crit.onLeaves, run_bind, run_get, run_ite]
    rw [if_pos (by rfl), run_onField_ok Critbit.nodeAllocator _ _
      ({ (Critbit.zeroed z w : Critbit V N M) with nodeAllocator := NodeAllocator.new z } : Critbit V N M) (of_func (by rw [Alloc.func_addNode]; exact e))]
    simp only []
    rw [run_onField_error Critbit.leaves _ _ ({ (Critbit.zeroed z w : Critbit V N M) with nodeAllocator := a } : Critbit V N M)
      (InPlace.addNode_zeroed hM w _)]; rfl
  exact ⟨{ root := SENTINEL, nodeAllocator := a, leaves := NodeAllocator.new w }, by simp only [runCaught, e1, e2], rfl, rfl, rfl, by rw [h.size]; rfl⟩

/-- A caught panic, then the queue works. -/
example : (runCaught Deq.call (Deque.zeroed 0 : Deque Nat 4) [.pushBack 1, .pushBack 2, .pushFront 3, .popBack]).2.map
    (fun | .ok (.popped x) => some x | .ok _ => some none | .error _ => none) =
    [none, some none, some none, some (some 2)] := by decide +kernel

/-- `Critbit` with `NUM_NODES = 8`: two panics, then insertions work, in one node less. -/
example : (runCaught (fun e : BitVec 128 × Nat => Crit.insert e.1 e.2) (Critbit.zeroed ⟨0, 0⟩ 0 : Critbit Nat 8 4)
    [(1, 10), (2, 20), (3, 30), (4, 40)]).2.map (fun | .ok i => i | .error _ => none) = [none, none, some 2, some 3] := by
  decide +kernel

end uninit

end Sokoban.Props
