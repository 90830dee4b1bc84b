import Verif.Props.Deque
import Verif.Props.HashTable
import Verif.Props.RedBlack
import Verif.Props.AVL
import Verif.Props.Critbit
import Verif.Props.Alloc

/-
Property theorems C65 for the structures: `MAX_SIZE` a multiple of `2^32`.
-/
namespace Sokoban.Props
open AllocSpec NodeAllocator

variable {T K V : Type}

theorem usable_multiple {M : Nat} (h : 2 ^ 32 ∣ M) : usable M = 0 ∧ fullPanic M = .bufferFull := by
  obtain ⟨k, rfl⟩ := h
  refine ⟨by simp [usable], ?_⟩
  unfold fullPanic
  rw [if_neg (by omega)]

theorem add_multiple {M N : Nat} (h : 2 ^ 32 ∣ M) (z v : T) :
    (NodeAllocator.new z : NodeAllocator T M N).addNode v = .error .bufferFull := by
  rw [addNode_usable_full (new_AInv z) (by simp [(usable_multiple h).1]), (usable_multiple h).2]

/-- C65: with `MAX_SIZE` a positive multiple of `2^32` every structure is empty and far from its capacity,
and the first insertion panics "Buffer is full" (deviation: `(MAX_SIZE + 1) as u32` is 1). -/
theorem C65_deque_multiple {M : Nat} (h : 2 ^ 32 ∣ M) (h0 : 0 < M) (z v : T) :
    (Deque.new z : Deque T M).len < M ∧
    (Deque.new z : Deque T M).pushBack v = .error .bufferFull ∧
    (Deque.new z : Deque T M).pushFront v = .error .bufferFull := by
  have e : (Deque.new z : Deque T M).allocator.addNode v = .error .bufferFull := add_multiple h z v
  refine ⟨h0, ?_, ?_⟩
  · unfold Deque.pushBack; rw [e]; rfl
  · unfold Deque.pushFront; rw [e]; rfl

theorem C65_hash_multiple [BEq K] {B M : Nat} (h : 2 ^ 32 ∣ M) (h0 : 0 < M) (hB : 0 < B) (hash : K → Nat)
    (z : HashNode K V) (k : K) (v : V) :
    (HashTable.new z : HashTable K V B M).len < (HashTable.new z : HashTable K V B M).capacity ∧
    HashTable.insert hash (HashTable.new z : HashTable K V B M) k v = .error .bufferFull := by
  have e : (HashTable.new z : HashTable K V B M).allocator.addNode ⟨k, v⟩ = .error .bufferFull := add_multiple h z _
  have e1 : HashTable.bucketIndex B hash k = .ok (hash k % B) := by
    unfold HashTable.bucketIndex; simp [Nat.pos_iff_ne_zero.1 hB]
  have e2 : (HashTable.new z : HashTable K V B M).bucket (hash k % B) = .ok 0 := by
    unfold HashTable.bucket; rw [dif_pos (Nat.mod_lt _ hB)]; simp [HashTable.new, SENTINEL]
  have e3 : (HashTable.new z : HashTable K V B M).findLoop k (M + 1) 0 = .ok 0 := by
    simp [HashTable.findLoop, SENTINEL]
  have e4 : (HashTable.new z : HashTable K V B M).len = 0 := rfl
  have e5 : (HashTable.new z : HashTable K V B M).capacity = M := rfl
  refine ⟨by rw [e4, e5]; exact h0, ?_⟩
  unfold HashTable.insert
  simp only [e1, e2, e3, e4, e5, except_bind_ok]
  rw [if_neg (by simp [SENTINEL]), if_neg (by omega), e]
  rfl

theorem C65_rb_multiple [Ord K] {M : Nat} (h : 2 ^ 32 ∣ M) (h0 : 0 < M) (z : RBNode K V) (k : K) (v : V) :
    (RedBlackTree.new z : RedBlackTree K V M).len < M ∧
    RedBlackTree.insert (RedBlackTree.new z : RedBlackTree K V M) k v = .error .bufferFull := by
  have e : (RedBlackTree.new z : RedBlackTree K V M).allocator.addNode ⟨k, v⟩ = .error .bufferFull := add_multiple h z _
  refine ⟨h0, ?_⟩
  unfold RedBlackTree.insert
  rw [if_pos (show (RedBlackTree.new z : RedBlackTree K V M).root = SENTINEL from rfl), e]; rfl

theorem C65_avl_multiple [LT K] [DecidableLT K] [PartialGt K] {M : Nat} (h : 2 ^ 32 ∣ M) (h0 : 0 < M) (z : AVLNode K V) (k : K) (v : V) :
    (AVLTree.new z : AVLTree K V M).len < M ∧
    AVLTree.insert (AVLTree.new z : AVLTree K V M) k v = .error .bufferFull := by
  have e : (AVLTree.new z : AVLTree K V M).allocator.addNode ⟨k, v⟩ = .error .bufferFull := add_multiple h z _
  refine ⟨h0, ?_⟩
  unfold AVLTree.insert
  rw [if_pos (show (AVLTree.new z : AVLTree K V M).root = SENTINEL from rfl), e]; rfl

theorem C65_critbit_multiple {N M : Nat} (h : 2 ^ 32 ∣ M) (h0 : 0 < M) (z : CritbitNode) (w : V)
    (k : BitVec 128) (v : V) :
    (Critbit.new z w : Critbit V N M).len < (Critbit.new z w : Critbit V N M).capacity ∧
    Critbit.insert (Critbit.new z w : Critbit V N M) k v = .error .bufferFull := by
  have e2 : (Critbit.new z w : Critbit V N M).leaves.addNode v = .error .bufferFull := add_multiple h w v
  refine ⟨h0, ?_⟩
  unfold Critbit.insert Critbit.addLeaf
  rw [if_pos (show (Critbit.new z w : Critbit V N M).root = SENTINEL from rfl)]
  by_cases hN : usable N = 0
  · have hd : 2 ^ 32 ∣ N := by unfold usable at hN; omega
    have e1 : (Critbit.new z w : Critbit V N M).nodeAllocator.addNode ⟨k, 128⟩ = .error .bufferFull := add_multiple hd z _
    rw [e1]; rfl
  · obtain ⟨a', i, e1, _⟩ := addNode_usable (N := 4) (new_AInv (M := N) z) (by decide) (by simpa using Nat.pos_of_ne_zero hN) ⟨k, 128⟩
    have e1 : (Critbit.new z w : Critbit V N M).nodeAllocator.addNode ⟨k, 128⟩ = .ok (a', i) := e1
    rw [e1]
    simp only [except_bind_ok]
    rw [e2]; rfl

/-- The hypotheses: such a `MAX_SIZE`, which a 64-bit machine can declare. -/
example : 2 ^ 32 ∣ 3 * 2 ^ 32 ∧ 0 < 3 * 2 ^ 32 ∧ usable (3 * 2 ^ 32) = 0 ∧ usable (3 * 2 ^ 32 + 5) = 5 ∧
    usable (2 ^ 32 - 1) = 2 ^ 32 - 2 ∧ fullPanic (2 ^ 32 - 1) = .overflow ∧ usable 10 = 10 := by
  simp [usable, fullPanic]

end Sokoban.Props
