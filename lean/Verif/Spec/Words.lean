import Verif.Model.Deque
import Verif.Model.HashTable
import Verif.Model.RedBlack
import Verif.Model.AVL
import Verif.Model.Critbit
import Verif.Spec.Alloc

/-
The model keeps `u32` and `u64` words as natural numbers. A state is within the Rust types when every
word of it is a value of its Rust type.
-/
namespace Sokoban

/-- Every register of the node is a `u32`, and the element satisfies `P`. -/
def Node.InRange {T : Type} {numRegs : Nat} (P : T → Prop) (n : Node T numRegs) : Prop :=
  (∀ (r : Nat) (h : r < numRegs), n.registers[r] < 2 ^ 32) ∧ P n.value

/-- Every word of the allocator is a value of its Rust type (node_allocator.rs:73-80, 133-153), and
every element, also in free slots, satisfies `P`. -/
structure NodeAllocator.InRange {T : Type} {maxSize numRegs : Nat} (P : T → Prop)
    (a : NodeAllocator T maxSize numRegs) : Prop where
  size : a.size < 2 ^ 64
  bumpIndex : a.bumpIndex < 2 ^ 32
  freeListHead : a.freeListHead < 2 ^ 32
  nodes : ∀ (i : Nat) (h : i < maxSize), (a.nodes[i]).InRange P

/-- Every word of the deque is a value of its Rust type (deque.rs:11-18). -/
structure Deque.InRange {T : Type} {maxSize : Nat} (d : Deque T maxSize) : Prop where
  sequenceNumber : d.sequenceNumber < 2 ^ 64
  head : d.head < 2 ^ 32
  tail : d.tail < 2 ^ 32
  allocator : d.allocator.InRange (fun _ => True)

/-- Every word of the hash table is a value of its Rust type (hash_table.rs:45-55). -/
structure HashTable.InRange {K V : Type} {numBuckets maxSize : Nat}
    (h : HashTable K V numBuckets maxSize) : Prop where
  buckets : ∀ (b : Nat) (hb : b < numBuckets), h.buckets[b] < 2 ^ 32
  allocator : h.allocator.InRange (fun _ => True)

/-- Every word of the tree is a value of its Rust type (red_black_tree.rs:66-76). -/
structure RedBlackTree.InRange {K V : Type} {maxSize : Nat} (t : RedBlackTree K V maxSize) : Prop where
  root : t.root < 2 ^ 32
  allocator : t.allocator.InRange (fun _ => True)

/-- Every word of the tree is a value of its Rust type (avl_tree.rs:64-73); `root`, a `u64`, is even
a `u32`, so that the casts `self.root as u32` lose nothing. -/
structure AVLTree.InRange {K V : Type} {maxSize : Nat} (t : AVLTree K V maxSize) : Prop where
  root : t.root < 2 ^ 32
  allocator : t.allocator.InRange (fun _ => True)

/-- Every word of the tree, `prefix_len` included, is a value of its Rust type (critbit.rs:9-15,
30-46). -/
structure Critbit.InRange {V : Type} {numNodes maxSize : Nat} (t : Critbit V numNodes maxSize) : Prop where
  root : t.root < 2 ^ 32
  nodeAllocator : t.nodeAllocator.InRange (fun n => n.prefixLen < 2 ^ 64)
  leaves : t.leaves.InRange (fun _ => True)

namespace AllocSpec

/-- The words that the client passes and that may get stored are `u32`. -/
def Op.InRange {T : Type} : Op T → Prop
  | .remove i => i < 2 ^ 32
  | .setRegister _ v _ => v < 2 ^ 32
  | .connect i j _ _ => i < 2 ^ 32 ∧ j < 2 ^ 32
  | _ => True

end AllocSpec

end Sokoban
