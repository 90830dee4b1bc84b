import Verif.Model.Layout
import Verif.Model.Deque
import Verif.Model.HashTable
import Verif.Model.RedBlack
import Verif.Model.AVL
import Verif.Model.Critbit

/-
Model of the byte representation of the structures and of `ZeroCopy` / `FromSlice`
(node_allocator.rs:27-30, 59-69 and the `new_from_slice` of every structure).

All the types are `#[repr(C)]`, so their layout follows the documented rules: each field at the next
multiple of its alignment, the alignment is the largest of the fields, the size is rounded up to the
alignment. Words are little-endian (the byte order of every target the crate is used on). A
`&mut Self` obtained from a buffer is the buffer: a method that returns has left the bytes of the new
state in the fields and has not touched padding or anything outside the structure.
-/
namespace Sokoban.Bytes
open Layout

/-- `u8`. -/
abbrev Byte := Fin 256

/-- Memory contents by offset. -/
abbrev Mem := Nat → Byte

/-- A `&mut [u8]`: its address, its length, its contents (only those at offsets below `len` are part
of the slice). -/
structure Slice where
  addr : Nat
  len : Nat
  mem : Mem

/-- How a type lies in memory. `Valid` marks the values of the model type that are values of the Rust
type. -/
structure Rep (T : Type) where
  /-- `size_of` -/
  size : Nat
  /-- `align_of` -/
  align : Nat
  Valid : T → Prop
  read : Mem → T
  write : T → Mem → Mem

/-- Memory seen from offset `off` on. -/
def Mem.from (m : Mem) (off : Nat) : Mem := fun k => m (off + k)

/-- Memory with what is at `off` and beyond replaced. -/
def Mem.patch (m : Mem) (off : Nat) (m' : Mem) : Mem := fun k => if off ≤ k then m' (k - off) else m k

/-- Little-endian number of `n` bytes. -/
def readLE (m : Mem) : Nat → Nat
  | 0 => 0
  | n + 1 => (m 0).val + 256 * readLE (m.from 1) n

/-- Byte `k` of the little-endian representation of `v`. -/
def byteOf (v k : Nat) : Byte := ⟨v / 256 ^ k % 256, Nat.mod_lt _ (by decide)⟩

/-- An unsigned integer of `n` bytes. -/
def word (n : Nat) : Rep Nat where
  size := n
  align := n
  Valid v := v < 256 ^ n
  read m := readLE m n
  write v m := fun k => if k < n then byteOf v k else m k

/-- `u32`. -/
def u32 : Rep Nat := word 4
/-- `u64`. -/
def u64 : Rep Nat := word 8

/-- An unsigned integer of `n` bytes with alignment `a`, as a bit vector: what a client may use as key
or value. -/
def uint (n a : Nat) : Rep (BitVec (8 * n)) where
  size := n
  align := a
  Valid _ := True
  read m := BitVec.ofNat (8 * n) (readLE m n)
  write v m := fun k => if k < n then byteOf v.toNat k else m k

/-- `u128` with alignment `a` (16 on most targets, 8 on SBF and with older compilers on x86-64). -/
def u128 (a : Nat) : Rep (BitVec 128) := uint 16 a

/-- A field that nothing reads or writes: `n` bytes with alignment `a`. -/
def pad (n a : Nat) : Rep Unit where
  size := n
  align := a
  Valid _ := True
  read _ := ()
  write _ m := m

/-- Writing the elements of an array, the first `n` of them. -/
def writeArray {T : Type} (A : Rep T) (f : Nat → T) : Nat → Mem → Mem
  | 0, m => m
  | n + 1, m =>
    let m := writeArray A f n m
    m.patch (n * A.size) (A.write (f n) (m.from (n * A.size)))

/-- `[T; n]`. -/
def array {T : Type} (A : Rep T) (n : Nat) : Rep (Vector T n) where
  size := n * A.size
  align := A.align
  Valid v := ∀ (i : Nat) (h : i < n), A.Valid v[i]
  read m := Vector.ofFn (fun i => A.read (m.from (i * A.size)))
  write v m := writeArray A (fun i => if h : i < n then v[i] else A.read m) n m

/-- The fields of a `#[repr(C)]` structure so far: where they end, their largest alignment. -/
structure Fields (S : Type) where
  stop : Nat
  align : Nat
  Valid : S → Prop
  read : Mem → S
  write : S → Mem → Mem

namespace Fields
variable {S T : Type}

/-- No field yet. -/
def nil : Fields Unit where
  stop := 0
  align := 1
  Valid _ := True
  read _ := ()
  write _ m := m

/-- Offset of the next field. -/
def off (F : Fields S) (A : Rep T) : Nat := roundUp F.stop A.align

/-- One more field. -/
def add (F : Fields S) (A : Rep T) : Fields (S × T) where
  stop := F.off A + A.size
  align := max F.align A.align
  Valid s := F.Valid s.1 ∧ A.Valid s.2
  read m := (F.read m, A.read (m.from (F.off A)))
  write s m :=
    let m := F.write s.1 m
    m.patch (F.off A) (A.write s.2 (m.from (F.off A)))

/-- The structure, as a type `T` whose fields are given by `g` and which is rebuilt from its fields by
`f`. -/
def close (F : Fields S) (f : S → T) (g : T → S) : Rep T where
  size := roundUp F.stop F.align
  align := F.align
  Valid t := F.Valid (g t)
  read m := f (F.read m)
  write t m := F.write (g t) m

end Fields

/-- `Node<T, N>` (node_allocator.rs:73-80). -/
def node {T : Type} (A : Rep T) (N : Nat) : Rep (Node T N) :=
  ((Fields.nil.add (array u32 N)).add A).close (fun s => ⟨s.1.2, s.2⟩) (fun n => (((), n.registers), n.value))

/-- `NodeAllocator<T, M, N>` (node_allocator.rs:133-153). -/
def nodeAllocator {T : Type} (A : Rep T) (M N : Nat) : Rep (NodeAllocator T M N) :=
  ((((Fields.nil.add u64).add u32).add u32).add (array (node A N) M)).close
    (fun s => ⟨s.1.1.1.2, s.1.1.2, s.1.2, s.2⟩)
    (fun a => (((((), a.size), a.bumpIndex), a.freeListHead), a.nodes))

/-- The fields of `Deque` before the allocator (deque.rs:13-16). -/
def dequeHead : Fields (((Unit × Nat) × Nat) × Nat) := ((Fields.nil.add u64).add u32).add u32

/-- `Deque<T, M>` (deque.rs:11-18). -/
def deque {T : Type} (A : Rep T) (M : Nat) : Rep (Deque T M) :=
  (dequeHead.add (nodeAllocator A M 2)).close
    (fun s => ⟨s.1.1.1.2, s.1.1.2, s.1.2, s.2⟩)
    (fun d => (((((), d.sequenceNumber), d.head), d.tail), d.allocator))

/-- A structure with two fields `key`, `value`: `RBNode`, `AVLNode`, `HashNode`. -/
def entry {K V : Type} (A : Rep K) (B : Rep V) : Fields ((Unit × K) × V) := (Fields.nil.add A).add B

/-- `HashNode<K, V>` (hash_table.rs:12-20). -/
def hashNode {K V : Type} (A : Rep K) (B : Rep V) : Rep (HashNode K V) :=
  (entry A B).close (fun s => ⟨s.1.2, s.2⟩) (fun n => (((), n.key), n.value))

/-- The field of `HashTable` before the allocator (hash_table.rs:53). -/
def hashHead (B : Nat) : Fields (Unit × Vector Nat B) := Fields.nil.add (array u32 B)

/-- `HashTable<K, V, B, M>` (hash_table.rs:45-55). -/
def hashTable {K V : Type} (A : Rep K) (C : Rep V) (B M : Nat) : Rep (HashTable K V B M) :=
  ((hashHead B).add (nodeAllocator (hashNode A C) M 4)).close
    (fun s => ⟨s.1.2, s.2⟩) (fun h => (((), h.buckets), h.allocator))

/-- `RBNode<K, V>` (red_black_tree.rs:33-41). -/
def rbNode {K V : Type} (A : Rep K) (B : Rep V) : Rep (RBNode K V) :=
  (entry A B).close (fun s => ⟨s.1.2, s.2⟩) (fun n => (((), n.key), n.value))

/-- The fields of `RedBlackTree` before the allocator: `root: u32`, `_padding: [u32; 3]`
(red_black_tree.rs:73-74). -/
def rbHead : Fields ((Unit × Nat) × Unit) := (Fields.nil.add u32).add (pad 12 4)

/-- `RedBlackTree<K, V, M>` (red_black_tree.rs:66-76). -/
def redBlackTree {K V : Type} (A : Rep K) (B : Rep V) (M : Nat) : Rep (RedBlackTree K V M) :=
  (rbHead.add (nodeAllocator (rbNode A B) M 4)).close
    (fun s => ⟨s.1.1.2, s.2⟩) (fun t => ((((), t.root), ()), t.allocator))

/-- `AVLNode<K, V>` (avl_tree.rs:31-39). -/
def avlNode {K V : Type} (A : Rep K) (B : Rep V) : Rep (AVLNode K V) :=
  (entry A B).close (fun s => ⟨s.1.2, s.2⟩) (fun n => (((), n.key), n.value))

/-- The field of `AVLTree` before the allocator: `root: u64` (avl_tree.rs:71). -/
def avlHead : Fields (Unit × Nat) := Fields.nil.add u64

/-- `AVLTree<K, V, M>` (avl_tree.rs:64-73). -/
def avlTree {K V : Type} (A : Rep K) (B : Rep V) (M : Nat) : Rep (AVLTree K V M) :=
  (avlHead.add (nodeAllocator (avlNode A B) M 4)).close
    (fun s => ⟨s.1.2, s.2⟩) (fun t => (((), t.root), t.allocator))

/-- `CritbitNode` (critbit.rs:9-15); `a` is the alignment of `u128`. -/
def critbitNode (a : Nat) : Rep CritbitNode :=
  (((Fields.nil.add (u128 a)).add u64).add (pad 8 8)).close
    (fun s => ⟨s.1.1.2, s.1.2⟩) (fun n => ((((), n.key), n.prefixLen), ()))

/-- The fields of `Critbit` before the allocators: `_padding0: u64`, `root: u32`, `_padding1: u32`
(critbit.rs:37-40). -/
def critbitHead : Fields (((Unit × Unit) × Nat) × Unit) :=
  ((Fields.nil.add (pad 8 8)).add u32).add (pad 4 4)

/-- `Critbit<V, N, M>` (critbit.rs:30-46). -/
def critbit {V : Type} (a : Nat) (B : Rep V) (N M : Nat) : Rep (Critbit V N M) :=
  ((critbitHead.add (nodeAllocator (critbitNode a) N 4)).add (nodeAllocator B M 4)).close
    (fun s => ⟨s.1.1.1.2, s.1.2, s.2⟩) (fun t => (((((((), ()), t.root), ())), t.nodeAllocator), t.leaves))

/-- `bytemuck::try_from_bytes` / `try_from_bytes_mut`: `Err` when the address is not aligned or the
length is not `size_of`; the error is dropped by `.ok()` (node_allocator.rs:62, 67). -/
def tryFromBytes {T : Type} (A : Rep T) (s : Slice) : Option T :=
  if s.addr % A.align ≠ 0 then none
  else if s.len ≠ A.size then none
  else some (A.read s.mem)

/-- `load_bytes`, and the state found by `load_mut_bytes` (node_allocator.rs:59-69); `data[..size]`
panics when the slice is too short. -/
def load {T : Type} (A : Rep T) (s : Slice) : R (Option T) :=
  if s.len < A.size then .error .indexOutOfBounds
  else .ok (tryFromBytes A { s with len := A.size })

/-- The buffer after a method called through the `&mut Self` of `load_mut_bytes` has left the state
`t`. -/
def store {T : Type} (A : Rep T) (s : Slice) (t : T) : Slice := { s with mem := A.write t s.mem }

/-- `T::load_mut_bytes(data).unwrap()` followed by a method call on the reference. -/
def callAt {S Op Out : Type} (A : Rep S) (step : S → Op → R (S × Out)) (s : Slice) (op : Op) : R (Slice × Out) := do
  let t ← unwrap (← load A s)
  let (t, o) ← step t op
  return (store A s t, o)

/-- The numbers that `assert_proper_alignemnt` of `NodeAllocator<T, M, N>` looks at. -/
def params {T : Type} (A : Rep T) (M N : Nat) : Params := ⟨A.size, A.align, N, M⟩

/-- `initialize` of a `NodeAllocator` at address `addr` (node_allocator.rs:242-251) with its layout
assertion. -/
def initialiseAt {T : Type} {M N : Nat} (A : Rep T) (addr : Nat) (a : NodeAllocator T M N) : R (NodeAllocator T M N) := do
  rassert (N ≥ 1)
  (params A M N).assertProperAlignment addr
  a.initialise

/-- `new_from_slice` after the assertions of the type itself: `load_mut_bytes(slice).unwrap()`, then
`initialize`, which is given the address of the structure. -/
def newFromSlice {S : Type} (A : Rep S) (init : Nat → S → R S) (s : Slice) : R Slice := do
  let t ← unwrap (← load A s)
  let t ← init s.addr t
  return store A s t

/-- `Deque::initialize` (deque.rs:62-64) at an address. -/
def dequeInit {T : Type} (A : Rep T) (M : Nat) (addr : Nat) (d : Deque T M) : R (Deque T M) := do
  let a ← initialiseAt A (addr + dequeHead.off (nodeAllocator A M 2)) d.allocator
  return { d with allocator := a }

/-- `Deque::new_from_slice` (deque.rs:37-41). -/
def dequeFromSlice {T : Type} (A : Rep T) (M : Nat) (s : Slice) : R Slice :=
  newFromSlice (deque A M) (dequeInit A M) s

/-- `HashTable::initialize` (hash_table.rs:218-220) at an address. -/
def hashInit {K V : Type} (A : Rep K) (C : Rep V) (B M : Nat) (addr : Nat) (h : HashTable K V B M) :
    R (HashTable K V B M) := do
  let a ← initialiseAt (hashNode A C) (addr + (hashHead B).off (nodeAllocator (hashNode A C) M 4)) h.allocator
  return { h with allocator := a }

/-- `HashTable::new_from_slice` (hash_table.rs:199-204). -/
def hashFromSlice {K V : Type} (A : Rep K) (C : Rep V) (B M : Nat) (s : Slice) : R Slice := do
  HashTable.assertProperAlignment B
  newFromSlice (hashTable A C B M) (hashInit A C B M) s

/-- `RedBlackTree::assert_proper_alignment` (red_black_tree.rs:266-271). -/
def rbAssert {K V : Type} (A : Rep K) (B : Rep V) : R Unit := do
  rassert (B.size % A.align = 0)
  rassert ((rbNode A B).size % (rbNode A B).align = 0)
  rassert ((rbNode A B).size % 8 = 0)

/-- `RedBlackTree::initialize` (red_black_tree.rs:321-323) at an address. -/
def rbInit {K V : Type} (A : Rep K) (B : Rep V) (M : Nat) (addr : Nat) (t : RedBlackTree K V M) :
    R (RedBlackTree K V M) := do
  let a ← initialiseAt (rbNode A B) (addr + rbHead.off (nodeAllocator (rbNode A B) M 4)) t.allocator
  return { t with allocator := a }

/-- `RedBlackTree::new_from_slice` (red_black_tree.rs:123-128). -/
def rbFromSlice {K V : Type} (A : Rep K) (B : Rep V) (M : Nat) (s : Slice) : R Slice := do
  rbAssert A B
  newFromSlice (redBlackTree A B M) (rbInit A B M) s

/-- `AVLTree::initialize` (avl_tree.rs:251-253) at an address. -/
def avlInit {K V : Type} (A : Rep K) (B : Rep V) (M : Nat) (addr : Nat) (t : AVLTree K V M) : R (AVLTree K V M) := do
  let a ← initialiseAt (avlNode A B) (addr + avlHead.off (nodeAllocator (avlNode A B) M 4)) t.allocator
  return { t with allocator := a }

/-- `AVLTree::new_from_slice` (avl_tree.rs:104-108). -/
def avlFromSlice {K V : Type} (A : Rep K) (B : Rep V) (M : Nat) (s : Slice) : R Slice :=
  newFromSlice (avlTree A B M) (avlInit A B M) s

/-- `Critbit::initialize` (critbit.rs:216-219) at an address. -/
def critbitInit {V : Type} (a : Nat) (B : Rep V) (N M : Nat) (addr : Nat) (t : Critbit V N M) : R (Critbit V N M) := do
  let na ← initialiseAt (critbitNode a) (addr + critbitHead.off (nodeAllocator (critbitNode a) N 4)) t.nodeAllocator
  let lv ← initialiseAt B
    (addr + (critbitHead.add (nodeAllocator (critbitNode a) N 4)).off (nodeAllocator B M 4)) t.leaves
  return { t with nodeAllocator := na, leaves := lv }

/-- `Critbit::new_from_slice` (critbit.rs:81-86). -/
def critbitFromSlice {V : Type} (a : Nat) (B : Rep V) (N M : Nat) (s : Slice) : R Slice := do
  rassert (N ≥ 2 * M)
  newFromSlice (critbit a B N M) (critbitInit a B N M) s

/-- `NodeAllocator::load_mut_bytes(slice).unwrap().initialize()` (node_allocator.rs:59-63, 242-251);
the allocator has no `new_from_slice`. -/
def allocFromSlice {T : Type} (A : Rep T) (M N : Nat) (s : Slice) : R Slice :=
  newFromSlice (nodeAllocator A M N) (initialiseAt A) s

end Sokoban.Bytes
