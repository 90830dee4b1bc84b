import Verif.Model.Alloc

/-
Model of the memory layout of `NodeAllocator<T, MAX_SIZE, NUM_REGISTERS>` and of
`assert_proper_alignemnt` (node_allocator.rs:207-240).

A layout is described by numbers: size and alignment of `T`, number of registers,
capacity. `Node` and `NodeAllocator` are `#[repr(C)]` (node_allocator.rs:73, 133), so their
layout follows the documented C rules: every field at the next multiple of its alignment,
total size rounded up to the alignment.
-/
namespace Sokoban.Layout

/-- Next multiple of `a` that is at least `x` (C struct layout rule). -/
def roundUp (x a : Nat) : Nat := (x + a - 1) / a * a

/-- The type parameters as far as layout is concerned. -/
structure Params where
  tSize : Nat
  tAlign : Nat
  numRegs : Nat
  maxSize : Nat

namespace Params
variable (p : Params)

/-- `align_of::<Node<T, N>>()`: fields `[u32; N]` and `T` (node_allocator.rs:73-80). -/
def nodeAlign : Nat := max 4 p.tAlign
/-- Offset of `value` in `Node`. -/
def valOff : Nat := roundUp (4 * p.numRegs) p.tAlign
/-- `size_of::<Node<T, N>>()`. -/
def nodeSize : Nat := roundUp (p.valOff + p.tSize) p.nodeAlign
/-- `align_of::<NodeAllocator<..>>()`: fields `u64`, `u32`, `u32`, `[Node; M]`
(node_allocator.rs:133-153). -/
def selfAlign : Nat := max 8 p.nodeAlign
/-- Offset of `nodes` in `NodeAllocator`: after 8 + 4 + 4 bytes of header. -/
def nodesOff : Nat := roundUp 16 p.nodeAlign
/-- `size_of::<NodeAllocator<..>>()`. -/
def selfSize : Nat := roundUp (p.nodesOff + p.maxSize * p.nodeSize) p.selfAlign

/-- Address of the value slot of node `i` (1-based) of an allocator at address `base`. -/
def slotAddr (base i : Nat) : Nat := base + p.nodesOff + (i - 1) * p.nodeSize + p.valOff

/-- Address of the first register of node `i` (1-based). -/
def regAddr (base i : Nat) : Nat := base + p.nodesOff + (i - 1) * p.nodeSize

/-- `assert_proper_alignemnt` (node_allocator.rs:207-240) for an allocator at `base`. -/
def assertProperAlignment (base : Nat) : R Unit := do
  let regSize := 4 * p.numRegs
  let selfPtr := base
  let nodePtr := base + p.nodesOff
  let tIndex := nodePtr + regSize
  rassert (selfPtr % p.selfAlign == 0)
  rassert (p.tSize % p.tAlign == 0)
  rassert (p.tSize == 0 || p.tSize ≥ p.selfAlign)
  rassert (nodePtr == selfPtr + 16)
  rassert (tIndex % p.tAlign == 0)
  rassert ((tIndex + p.tSize + regSize) % p.tAlign == 0)

/-- Facts about sizes and alignments that the Rust type system guarantees for every type:
alignments are powers of two, sizes are multiples of alignments. -/
def Rustic : Prop := (∃ k, p.tAlign = 2 ^ k) ∧ p.tAlign ∣ p.tSize

end Params
end Sokoban.Layout
