/-
Model of `src/node_allocator.rs` (the generic node allocator).

Conventions (see DESIGN.md):
* `u32`/`u64` words are `Nat`; arithmetic that could overflow is checked explicitly.
* a Rust panic is `Except.error (p : Panic)`.
* `&mut self` methods return the new state.
-/
namespace Sokoban

/-- Every way in which the modelled Rust code can fail to return normally. -/
inductive Panic where
  /-- slice / array index out of bounds, including `(i - 1) as usize` for `i = SENTINEL`
  (node_allocator.rs:255, 260): a debug build panics on the underflow, a release build
  wraps to `u32::MAX` which is out of bounds. -/
  | indexOutOfBounds
  /-- checked integer arithmetic overflowed -/
  | overflow
  /-- `panic!("Buffer is full, ...")` node_allocator.rs:269 -/
  | bufferFull
  /-- `panic!("Cannot reinitialize NodeAllocator")` node_allocator.rs:249 -/
  | reinit
  /-- a failed `assert!` -/
  | assertion
  /-- `panic!("Nodes are not connected")` red_black_tree.rs:441,
  `panic!("Parent is not connected to child")` critbit.rs:379 -/
  | notConnected
  /-- `unwrap()` of `None` -/
  | unwrapNone
  /-- remainder by zero (`% NUM_BUCKETS` with `NUM_BUCKETS = 0`, hash_table.rs:121) -/
  | divByZero
  /-- not a Rust panic: a modelled loop ran out of fuel. Proved never to happen. -/
  | diverge
deriving DecidableEq, Repr

/-- Result of a Rust call: a value or a panic. -/
abbrev R (α : Type) := Except Panic α

/-- `SENTINEL` (node_allocator.rs:71). -/
def SENTINEL : Nat := 0

/-- `assert!(b)`. -/
def rassert (b : Bool) : R Unit := if b then .ok () else .error .assertion

/-- `opt.unwrap()`. -/
def unwrap {α : Type} : Option α → R α
  | some x => .ok x
  | none => .error .unwrapNone

/-- `Node` (node_allocator.rs:73-80). -/
structure Node (T : Type) (numRegs : Nat) where
  registers : Vector Nat numRegs
  value : T

namespace Node
variable {T : Type} {numRegs : Nat}

/-- `Node::get_register` (node_allocator.rs:103-105); Rust's array indexing panics when
`r` is out of bounds. -/
def getRegister (n : Node T numRegs) (r : Nat) : R Nat :=
  if h : r < numRegs then .ok n.registers[r] else .error .indexOutOfBounds

/-- `Node::set_register` (node_allocator.rs:113-115). -/
def setRegister (n : Node T numRegs) (r v : Nat) : R (Node T numRegs) :=
  if h : r < numRegs then .ok { n with registers := n.registers.set r v }
  else .error .indexOutOfBounds

/-- `Node::get_free_list_register` (node_allocator.rs:98-100). -/
def getFreeListRegister (n : Node T numRegs) : R Nat := n.getRegister 0

/-- `Node::set_free_list_register` (node_allocator.rs:108-110). -/
def setFreeListRegister (n : Node T numRegs) (v : Nat) : R (Node T numRegs) := n.setRegister 0 v

/-- `Node::set_value` (node_allocator.rs:118-120). -/
def setValue (n : Node T numRegs) (v : T) : Node T numRegs := { n with value := v }

end Node

/-- `NodeAllocator` (node_allocator.rs:133-153). `nodes[i]` is the Rust `nodes[i]`, i.e.
the node with (1-based) index `i + 1`. -/
structure NodeAllocator (T : Type) (maxSize numRegs : Nat) where
  size : Nat
  bumpIndex : Nat
  freeListHead : Nat
  nodes : Vector (Node T numRegs) maxSize

namespace NodeAllocator
variable {T : Type} {maxSize numRegs : Nat}

/-- A zero-filled buffer viewed as an allocator: header words 0, registers 0. `z` is the
value of type `T` spelled by zero bytes. -/
def zeroed (z : T) : NodeAllocator T maxSize numRegs :=
  { size := 0, bumpIndex := 0, freeListHead := 0,
    nodes := Vector.replicate maxSize { registers := Vector.replicate numRegs SENTINEL, value := z } }

/-- `NodeAllocator::default` / `new` (node_allocator.rs:184-205). `z` is `T::default()`.
The assertions (`NUM_REGISTERS >= 1`, layout) are modelled separately in
`Model/Layout.lean`. -/
def new (z : T) : NodeAllocator T maxSize numRegs :=
  { size := 0, bumpIndex := 1, freeListHead := 1,
    nodes := Vector.replicate maxSize { registers := Vector.replicate numRegs SENTINEL, value := z } }

/-- `NodeAllocator::initialize` (node_allocator.rs:242-251). The layout assertion
`assert_proper_alignemnt` is modelled separately in `Model/Layout.lean`. -/
def initialise (a : NodeAllocator T maxSize numRegs) : R (NodeAllocator T maxSize numRegs) := do
  rassert (numRegs ≥ 1)
  if a.size = 0 ∧ a.bumpIndex = 0 ∧ a.freeListHead = 0 then
    return { a with bumpIndex := 1, freeListHead := 1 }
  else
    throw .reinit

/-- `NodeAllocator::get` (node_allocator.rs:254-256). -/
def get (a : NodeAllocator T maxSize numRegs) (i : Nat) : R (Node T numRegs) :=
  if h : 1 ≤ i ∧ i - 1 < maxSize then .ok (a.nodes[i - 1]'h.2) else .error .indexOutOfBounds

/-- Write-back through `NodeAllocator::get_mut(i)` (node_allocator.rs:259-261): the node
at `i` becomes `n`. -/
def put (a : NodeAllocator T maxSize numRegs) (i : Nat) (n : Node T numRegs) :
    R (NodeAllocator T maxSize numRegs) :=
  if h : 1 ≤ i ∧ i - 1 < maxSize then .ok { a with nodes := a.nodes.set (i - 1) n h.2 }
  else .error .indexOutOfBounds

/-- `NodeAllocator::add_node` (node_allocator.rs:265-280). -/
def addNode (a : NodeAllocator T maxSize numRegs) (node : T) :
    R (NodeAllocator T maxSize numRegs × Nat) := do
  let i := a.freeListHead
  let a ←
    (if a.freeListHead = a.bumpIndex then do
      -- `(MAX_SIZE + 1) as u32`
      if a.bumpIndex = (maxSize + 1) % 2 ^ 32 then throw .bufferFull
      -- `self.bump_index += 1` on a `u32`
      if a.bumpIndex + 1 ≥ 2 ^ 32 then throw .overflow
      pure { a with bumpIndex := a.bumpIndex + 1, freeListHead := a.bumpIndex + 1 }
    else do
      let next ← (← a.get i).getFreeListRegister
      let n ← (← a.get i).setFreeListRegister SENTINEL
      { a with freeListHead := next }.put i n)
  let n ← a.get i
  let a ← a.put i (n.setValue node)
  -- `self.size += 1` on a `u64`
  if a.size + 1 ≥ 2 ^ 64 then throw .overflow
  return ({ a with size := a.size + 1 }, i)

/-- `NodeAllocator::remove_node` (node_allocator.rs:284-293). -/
def removeNode (a : NodeAllocator T maxSize numRegs) (i : Nat) :
    R (NodeAllocator T maxSize numRegs × Option T) := do
  if i = SENTINEL then return (a, none)
  let n ← (← a.get i).setFreeListRegister a.freeListHead
  let a ← a.put i n
  let a := { a with freeListHead := i }
  -- `self.size -= 1` on a `u64`
  if a.size = 0 then throw .overflow
  let a := { a with size := a.size - 1 }
  return (a, some (← a.get i).value)

/-- `NodeAllocator::clear_register` (node_allocator.rs:308-312). -/
def clearRegister (a : NodeAllocator T maxSize numRegs) (i rI : Nat) :
    R (NodeAllocator T maxSize numRegs) := do
  if i ≠ SENTINEL then a.put i (← (← a.get i).setRegister rI SENTINEL)
  else return a

/-- `NodeAllocator::disconnect` (node_allocator.rs:296-305). -/
def disconnect (a : NodeAllocator T maxSize numRegs) (i j rI rJ : Nat) :
    R (NodeAllocator T maxSize numRegs) := do
  let a ← (if i ≠ SENTINEL then a.clearRegister i rI else pure a)
  if j ≠ SENTINEL then a.clearRegister j rJ else return a

/-- `NodeAllocator::connect` (node_allocator.rs:315-322). -/
def connect (a : NodeAllocator T maxSize numRegs) (i j rI rJ : Nat) :
    R (NodeAllocator T maxSize numRegs) := do
  let a ← (if i ≠ SENTINEL then do a.put i (← (← a.get i).setRegister rI j) else pure a)
  if j ≠ SENTINEL then a.put j (← (← a.get j).setRegister rJ i) else return a

/-- `NodeAllocator::set_register` (node_allocator.rs:325-329). -/
def setRegister (a : NodeAllocator T maxSize numRegs) (i value rI : Nat) :
    R (NodeAllocator T maxSize numRegs) := do
  if i ≠ SENTINEL then a.put i (← (← a.get i).setRegister rI value)
  else return a

/-- `NodeAllocator::get_register` (node_allocator.rs:332-338). -/
def getRegister (a : NodeAllocator T maxSize numRegs) (i rI : Nat) : R Nat := do
  if i ≠ SENTINEL then (← a.get i).getRegister rI
  else return SENTINEL

/-- `allocator.get(i).get_value()` (node_allocator.rs:128-130, 254-256). -/
def getValue (a : NodeAllocator T maxSize numRegs) (i : Nat) : R T := do
  return (← a.get i).value

/-- `allocator.get_mut(i).set_value(v)` or `*allocator.get_mut(i).get_value_mut() = v`
(node_allocator.rs:118-125, 259-261). -/
def setValue (a : NodeAllocator T maxSize numRegs) (i : Nat) (v : T) :
    R (NodeAllocator T maxSize numRegs) := do
  a.put i ((← a.get i).setValue v)

end NodeAllocator
end Sokoban
