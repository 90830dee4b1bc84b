import Verif.Model.Alloc

/-
Model of `src/deque.rs`.
-/
namespace Sokoban

/-- `Deque` (deque.rs:11-18). -/
structure Deque (T : Type) (maxSize : Nat) where
  sequenceNumber : Nat
  head : Nat
  tail : Nat
  allocator : NodeAllocator T maxSize 2

namespace Deque
variable {T : Type} {maxSize : Nat}

/-- `PREV` (deque.rs:8). -/
def PREV : Nat := 0
/-- `NEXT` (deque.rs:9). -/
def NEXT : Nat := 1

/-- `Deque::default` / `new` (deque.rs:44-60); `z` is `T::default()`. -/
def new (z : T) : Deque T maxSize :=
  { sequenceNumber := 0, head := SENTINEL, tail := SENTINEL, allocator := NodeAllocator.new z }

/-- A zero-filled buffer viewed as a deque. -/
def zeroed (z : T) : Deque T maxSize :=
  { sequenceNumber := 0, head := 0, tail := 0, allocator := NodeAllocator.zeroed z }

/-- `Deque::initialize` (deque.rs:62-64). -/
def initialise (d : Deque T maxSize) : R (Deque T maxSize) := do
  let a ← d.allocator.initialise
  return { d with allocator := a }

/-- `Deque::get_node` (deque.rs:89-91). -/
def getNode (d : Deque T maxSize) (i : Nat) : R T := d.allocator.getValue i

/-- `Deque::front` (deque.rs:66-71). -/
def front (d : Deque T maxSize) : R (Option T) := do
  if d.head = SENTINEL then return none
  return some (← d.getNode d.head)

/-- `Deque::back` (deque.rs:73-78). -/
def back (d : Deque T maxSize) : R (Option T) := do
  if d.tail = SENTINEL then return none
  return some (← d.allocator.getValue d.tail)

/-- `Deque::get_next` (deque.rs:80-82). -/
def getNext (d : Deque T maxSize) (index : Nat) : R Nat := d.allocator.getRegister index NEXT

/-- `Deque::get_prev` (deque.rs:84-86). -/
def getPrev (d : Deque T maxSize) (index : Nat) : R Nat := d.allocator.getRegister index PREV

/-- `self.sequence_number += 1` on a `u64` (deque.rs:102, 114, 154). -/
def bumpSeq (d : Deque T maxSize) : R (Deque T maxSize) :=
  if d.sequenceNumber + 1 ≥ 2 ^ 64 then .error .overflow
  else .ok { d with sequenceNumber := d.sequenceNumber + 1 }

/-- `Deque::push_back` (deque.rs:93-103). -/
def pushBack (d : Deque T maxSize) (node : T) : R (Deque T maxSize) := do
  let (a, index) ← d.allocator.addNode node
  let d := { d with allocator := a }
  let d := if d.head = SENTINEL then { d with head := index } else d
  let a ← (if d.tail ≠ SENTINEL then d.allocator.connect index d.tail PREV NEXT
           else pure d.allocator)
  let d := { d with allocator := a }
  let d := { d with tail := index }
  d.bumpSeq

/-- `Deque::push_front` (deque.rs:105-115). -/
def pushFront (d : Deque T maxSize) (node : T) : R (Deque T maxSize) := do
  let (a, index) ← d.allocator.addNode node
  let d := { d with allocator := a }
  let d := if d.tail = SENTINEL then { d with tail := index } else d
  let a ← (if d.head ≠ SENTINEL then d.allocator.connect index d.head NEXT PREV
           else pure d.allocator)
  let d := { d with allocator := a }
  let d := { d with head := index }
  d.bumpSeq

/-- `Deque::_remove` (deque.rs:133-156). -/
def remove' (d : Deque T maxSize) (i : Nat) : R (Deque T maxSize × Option T) := do
  let value ← d.getNode i
  let left ← d.getPrev i
  let right ← d.getNext i
  let a ← d.allocator.clearRegister i PREV
  let a ← a.clearRegister i NEXT
  let a ← (if left ≠ SENTINEL ∧ right ≠ SENTINEL then a.connect left right NEXT PREV else pure a)
  let d := { d with allocator := a }
  let d ← (if i = d.head then do
             let a ← d.allocator.clearRegister right PREV
             pure { d with head := right, allocator := a }
           else pure d)
  let d ← (if i = d.tail then do
             let a ← d.allocator.clearRegister left NEXT
             pure { d with tail := left, allocator := a }
           else pure d)
  let (a, _) ← d.allocator.removeNode i
  let d := { d with allocator := a }
  let d ← d.bumpSeq
  return (d, some value)

/-- `Deque::pop_front` (deque.rs:117-123). -/
def popFront (d : Deque T maxSize) : R (Deque T maxSize × Option T) :=
  if d.head = SENTINEL then .ok (d, none) else d.remove' d.head

/-- `Deque::pop_back` (deque.rs:125-131). -/
def popBack (d : Deque T maxSize) : R (Deque T maxSize × Option T) :=
  if d.tail = SENTINEL then .ok (d, none) else d.remove' d.tail

/-- `Deque::len` (deque.rs:158-160). -/
def len (d : Deque T maxSize) : Nat := d.allocator.size

/-- `Deque::is_empty` (deque.rs:162-164). -/
def isEmpty (d : Deque T maxSize) : Bool := d.len = 0

/-- Cursor state of `DequeIterator` / `DequeIteratorMut` (deque.rs:187-192, 238-243). The
borrowed deque is passed separately. -/
structure Iter where
  fwdPtr : Nat
  revPtr : Nat
  terminated : Bool
deriving DecidableEq, Repr

/-- `Deque::iter` and `Deque::iter_mut` (deque.rs:166-184). -/
def iter (d : Deque T maxSize) : Iter :=
  { fwdPtr := d.head, revPtr := d.tail, terminated := false }

/-- `DequeIterator::next` (deque.rs:199-214). -/
def Iter.next (d : Deque T maxSize) (it : Iter) : R (Iter × Option (Nat × T)) := do
  if it.terminated then return (it, none)
  if it.fwdPtr = SENTINEL then return (it, none)
  let ptr := it.fwdPtr
  let it := if ptr = it.revPtr then { it with terminated := true } else it
  let nxt ← d.getNext ptr
  let it := { it with fwdPtr := nxt }
  return (it, some (ptr, ← d.getNode ptr))

/-- `DequeIterator::next_back` (deque.rs:220-235). -/
def Iter.nextBack (d : Deque T maxSize) (it : Iter) : R (Iter × Option (Nat × T)) := do
  if it.terminated then return (it, none)
  if it.revPtr = SENTINEL then return (it, none)
  let ptr := it.revPtr
  let it := if ptr = it.fwdPtr then { it with terminated := true } else it
  let prv ← d.getPrev ptr
  let it := { it with revPtr := prv }
  return (it, some (ptr, ← d.getNode ptr))

/-- `DequeIteratorMut::next` (deque.rs:250-273). The `&mut T` it fabricates with
`as_mut_ptr().add(ptr - 1)` is modelled by the slot number `ptr`; no bounds check, as in
the code. -/
def Iter.nextMut (d : Deque T maxSize) (it : Iter) : R (Iter × Option Nat) := do
  if it.terminated then return (it, none)
  if it.fwdPtr = SENTINEL then return (it, none)
  let ptr := it.fwdPtr
  let it := if ptr = it.revPtr then { it with terminated := true } else it
  let nxt ← d.getNext ptr
  let it := { it with fwdPtr := nxt }
  return (it, some ptr)

/-- `DequeIteratorMut::next_back` (deque.rs:279-302). -/
def Iter.nextBackMut (d : Deque T maxSize) (it : Iter) : R (Iter × Option Nat) := do
  if it.terminated then return (it, none)
  if it.revPtr = SENTINEL then return (it, none)
  let ptr := it.revPtr
  let it := if ptr = it.fwdPtr then { it with terminated := true } else it
  let prv ← d.getPrev ptr
  let it := { it with revPtr := prv }
  return (it, some ptr)

/-- Writing through a reference obtained from `iter_mut` (deque.rs:262-270: `get_value_mut`). -/
def writeSlot (d : Deque T maxSize) (ptr : Nat) (v : T) : R (Deque T maxSize) := do
  let a ← d.allocator.setValue ptr v
  return { d with allocator := a }

end Deque
end Sokoban
