import Verif.Model.HashTable
import Verif.Model.Deque
import Verif.Model.RedBlack
import Verif.Model.AVL
import Verif.Model.Critbit

/-
The functions that can panic in normal use, written in place: statement by statement on the memory behind `&mut
self`, so that a panic leaves behind what had been written before it. The other model files give a panicking call
no resulting state; a client that catches the panic (`std::panic::catch_unwind`) goes on with the memory as it is.

A method is a state transformer that keeps the state when it fails (`EStateM`). Reads and single stores are taken
from the other model files.
-/
namespace Sokoban.InPlace

/-- A method with `&mut self` on memory `σ`. -/
abbrev U (σ α : Type) := EStateM Panic σ α

variable {σ τ α : Type}

/-- An expression that only reads. -/
def look (f : σ → R α) : U σ α := fun s =>
  match f s with
  | .ok x => .ok x s
  | .error p => .error p s

/-- A single store, which is done or panics on its index. -/
def store (f : σ → R σ) : U σ Unit := fun s =>
  match f s with
  | .ok s' => .ok () s'
  | .error p => .error p s

/-- A call taken as one step: all of it, or a panic before its first store. -/
def atomic (f : σ → R (σ × α)) : U σ α := fun s =>
  match f s with
  | .ok (s', x) => .ok x s'
  | .error p => .error p s

/-- `assert!(c)`. -/
def check (c : Bool) : U σ Unit := if c then pure () else throw .assertion

/-- A method of a field. -/
def onField (read : σ → τ) (write : σ → τ → σ) (m : U τ α) : U σ α := fun s =>
  match m (read s) with
  | .ok x t => .ok x (write s t)
  | .error p t => .error p (write s t)

namespace Alloc
variable {T : Type} {M N : Nat}

/-- `get_mut(i).set_register(r, v)` (node_allocator.rs:113-115, 259-261). -/
def put (i r v : Nat) : U (NodeAllocator T M N) Unit :=
  store fun a => do a.put i (← (← a.get i).setRegister r v)

/-- `get_mut(i).set_value(v)` (node_allocator.rs:118-120, 259-261). -/
def setValue (i : Nat) (v : T) : U (NodeAllocator T M N) Unit :=
  store fun a => do a.put i ((← a.get i).setValue v)

/-- `add_node` (node_allocator.rs:265-280). -/
def addNode (node : T) : U (NodeAllocator T M N) Nat := do
  let i := (← get).freeListHead
  if (← get).freeListHead = (← get).bumpIndex then
    if (← get).bumpIndex = (M + 1) % 2 ^ 32 then throw .bufferFull
    if (← get).bumpIndex + 1 ≥ 2 ^ 32 then throw .overflow
    modify fun a => { a with bumpIndex := a.bumpIndex + 1 }
    modify fun a => { a with freeListHead := a.bumpIndex }
  else
    let next ← look fun a => do (← a.get i).getFreeListRegister
    modify fun a => { a with freeListHead := next }
    put i 0 SENTINEL
  setValue i node
  if (← get).size + 1 ≥ 2 ^ 64 then throw .overflow
  modify fun a => { a with size := a.size + 1 }
  return i

/-- `remove_node` (node_allocator.rs:284-293). -/
def removeNode (i : Nat) : U (NodeAllocator T M N) (Option T) := do
  if i = SENTINEL then return none
  let freeListHead := (← get).freeListHead
  put i 0 freeListHead
  modify fun a => { a with freeListHead := i }
  if (← get).size = 0 then throw .overflow
  modify fun a => { a with size := a.size - 1 }
  let v ← look fun a => do return (← a.get i).value
  return some v

/-- `clear_register` (node_allocator.rs:308-312). -/
def clearRegister (i r : Nat) : U (NodeAllocator T M N) Unit := do
  if i ≠ SENTINEL then put i r SENTINEL

/-- `set_register` (node_allocator.rs:325-329). -/
def setRegister (i v r : Nat) : U (NodeAllocator T M N) Unit := do
  if i ≠ SENTINEL then put i r v

/-- `connect` (node_allocator.rs:315-322). -/
def connect (i j rI rJ : Nat) : U (NodeAllocator T M N) Unit := do
  if i ≠ SENTINEL then put i rI j
  if j ≠ SENTINEL then put j rJ i

/-- `disconnect` (node_allocator.rs:296-305). -/
def disconnect (i j rI rJ : Nat) : U (NodeAllocator T M N) Unit := do
  if i ≠ SENTINEL then clearRegister i rI
  if j ≠ SENTINEL then clearRegister j rJ

end Alloc

namespace Deq
variable {T : Type} {M : Nat}

/-- A method of `self.allocator`. -/
def onAlloc (m : U (NodeAllocator T M 2) α) : U (Deque T M) α :=
  onField Deque.allocator (fun d a => { d with allocator := a }) m

/-- `self.sequence_number += 1` (deque.rs:102, 114, 154). -/
def bumpSeq : U (Deque T M) Unit := store Deque.bumpSeq

/-- `self.sequence_number += 1` in a build without overflow checks (`overflow-checks = false`, the default of release
builds): the `u64` wraps around. -/
def bumpSeqWrap : U (Deque T M) Unit := modify fun d => { d with sequenceNumber := (d.sequenceNumber + 1) % 2 ^ 64 }

/-- `push_back` (deque.rs:93-103); `bump` is its last statement. -/
def pushBackBy (bump : U (Deque T M) Unit) (v : T) : U (Deque T M) Unit := do
  let index ← onAlloc (Alloc.addNode v)
  if (← get).head = SENTINEL then modify fun d => { d with head := index }
  let tail := (← get).tail
  if tail ≠ SENTINEL then onAlloc (Alloc.connect index tail Deque.PREV Deque.NEXT)
  modify fun d => { d with tail := index }
  bump

/-- `push_front` (deque.rs:105-115); `bump` is its last statement. -/
def pushFrontBy (bump : U (Deque T M) Unit) (v : T) : U (Deque T M) Unit := do
  let index ← onAlloc (Alloc.addNode v)
  if (← get).tail = SENTINEL then modify fun d => { d with tail := index }
  let head := (← get).head
  if head ≠ SENTINEL then onAlloc (Alloc.connect index head Deque.NEXT Deque.PREV)
  modify fun d => { d with head := index }
  bump

/-- `_remove` (deque.rs:133-156); `bump` is the statement in line 154. -/
def removeBy (bump : U (Deque T M) Unit) (i : Nat) : U (Deque T M) (Option T) := do
  let value ← look (Deque.getNode · i)
  let left ← look (Deque.getPrev · i)
  let right ← look (Deque.getNext · i)
  onAlloc (Alloc.clearRegister i Deque.PREV)
  onAlloc (Alloc.clearRegister i Deque.NEXT)
  if left ≠ SENTINEL ∧ right ≠ SENTINEL then onAlloc (Alloc.connect left right Deque.NEXT Deque.PREV)
  if i = (← get).head then
    modify fun d => { d with head := right }
    onAlloc (Alloc.clearRegister right Deque.PREV)
  if i = (← get).tail then
    modify fun d => { d with tail := left }
    onAlloc (Alloc.clearRegister left Deque.NEXT)
  let _ ← onAlloc (Alloc.removeNode i)
  bump
  return some value

/-- `pop_front` (deque.rs:117-123). -/
def popFrontBy (bump : U (Deque T M) Unit) : U (Deque T M) (Option T) := do
  let head := (← get).head
  if head = SENTINEL then return none else removeBy bump head

/-- `pop_back` (deque.rs:125-131). -/
def popBackBy (bump : U (Deque T M) Unit) : U (Deque T M) (Option T) := do
  let tail := (← get).tail
  if tail = SENTINEL then return none else removeBy bump tail

/-- `push_back` with overflow checks. -/
def pushBack (v : T) : U (Deque T M) Unit := pushBackBy bumpSeq v

/-- `push_front` with overflow checks. -/
def pushFront (v : T) : U (Deque T M) Unit := pushFrontBy bumpSeq v

/-- `_remove` with overflow checks. -/
def remove' (i : Nat) : U (Deque T M) (Option T) := removeBy bumpSeq i

/-- `pop_front` with overflow checks. -/
def popFront : U (Deque T M) (Option T) := popFrontBy bumpSeq

/-- `pop_back` with overflow checks. -/
def popBack : U (Deque T M) (Option T) := popBackBy bumpSeq

end Deq

variable {K V : Type} {M N : Nat}

/-- `RedBlackTree::_insert` (red_black_tree.rs:474-508). Simplification: past the first branch the call is one
step; C27 shows that it does not panic there. -/
def rbInsert [Ord K] (key : K) (value : V) : U (RedBlackTree K V M) (Option Nat) := do
  if (← get).root = SENTINEL then
    let i ← onField RedBlackTree.allocator (fun t a => { t with allocator := a }) (Alloc.addNode ⟨key, value⟩)
    modify fun t => { t with root := i }
    return some i
  atomic (·.insert key value)

/-- `AVLTree::_insert` (avl_tree.rs:279-320). Simplification: past the first branch the call is one step; C38 shows
that it does not panic there. -/
def avlInsert [LT K] [DecidableLT K] [PartialGt K] (key : K) (value : V) : U (AVLTree K V M) (Option Nat) := do
  if (← get).root = SENTINEL then
    let i ← onField AVLTree.allocator (fun t a => { t with allocator := a }) (Alloc.addNode ⟨key, value⟩)
    modify fun t => { t with root := i }
    return some i
  atomic (·.insert key value)

/-- `HashTable::_insert` (hash_table.rs:242-271). -/
def hashInsert {B : Nat} [BEq K] (hash : K → Nat) (key : K) (value : V) : U (HashTable K V B M) (Option Nat) := do
  let b ← look fun _ => HashTable.bucketIndex B hash key
  let head ← look (HashTable.bucket · b)
  let curr ← look (HashTable.findLoop · key (M + 1) head)
  if curr ≠ SENTINEL then
    store (HashTable.setNodeValue · curr value)
    return some curr
  if (← get).len ≥ (← get).capacity then return none
  let i ← onField HashTable.allocator (fun h a => { h with allocator := a }) (Alloc.addNode ⟨key, value⟩)
  store (HashTable.setBucket · b i)
  if head ≠ SENTINEL then
    onField HashTable.allocator (fun h a => { h with allocator := a }) (Alloc.connect i head HashTable.RIGHT HashTable.LEFT)
  return some i

namespace Crit

/-- A method of `self.node_allocator`. -/
def onNodes (m : U (NodeAllocator CritbitNode N 4) α) : U (Critbit V N M) α :=
  onField Critbit.nodeAllocator (fun t a => { t with nodeAllocator := a }) m

/-- A method of `self.leaves`. -/
def onLeaves (m : U (NodeAllocator V M 4) α) : U (Critbit V N M) α :=
  onField Critbit.leaves (fun t a => { t with leaves := a }) m

/-- `add_leaf` (critbit.rs:270-277). -/
def addLeaf (key : BitVec 128) (value : V) : U (Critbit V N M) (Nat × Nat) := do
  let nodeIndex ← onNodes (Alloc.addNode { key := key, prefixLen := 128 })
  let leafIndex ← onLeaves (Alloc.addNode value)
  onNodes (Alloc.setRegister nodeIndex leafIndex Critbit.VALUE)
  onLeaves (Alloc.setValue leafIndex value)
  return (nodeIndex, leafIndex)

/-- `duplicate` (critbit.rs:290-304). -/
def duplicate (nodeIndex : Nat) : U (Critbit V N M) Nat := do
  let node ← look (Critbit.getNode · nodeIndex)
  let index ← onNodes (Alloc.addNode node)
  let left ← look (Critbit.getLeft · nodeIndex)
  let right ← look (Critbit.getRight · nodeIndex)
  let value ← look fun t => t.nodeAllocator.getRegister nodeIndex Critbit.VALUE
  onNodes (Alloc.setRegister index value Critbit.VALUE)
  onNodes (Alloc.connect index left Critbit.LEFT Critbit.PARENT)
  onNodes (Alloc.connect index right Critbit.RIGHT Critbit.PARENT)
  return index

/-- `replace_node` (critbit.rs:307-321). -/
def replaceNode (nodeIndex : Nat) (contents : CritbitNode) (left right : Nat) : U (Critbit V N M) Unit := do
  onNodes (Alloc.setValue nodeIndex contents)
  onNodes (Alloc.clearRegister nodeIndex Critbit.VALUE)
  onNodes (Alloc.connect nodeIndex left Critbit.LEFT Critbit.PARENT)
  onNodes (Alloc.connect nodeIndex right Critbit.RIGHT Critbit.PARENT)

/-- The end of the body of the loop of `_insert` (critbit.rs:431-441). -/
def insertSplit (key : BitVec 128) (value : V) (nodeIndex sharedPrefixLen : Nat) : U (Critbit V N M) (Option Nat) := do
  let mask ← look fun _ => Critbit.critBitMask sharedPrefixLen
  let isRight := decide (mask &&& key ≠ 0)
  let (nodeLeafIndex, _) ← addLeaf key value
  let movedNodeIndex ← duplicate nodeIndex
  let newNode : CritbitNode := { key := key, prefixLen := sharedPrefixLen }
  if isRight then replaceNode nodeIndex newNode movedNodeIndex nodeLeafIndex
  else replaceNode nodeIndex newNode nodeLeafIndex movedNodeIndex
  return some nodeLeafIndex

/-- The loop of `_insert` (critbit.rs:418-442). -/
def insertLoop (key : BitVec 128) (value : V) : Nat → Nat → U (Critbit V N M) (Option Nat)
  | 0, _ => throw .diverge
  | fuel + 1, nodeIndex => do
    let node ← look (Critbit.getNode · nodeIndex)
    let isLeaf ← look fun t => if node.key = key then do return !(← t.isInnerNode nodeIndex) else pure false
    if isLeaf then
      let leafIndex ← look (Critbit.getLeafIndex · nodeIndex)
      onLeaves (Alloc.setValue leafIndex value)
      return some nodeIndex
    else
      let sharedPrefixLen := Critbit.leadingZeros (node.key ^^^ key)
      if sharedPrefixLen ≥ node.prefixLen then
        let child ← look (Critbit.getChild · node.prefixLen nodeIndex key)
        insertLoop key value fuel child.1
      else insertSplit key value nodeIndex sharedPrefixLen

/-- `insert` / `_insert` (critbit.rs:92-94, 407-443). -/
def insert (key : BitVec 128) (value : V) : U (Critbit V N M) (Option Nat) := do
  if (← get).root = SENTINEL then
    let (nodeIndex, _) ← addLeaf key value
    modify fun t => { t with root := nodeIndex }
    return some nodeIndex
  else if (← get).len ≥ (← get).capacity then return none
  else
    let root := (← get).root
    insertLoop key value (N + 1) root

/-- `migrate` (critbit.rs:324-354). -/
def migrate (source target : Nat) : U (Critbit V N M) Unit := do
  let content ← look (Critbit.getNode · source)
  onNodes (Alloc.setValue target content)
  let inner ← look (Critbit.isInnerNode · source)
  if !inner then
    let left ← look (Critbit.getLeft · source)
    check (left = SENTINEL)
    let right ← look (Critbit.getRight · source)
    check (right = SENTINEL)
    let leafIndex ← look (Critbit.getLeafIndex · source)
    onNodes (Alloc.clearRegister source Critbit.VALUE)
    onNodes (Alloc.setRegister target leafIndex Critbit.VALUE)
  let leafIndex ← look (Critbit.getLeafIndex · source)
  check (leafIndex = SENTINEL)
  let left ← look (Critbit.getLeft · source)
  onNodes (Alloc.connect target left Critbit.LEFT Critbit.PARENT)
  let right ← look (Critbit.getRight · source)
  onNodes (Alloc.connect target right Critbit.RIGHT Critbit.PARENT)
  onNodes (Alloc.clearRegister source Critbit.LEFT)
  onNodes (Alloc.clearRegister source Critbit.RIGHT)
  let _ ← onNodes (Alloc.removeNode source)

/-- `remove_leaf` (critbit.rs:357-384). -/
def removeLeaf (nodeIndex : Nat) : U (Critbit V N M) V := do
  let leafIndex ← look (Critbit.getLeafIndex · nodeIndex)
  let value ← look (Critbit.getLeaf · leafIndex)
  onNodes (Alloc.clearRegister nodeIndex Critbit.VALUE)
  let cleared ← look (Critbit.getLeafIndex · nodeIndex)
  check (cleared = SENTINEL)
  let parent ← look (Critbit.getParent · nodeIndex)
  let left ← look (Critbit.getLeft · parent)
  if nodeIndex = left then onNodes (Alloc.disconnect nodeIndex parent Critbit.PARENT Critbit.LEFT)
  else
    let right ← look (Critbit.getRight · parent)
    if nodeIndex = right then onNodes (Alloc.disconnect nodeIndex parent Critbit.PARENT Critbit.RIGHT)
    else if parent ≠ SENTINEL then throw .notConnected
  let _ ← onLeaves (Alloc.removeNode leafIndex)
  let _ ← onNodes (Alloc.removeNode nodeIndex)
  return value

/-- `remove` / `_remove` (critbit.rs:96-98, 445-494); the loop (470-485) only reads. -/
def remove (key : BitVec 128) : U (Critbit V N M) (Option V) := do
  let nsize := (← get).nodeAllocator.size
  let lsize := (← get).leaves.size
  let parent := (← get).root
  if (← get).len = 0 then return none
  else
    let inner ← look (Critbit.isInnerNode · parent)
    if inner then
      let node ← look (Critbit.getNode · parent)
      let child ← look (Critbit.getChild · node.prefixLen parent key)
      let found ← look fun t => t.removeLoop key (N + 1) parent child.1 child.2
      match found with
      | none => return none
      | some (parent, child, isRight) =>
        let sibling ← look fun t => if isRight then t.getLeft parent else t.getRight parent
        let leaf ← removeLeaf child
        migrate sibling parent
        if nsize < (← get).nodeAllocator.size then throw .overflow
        check (nsize - (← get).nodeAllocator.size = 2)
        if lsize < (← get).leaves.size then throw .overflow
        check (lsize - (← get).leaves.size = 1)
        return some leaf
    else
      let leaf ← look (Critbit.getNode · parent)
      if leaf.key = key then
        modify fun t => { t with root := SENTINEL }
        check ((← get).len = 1)
        let v ← removeLeaf parent
        return some v
      else return none

end Crit

end Sokoban.InPlace
