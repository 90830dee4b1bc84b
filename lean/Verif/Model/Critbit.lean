import Verif.Model.Alloc

/-
Model of `src/critbit.rs`.

`u128` keys are `BitVec 128`; `prefix_len : u64` is a `Nat` (only ever 128 or a number of leading
zeros). The registers are those of `TreeField` (node_allocator.rs:11-16): `Left` = 0, `Right` = 1,
`Parent` = 2, `Value` = 3. A `Vec` used as a stack is a list whose head is the last element. Loops
are recursions on `fuel`; running out is `Panic.diverge`. Not modelled: the padding fields.
-/
namespace Sokoban

/-- `CritbitNode` (critbit.rs:9-15) without `_padding`. -/
structure CritbitNode where
  key : BitVec 128
  prefixLen : Nat
deriving DecidableEq, Repr

/-- `Critbit` (critbit.rs:30-46) without the padding fields. -/
structure Critbit (V : Type) (numNodes maxSize : Nat) where
  root : Nat
  nodeAllocator : NodeAllocator CritbitNode numNodes 4
  leaves : NodeAllocator V maxSize 4

namespace Critbit
variable {V : Type} {numNodes maxSize : Nat}

/-- `Field::Left as u32` (node_allocator.rs:12). -/
def LEFT : Nat := 0
/-- `Field::Right as u32` (node_allocator.rs:13). -/
def RIGHT : Nat := 1
/-- `Field::Parent as u32` (node_allocator.rs:14). -/
def PARENT : Nat := 2
/-- `Field::Value as u32` (node_allocator.rs:15). -/
def VALUE : Nat := 3

/-- `u128::leading_zeros` (used at critbit.rs:119, 144, 397, 426): the position, counted from the
most significant bit, of the first bit that is set, 128 if there is none. -/
def leadingZeros (x : BitVec 128) : Nat := (List.range 128).findIdx (fun j => x.getMsbD j)

/-- The tree that `Critbit::default` builds (critbit.rs:68-75); `z` and `w` are
`CritbitNode::default()` and `V::default()`. -/
def new (z : CritbitNode) (w : V) : Critbit V numNodes maxSize :=
  { root := SENTINEL, nodeAllocator := NodeAllocator.new z, leaves := NodeAllocator.new w }

/-- `Critbit::default` / `Critbit::new` (critbit.rs:66-76, 212-214) with its assertion; the layout
assertions of the allocators are in `Model/Layout.lean`. -/
def newChecked (z : CritbitNode) (w : V) : R (Critbit V numNodes maxSize) := do
  rassert (numNodes ≥ 2 * maxSize)
  return new z w

/-- A zero-filled buffer viewed as a tree. -/
def zeroed (z : CritbitNode) (w : V) : Critbit V numNodes maxSize :=
  { root := 0, nodeAllocator := NodeAllocator.zeroed z, leaves := NodeAllocator.zeroed w }

/-- `Critbit::initialize` (critbit.rs:216-219). -/
def initialise (t : Critbit V numNodes maxSize) : R (Critbit V numNodes maxSize) := do
  let n ← t.nodeAllocator.initialise
  let l ← t.leaves.initialise
  return { t with nodeAllocator := n, leaves := l }

/-- `new_from_slice` (critbit.rs:81-86) on the tree `t` found in the buffer. -/
def newFromSlice (t : Critbit V numNodes maxSize) : R (Critbit V numNodes maxSize) := do
  rassert (numNodes ≥ 2 * maxSize)
  t.initialise

/-- `size` / `len` (critbit.rs:154-160). -/
def len (t : Critbit V numNodes maxSize) : Nat := t.leaves.size

/-- `is_empty`, the provided method of `NodeAllocatorMap` (node_allocator.rs:43-45). -/
def isEmpty (t : Critbit V numNodes maxSize) : Bool := t.len = 0

/-- `capacity` (critbit.rs:162-164). -/
def capacity (_ : Critbit V numNodes maxSize) : Nat := maxSize

/-- `get_leaf` (critbit.rs:221-223). -/
def getLeaf (t : Critbit V numNodes maxSize) (leafIndex : Nat) : R V := t.leaves.getValue leafIndex

/-- `*get_leaf_mut(leaf_index) = value` (critbit.rs:225-227) and `replace_leaf`
(critbit.rs:265-267). -/
def replaceLeaf (t : Critbit V numNodes maxSize) (leafIndex : Nat) (value : V) :
    R (Critbit V numNodes maxSize) := do
  return { t with leaves := ← t.leaves.setValue leafIndex value }

/-- `*get_node_mut(node) = n` (critbit.rs:260-262): key and prefix length written through the reference that the
function hands out. -/
def setNode (t : Critbit V numNodes maxSize) (node : Nat) (n : CritbitNode) : R (Critbit V numNodes maxSize) := do
  return { t with nodeAllocator := ← t.nodeAllocator.setValue node n }

/-- `get_leaf_index` (critbit.rs:229-231). -/
def getLeafIndex (t : Critbit V numNodes maxSize) (node : Nat) : R Nat :=
  t.nodeAllocator.getRegister node VALUE

/-- `is_inner_node` (critbit.rs:233-235). -/
def isInnerNode (t : Critbit V numNodes maxSize) (node : Nat) : R Bool := do
  return decide ((← t.nodeAllocator.getRegister node VALUE) = SENTINEL)

/-- `get_node` (critbit.rs:237-239). -/
def getNode (t : Critbit V numNodes maxSize) (node : Nat) : R CritbitNode :=
  t.nodeAllocator.getValue node

/-- `get_key` (critbit.rs:241-243). -/
def getKey (t : Critbit V numNodes maxSize) (node : Nat) : R (BitVec 128) := do
  return (← t.nodeAllocator.getValue node).key

/-- `get_left` (critbit.rs:246-248). -/
def getLeft (t : Critbit V numNodes maxSize) (node : Nat) : R Nat := t.nodeAllocator.getRegister node LEFT

/-- `get_right` (critbit.rs:251-253). -/
def getRight (t : Critbit V numNodes maxSize) (node : Nat) : R Nat := t.nodeAllocator.getRegister node RIGHT

/-- `get_parent` (critbit.rs:256-258). -/
def getParent (t : Critbit V numNodes maxSize) (node : Nat) : R Nat := t.nodeAllocator.getRegister node PARENT

/-- `(1u128 << 127) >> n` (critbit.rs:281, 431); a shift by 128 or more overflows. -/
def critBitMask (n : Nat) : R (BitVec 128) :=
  if n ≥ 128 then .error .overflow else .ok (((1#128) <<< 127) >>> n)

/-- `add_leaf` (critbit.rs:270-277). -/
def addLeaf (t : Critbit V numNodes maxSize) (key : BitVec 128) (value : V) :
    R (Critbit V numNodes maxSize × Nat × Nat) := do
  let (na, nodeIndex) ← t.nodeAllocator.addNode { key := key, prefixLen := 128 }
  let (lv, leafIndex) ← t.leaves.addNode value
  let na ← na.setRegister nodeIndex leafIndex VALUE
  let lv ← lv.setValue leafIndex value
  return ({ t with nodeAllocator := na, leaves := lv }, nodeIndex, leafIndex)

/-- `get_child` (critbit.rs:280-287). -/
def getChild (t : Critbit V numNodes maxSize) (prefixLen nodeIndex : Nat) (searchKey : BitVec 128) :
    R (Nat × Bool) := do
  let mask ← critBitMask prefixLen
  if searchKey &&& mask ≠ 0 then return (← t.getRight nodeIndex, true)
  else return (← t.getLeft nodeIndex, false)

/-- `duplicate` (critbit.rs:290-304). -/
def duplicate (t : Critbit V numNodes maxSize) (nodeIndex : Nat) :
    R (Critbit V numNodes maxSize × Nat) := do
  let (na, index) ← t.nodeAllocator.addNode (← t.getNode nodeIndex)
  let t := { t with nodeAllocator := na }
  let left ← t.getLeft nodeIndex
  let right ← t.getRight nodeIndex
  let value ← t.nodeAllocator.getRegister nodeIndex VALUE
  let na ← t.nodeAllocator.setRegister index value VALUE
  let na ← na.connect index left LEFT PARENT
  let na ← na.connect index right RIGHT PARENT
  return ({ t with nodeAllocator := na }, index)

/-- `replace_node` (critbit.rs:307-321). -/
def replaceNode (t : Critbit V numNodes maxSize) (nodeIndex : Nat) (nodeContents : CritbitNode)
    (left right : Nat) : R (Critbit V numNodes maxSize) := do
  let na ← t.nodeAllocator.setValue nodeIndex nodeContents
  let na ← na.clearRegister nodeIndex VALUE
  let na ← na.connect nodeIndex left LEFT PARENT
  let na ← na.connect nodeIndex right RIGHT PARENT
  return { t with nodeAllocator := na }

/-- The conditional statement in `migrate` (critbit.rs:327-335). -/
def migrateLeaf (t : Critbit V numNodes maxSize) (source target : Nat) : R (Critbit V numNodes maxSize) := do
  if !(← t.isInnerNode source) then do
    rassert ((← t.getLeft source) = SENTINEL)
    rassert ((← t.getRight source) = SENTINEL)
    let leafIndex ← t.getLeafIndex source
    let na ← t.nodeAllocator.clearRegister source VALUE
    let na ← na.setRegister target leafIndex VALUE
    return { t with nodeAllocator := na }
  else return t

/-- `migrate` (critbit.rs:324-354). -/
def migrate (t : Critbit V numNodes maxSize) (source target : Nat) : R (Critbit V numNodes maxSize) := do
  let content ← t.getNode source
  let na ← t.nodeAllocator.setValue target content
  let t ← { t with nodeAllocator := na }.migrateLeaf source target
  rassert ((← t.getLeafIndex source) = SENTINEL)
  let na ← t.nodeAllocator.connect target (← t.getLeft source) LEFT PARENT
  let t := { t with nodeAllocator := na }
  let na ← t.nodeAllocator.connect target (← t.getRight source) RIGHT PARENT
  let na ← na.clearRegister source LEFT
  let na ← na.clearRegister source RIGHT
  let (na, _) ← na.removeNode source
  return { t with nodeAllocator := na }

/-- `remove_leaf` (critbit.rs:357-384). -/
def removeLeaf (t : Critbit V numNodes maxSize) (nodeIndex : Nat) : R (Critbit V numNodes maxSize × V) := do
  let leafIndex ← t.getLeafIndex nodeIndex
  let value ← t.getLeaf leafIndex
  let na ← t.nodeAllocator.clearRegister nodeIndex VALUE
  let t := { t with nodeAllocator := na }
  rassert ((← t.getLeafIndex nodeIndex) = SENTINEL)
  let parent ← t.getParent nodeIndex
  let na ← (if nodeIndex = (← t.getLeft parent) then t.nodeAllocator.disconnect nodeIndex parent PARENT LEFT
    else do
      if nodeIndex = (← t.getRight parent) then t.nodeAllocator.disconnect nodeIndex parent PARENT RIGHT
      else if parent ≠ SENTINEL then throw .notConnected
      else pure t.nodeAllocator)
  let (lv, _) ← t.leaves.removeNode leafIndex
  let (na, _) ← na.removeNode nodeIndex
  return ({ t with nodeAllocator := na, leaves := lv }, value)

/-- The loop shared by `get` (critbit.rs:108-126), `get_mut` (133-151) and `get_addr`
(388-404): the leaf node that holds the key. -/
def findLoop (t : Critbit V numNodes maxSize) (key : BitVec 128) : Nat → Nat → R (Option Nat)
  | 0, _ => .error .diverge
  | fuel + 1, nodeIndex => do
    let node ← t.getNode nodeIndex
    if !(← t.isInnerNode nodeIndex) then
      if node.key = key then return some nodeIndex else return none
    else do
      let sharedPrefixLen := leadingZeros (node.key ^^^ key)
      if sharedPrefixLen ≥ node.prefixLen then
        findLoop t key fuel (← t.getChild node.prefixLen nodeIndex key).1
      else return none

/-- `get` (critbit.rs:104-127). -/
def get (t : Critbit V numNodes maxSize) (key : BitVec 128) : R (Option V) := do
  if t.isEmpty then return none
  match ← t.findLoop key (numNodes + 1) t.root with
  | none => return none
  | some nodeIndex => return some (← t.getLeaf (← t.getLeafIndex nodeIndex))

/-- `get_mut` (critbit.rs:129-152): the `&mut V` is the index of the leaf. -/
def getMut (t : Critbit V numNodes maxSize) (key : BitVec 128) : R (Option Nat) := do
  if t.isEmpty then return none
  match ← t.findLoop key (numNodes + 1) t.root with
  | none => return none
  | some nodeIndex => do
    let leafIndex ← t.getLeafIndex nodeIndex
    -- `get_leaf_mut` panics like `get_leaf`
    let _ ← t.getLeaf leafIndex
    return some leafIndex

/-- `contains` (critbit.rs:100-102). -/
def contains (t : Critbit V numNodes maxSize) (key : BitVec 128) : R Bool := do
  return (← t.get key).isSome

/-- `index` (critbit.rs:776-783). -/
def index (t : Critbit V numNodes maxSize) (key : BitVec 128) : R V := do unwrap (← t.get key)

/-- `index_mut` (critbit.rs:785-792). -/
def indexMut (t : Critbit V numNodes maxSize) (key : BitVec 128) : R Nat := do unwrap (← t.getMut key)

/-- `get_addr` (critbit.rs:386-405). -/
def getAddr (t : Critbit V numNodes maxSize) (key : BitVec 128) : R Nat := do
  match ← t.findLoop key (numNodes + 1) t.root with
  | none => return SENTINEL
  | some nodeIndex => return nodeIndex

/-- The end of the body of the loop of `_insert` (critbit.rs:431-441): a new inner node takes the
place of the node at `nodeIndex`. -/
def insertSplit (t : Critbit V numNodes maxSize) (key : BitVec 128) (value : V)
    (nodeIndex sharedPrefixLen : Nat) : R (Critbit V numNodes maxSize × Option Nat) := do
  let mask ← critBitMask sharedPrefixLen
  let isRight := decide (mask &&& key ≠ 0)
  let (t, nodeLeafIndex, _) ← t.addLeaf key value
  let (t, movedNodeIndex) ← t.duplicate nodeIndex
  let newNode : CritbitNode := { key := key, prefixLen := sharedPrefixLen }
  let t ← (if isRight then t.replaceNode nodeIndex newNode movedNodeIndex nodeLeafIndex
    else t.replaceNode nodeIndex newNode nodeLeafIndex movedNodeIndex)
  return (t, some nodeLeafIndex)

/-- The loop of `_insert` (critbit.rs:418-442). -/
def insertLoop (t : Critbit V numNodes maxSize) (key : BitVec 128) (value : V) :
    Nat → Nat → R (Critbit V numNodes maxSize × Option Nat)
  | 0, _ => .error .diverge
  | fuel + 1, nodeIndex => do
    let node ← t.getNode nodeIndex
    let isLeaf ← (if node.key = key then do return !(← t.isInnerNode nodeIndex) else pure false)
    if isLeaf then do
      let leafIndex ← t.getLeafIndex nodeIndex
      let t ← t.replaceLeaf leafIndex value
      return (t, some nodeIndex)
    else do
      let sharedPrefixLen := leadingZeros (node.key ^^^ key)
      if sharedPrefixLen ≥ node.prefixLen then
        insertLoop t key value fuel (← t.getChild node.prefixLen nodeIndex key).1
      else t.insertSplit key value nodeIndex sharedPrefixLen

/-- `insert` / `_insert` (critbit.rs:92-94, 407-443). -/
def insert (t : Critbit V numNodes maxSize) (key : BitVec 128) (value : V) :
    R (Critbit V numNodes maxSize × Option Nat) := do
  if t.root = SENTINEL then do
    let (t, nodeIndex, _) ← t.addLeaf key value
    return ({ t with root := nodeIndex }, some nodeIndex)
  else if t.len ≥ t.capacity then return (t, none)
  else t.insertLoop key value (numNodes + 1) t.root

/-- The loop of `_remove` (critbit.rs:470-485): the parent and the leaf that holds the key, and
whether the leaf is the right child. -/
def removeLoop (t : Critbit V numNodes maxSize) (key : BitVec 128) :
    Nat → Nat → Nat → Bool → R (Option (Nat × Nat × Bool))
  | 0, _, _, _ => .error .diverge
  | fuel + 1, parent, child, isRight => do
    let node ← t.getNode child
    if ← t.isInnerNode child then do
      let (grandchild, grandchildCritBit) ← t.getChild node.prefixLen child key
      removeLoop t key fuel child grandchild grandchildCritBit
    else if node.key ≠ key then return none
    else return some (parent, child, isRight)

/-- The end of `_remove` without its assertions (critbit.rs:486-491): the leaf goes and its sibling
takes the place of their parent. -/
def removeAt (t : Critbit V numNodes maxSize) (parent child : Nat) (isRight : Bool) :
    R (Critbit V numNodes maxSize × V) := do
  let sibling ← (if isRight then t.getLeft parent else t.getRight parent)
  let (t, leaf) ← t.removeLeaf child
  let t ← t.migrate sibling parent
  return (t, leaf)

/-- `remove` / `_remove` (critbit.rs:96-98, 445-494). -/
def remove (t : Critbit V numNodes maxSize) (key : BitVec 128) :
    R (Critbit V numNodes maxSize × Option V) := do
  let nsize := t.nodeAllocator.size
  let lsize := t.leaves.size
  let parent := t.root
  if t.len = 0 then return (t, none)
  if ← t.isInnerNode parent then do
    let node ← t.getNode parent
    let (child, isRight) ← t.getChild node.prefixLen parent key
    match ← t.removeLoop key (numNodes + 1) parent child isRight with
    | none => return (t, none)
    | some (parent, child, isRight) => do
      let (t, leaf) ← t.removeAt parent child isRight
      -- `nsize - self.node_allocator.size`, `lsize - self.leaves.size` on `u64`
      if nsize < t.nodeAllocator.size then throw .overflow
      rassert (nsize - t.nodeAllocator.size = 2)
      if lsize < t.leaves.size then throw .overflow
      rassert (lsize - t.leaves.size = 1)
      return (t, some leaf)
  else do
    let leaf ← t.getNode parent
    if leaf.key = key then do
      let t := { t with root := SENTINEL }
      rassert (t.len = 1)
      let (t, v) ← t.removeLeaf parent
      return (t, some v)
    else return (t, none)

/-- The loop of `find_min` (critbit.rs:496-502). -/
def minLoop (t : Critbit V numNodes maxSize) : Nat → Nat → R Nat
  | 0, _ => .error .diverge
  | fuel + 1, node => do
    let l ← t.getLeft node
    if l ≠ SENTINEL then minLoop t fuel l else return node

/-- The loop of `find_max` (critbit.rs:504-510). -/
def maxLoop (t : Critbit V numNodes maxSize) : Nat → Nat → R Nat
  | 0, _ => .error .diverge
  | fuel + 1, node => do
    let r ← t.getRight node
    if r ≠ SENTINEL then maxLoop t fuel r else return node

/-- `get_min_index` (critbit.rs:178-180). -/
def getMinIndex (t : Critbit V numNodes maxSize) : R Nat := t.minLoop (numNodes + 1) t.root

/-- `get_max_index` (critbit.rs:182-184). -/
def getMaxIndex (t : Critbit V numNodes maxSize) : R Nat := t.maxLoop (numNodes + 1) t.root

/-- the key and the value at a leaf node (critbit.rs:190-192, 201-203) -/
def entryAt (t : Critbit V numNodes maxSize) (i : Nat) : R (Option (BitVec 128 × V)) := do
  if i = SENTINEL then return none
  let node ← t.getNode i
  let leaf ← t.getLeaf (← t.getLeafIndex i)
  return some (node.key, leaf)

/-- `get_min` (critbit.rs:186-195). -/
def getMin (t : Critbit V numNodes maxSize) : R (Option (BitVec 128 × V)) := do
  t.entryAt (← t.getMinIndex)

/-- `get_max` (critbit.rs:197-206). -/
def getMax (t : Critbit V numNodes maxSize) : R (Option (BitVec 128 × V)) := do
  t.entryAt (← t.getMaxIndex)

/-- Cursor state of `CritbitIterator` / `CritbitIteratorMut` (critbit.rs:588-601, 672-685). The
top of a stack is the head of the list; `fwdNode` / `revNode` are leaf indices. -/
structure Iter where
  fwdStack : List Nat
  fwdNode : Option Nat
  revStack : List Nat
  revNode : Option Nat
  terminated : Bool
deriving DecidableEq, Repr

/-- `_iter` / `_iter_mut` (critbit.rs:512-555). -/
def iter (t : Critbit V numNodes maxSize) : Iter :=
  if t.root = SENTINEL then
    { fwdStack := [], fwdNode := none, revStack := [], revNode := none, terminated := false }
  else
    { fwdStack := [t.root], fwdNode := none, revStack := [t.root], revNode := none, terminated := false }

/-- `next` of both iterators up to the fabrication of the references (critbit.rs:611-635,
695-729): yields the leaf node and its leaf index. -/
def Iter.nextLoop (t : Critbit V numNodes maxSize) : Nat → Iter → R (Iter × Option (Nat × Nat))
  | 0, _ => .error .diverge
  | fuel + 1, it => do
    if it.terminated then return (it, none)
    match it.fwdStack with
    | [] => return (it, none)
    | n :: stack => do
      let it := { it with fwdStack := stack }
      if !(← t.isInnerNode n) then do
        let i ← t.getLeafIndex n
        if some i = it.revNode then return ({ it with terminated := true }, none)
        return ({ it with fwdNode := some i }, some (n, i))
      else do
        let r ← t.getRight n
        let l ← t.getLeft n
        Iter.nextLoop t fuel { it with fwdStack := l :: r :: it.fwdStack }

/-- `next_back` likewise (critbit.rs:645-669, 739-773). -/
def Iter.nextBackLoop (t : Critbit V numNodes maxSize) : Nat → Iter → R (Iter × Option (Nat × Nat))
  | 0, _ => .error .diverge
  | fuel + 1, it => do
    if it.terminated then return (it, none)
    match it.revStack with
    | [] => return (it, none)
    | n :: stack => do
      let it := { it with revStack := stack }
      if !(← t.isInnerNode n) then do
        let i ← t.getLeafIndex n
        if some i = it.fwdNode then return ({ it with terminated := true }, none)
        return ({ it with revNode := some i }, some (n, i))
      else do
        let l ← t.getLeft n
        let r ← t.getRight n
        Iter.nextBackLoop t fuel { it with revStack := r :: l :: it.revStack }

/-- The item of the immutable iterator (critbit.rs:622-624, 656-658). -/
def Iter.item (t : Critbit V numNodes maxSize) (p : Iter × Option (Nat × Nat)) :
    R (Iter × Option (BitVec 128 × V)) :=
  match p with
  | (it, none) => .ok (it, none)
  | (it, some (n, i)) => do
    let v ← t.getLeaf i
    let k ← t.getKey n
    return (it, some (k, v))

/-- `CritbitIterator::next` (critbit.rs:611-635). -/
def Iter.next (t : Critbit V numNodes maxSize) (it : Iter) : R (Iter × Option (BitVec 128 × V)) := do
  Iter.item t (← Iter.nextLoop t (numNodes + 1) it)

/-- `CritbitIterator::next_back` (critbit.rs:645-669). -/
def Iter.nextBack (t : Critbit V numNodes maxSize) (it : Iter) : R (Iter × Option (BitVec 128 × V)) := do
  Iter.item t (← Iter.nextBackLoop t (numNodes + 1) it)

/-- `CritbitIteratorMut::next` (critbit.rs:695-729). The pair of references fabricated with
`as_ptr().add(n - 1)` and `as_mut_ptr().add(i - 1)` is the pair of the node index and the leaf
index; no bounds check, as in the code. -/
def Iter.nextMut (t : Critbit V numNodes maxSize) (it : Iter) : R (Iter × Option (Nat × Nat)) :=
  Iter.nextLoop t (numNodes + 1) it

/-- `CritbitIteratorMut::next_back` (critbit.rs:739-773). -/
def Iter.nextBackMut (t : Critbit V numNodes maxSize) (it : Iter) : R (Iter × Option (Nat × Nat)) :=
  Iter.nextBackLoop t (numNodes + 1) it

end Critbit
end Sokoban
