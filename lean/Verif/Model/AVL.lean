import Verif.Model.Alloc

/-
Model of `src/avl_tree.rs`.

Directions are the numbers of the registers (`Field::Left` = 0, `Field::Right` = 1,
`Field::Height` = 2). Rust's `K: PartialOrd` is `[LT K] [DecidableLT K] [PartialGt K]`: `a < b` is `a < b` and
`a > b` is `PartialGt.gt a b`, an unrelated relation, since an implementation may answer the two as it likes;
nothing is assumed here. `root` is a `u64` only ever assigned `u32` values, so `self.root as u32` is `root`; memory
that this code has not written may hold a greater number, which the code reads modulo 2^32, and then the functions
below stand for the code on the tree with `root` reduced. A `Vec` used as a stack is a list whose head is the last
element. Loops are recursions on `fuel`; running out is `Panic.diverge`. Not modelled: the capacities passed to
`Vec::with_capacity` (no effect on results).
-/
namespace Sokoban

/-- `PartialOrd::gt`, which `*key > current_key` calls (avl_tree.rs:138, 159, 297, 338, 550). -/
class PartialGt (K : Type) where
  gt : K → K → Prop
  dec : ∀ a b, Decidable (gt a b)

instance {K : Type} [PartialGt K] (a b : K) : Decidable (PartialGt.gt a b) := PartialGt.dec a b

/-- Where nothing else is said, `a > b` is `b < a`, as the documentation of `PartialOrd` demands. -/
instance (priority := low) {K : Type} [LT K] [DecidableLT K] : PartialGt K := ⟨fun a b => b < a, fun _ _ => inferInstance⟩

/-- `AVLNode` (avl_tree.rs:31-39). -/
structure AVLNode (K V : Type) where
  key : K
  value : V

/-- `AVLTree` (avl_tree.rs:64-73). -/
structure AVLTree (K V : Type) (maxSize : Nat) where
  root : Nat
  allocator : NodeAllocator (AVLNode K V) maxSize 4

namespace AVLTree
variable {K V : Type} {maxSize : Nat}

/-- `Field::Left as u32` (avl_tree.rs:22). -/
def LEFT : Nat := 0
/-- `Field::Right as u32` (avl_tree.rs:23). -/
def RIGHT : Nat := 1
/-- `Field::Height as u32` (avl_tree.rs:24). -/
def HEIGHT : Nat := 2

/-- `Ancestor` (avl_tree.rs:29): parent, branch, child. -/
abbrev Ancestor := Option Nat × Option Nat × Nat

/-- `AVLTree::default` / `new` (avl_tree.rs:233-238, 247-249) without the layout assertions; `z` is
`AVLNode::default()`. -/
def new (z : AVLNode K V) : AVLTree K V maxSize :=
  { root := SENTINEL, allocator := NodeAllocator.new z }

/-- A zero-filled buffer viewed as a tree. -/
def zeroed (z : AVLNode K V) : AVLTree K V maxSize :=
  { root := 0, allocator := NodeAllocator.zeroed z }

/-- `AVLTree::initialize` (avl_tree.rs:251-253); `new_from_slice` (104-108) is this on the tree
found in the buffer. -/
def initialise (t : AVLTree K V maxSize) : R (AVLTree K V maxSize) := do
  return { t with allocator := ← t.allocator.initialise }

/-- `get_node` (avl_tree.rs:255-257). -/
def getNode (t : AVLTree K V maxSize) (node : Nat) : R (AVLNode K V) :=
  t.allocator.getValue node

/-- `get_node_mut(node).value = value` (avl_tree.rs:259-261, 303). -/
def setNodeValue (t : AVLTree K V maxSize) (node : Nat) (value : V) : R (AVLTree K V maxSize) := do
  let n ← t.allocator.getValue node
  return { t with allocator := ← t.allocator.setValue node { n with value := value } }

/-- `*get_node_mut(node) = n` (avl_tree.rs:259-261): the whole node, key included, written through the reference
that the function hands out. -/
def setNode (t : AVLTree K V maxSize) (node : Nat) (n : AVLNode K V) : R (AVLTree K V maxSize) := do
  return { t with allocator := ← t.allocator.setValue node n }

/-- `get_field` (avl_tree.rs:275-277). -/
def getField (t : AVLTree K V maxSize) (node register : Nat) : R Nat :=
  t.allocator.getRegister node register

/-- `set_field(node, Field::Height, value)` (avl_tree.rs:264-272 with the inner test false). -/
def setHeight (t : AVLTree K V maxSize) (node value : Nat) : R (AVLTree K V maxSize) := do
  if node ≠ SENTINEL then
    return { t with allocator := ← t.allocator.setRegister node value HEIGHT }
  else return t

/-- `update_height` (avl_tree.rs:466-488). -/
def updateHeight (t : AVLTree K V maxSize) (index : Nat) : R (AVLTree K V maxSize) := do
  let left ← t.getField index LEFT
  let right ← t.getField index RIGHT
  let height ← (if left = SENTINEL ∧ right = SENTINEL then pure 0
    else do
      let leftHeight ← (if left ≠ SENTINEL then t.getField left HEIGHT else pure 0)
      let rightHeight ← (if right ≠ SENTINEL then t.getField right HEIGHT else pure 0)
      -- `max(left_height, right_height) + 1` on `u32`
      if max leftHeight rightHeight + 1 ≥ 2 ^ 32 then throw .overflow
      pure (max leftHeight rightHeight + 1))
  t.setHeight index height

/-- `set_field` (avl_tree.rs:264-272). -/
def setField (t : AVLTree K V maxSize) (node register value : Nat) : R (AVLTree K V maxSize) := do
  if node ≠ SENTINEL then do
    let a ← t.allocator.setRegister node value register
    let t := { t with allocator := a }
    if register = LEFT ∨ register = RIGHT then t.updateHeight node else return t
  else return t

/-- `x as i32` for a `u32` value. -/
def asI32 (x : Nat) : Int := if x < 2 ^ 31 then (x : Int) else (x : Int) - 2 ^ 32

/-- checked `i32` arithmetic -/
def i32 (x : Int) : R Int := if -(2 ^ 31) ≤ x ∧ x < 2 ^ 31 then .ok x else .error .overflow

/-- `balance_factor` (avl_tree.rs:430-444). -/
def balanceFactor (t : AVLTree K V maxSize) (left right : Nat) : R Int := do
  let leftHeight ← (if left ≠ SENTINEL then do i32 (asI32 (← t.getField left HEIGHT) + 1) else pure 0)
  let rightHeight ← (if right ≠ SENTINEL then do i32 (asI32 (← t.getField right HEIGHT) + 1) else pure 0)
  i32 (leftHeight - rightHeight)

/-- `left_rotate` (avl_tree.rs:446-454). -/
def leftRotate (t : AVLTree K V maxSize) (index : Nat) : R (AVLTree K V maxSize × Nat) := do
  let right ← t.getField index RIGHT
  let rightLeft ← t.getField right LEFT
  let t ← t.setField index RIGHT rightLeft
  let t ← t.setField right LEFT index
  return (t, right)

/-- `right_rotate` (avl_tree.rs:456-464). -/
def rightRotate (t : AVLTree K V maxSize) (index : Nat) : R (AVLTree K V maxSize × Nat) := do
  let left ← t.getField index LEFT
  let leftRight ← t.getField left RIGHT
  let t ← t.setField index LEFT leftRight
  let t ← t.setField left RIGHT index
  return (t, left)

/-- `delete` (avl_tree.rs:490-495). -/
def delete (t : AVLTree K V maxSize) (node : Nat) : R (AVLTree K V maxSize) := do
  let a ← t.allocator.clearRegister node LEFT
  let a ← a.clearRegister node RIGHT
  let a ← a.clearRegister node HEIGHT
  let (a, _) ← a.removeNode node
  return { t with allocator := a }

/-- The rotations of `rebalance` at one node (avl_tree.rs:499-530): new tree and `index`. -/
def rebalanceNode (t : AVLTree K V maxSize) (child : Nat) :
    R (AVLTree K V maxSize × Option Nat) := do
  let left ← t.getField child LEFT
  let right ← t.getField child RIGHT
  let balanceFactor ← t.balanceFactor left right
  if balanceFactor > 1 then do
    let leftLeft ← t.getField left LEFT
    let leftRight ← t.getField left RIGHT
    let leftBalanceFactor ← t.balanceFactor leftLeft leftRight
    let t ← (if leftBalanceFactor < 0 then do
        let (t, index) ← t.leftRotate left
        t.setField child LEFT index
      else pure t)
    let (t, index) ← t.rightRotate child
    return (t, some index)
  else if balanceFactor < -1 then do
    let rightLeft ← t.getField right LEFT
    let rightRight ← t.getField right RIGHT
    let rightBalanceFactor ← t.balanceFactor rightLeft rightRight
    let t ← (if rightBalanceFactor > 0 then do
        let (t, index) ← t.rightRotate right
        t.setField child RIGHT index
      else pure t)
    let (t, index) ← t.leftRotate child
    return (t, some index)
  else do
    let t ← t.updateHeight child
    return (t, none)

/-- `rebalance` (avl_tree.rs:497-539): from the last path entry to the first. -/
def rebalance (t : AVLTree K V maxSize) : List Ancestor → R (AVLTree K V maxSize)
  | [] => .ok t
  | (parent, branch, child) :: path => do
    let (t, index) ← t.rebalanceNode child
    let t ← (match index with
      | none => pure t
      | some index =>
        match parent with
        | some parent => do t.setField parent (← unwrap branch) index
        | none => do
          let t := { t with root := index }
          t.updateHeight index)
    rebalance t path

/-- `len` / `size` (avl_tree.rs:171-177). -/
def len (t : AVLTree K V maxSize) : Nat := t.allocator.size

/-- `capacity` (avl_tree.rs:179-181). -/
def capacity (_ : AVLTree K V maxSize) : Nat := maxSize

/-- `is_empty` (node_allocator.rs:43-45). -/
def isEmpty (t : AVLTree K V maxSize) : Bool := t.len = 0

/-- The loop of `_insert` and what follows it (avl_tree.rs:290-319). -/
def insertLoop [LT K] [DecidableLT K] [PartialGt K] (t : AVLTree K V maxSize) (key : K) (value : V) :
    Nat → Nat → List Ancestor → R (AVLTree K V maxSize × Option Nat)
  | 0, _, _ => .error .diverge
  | fuel + 1, parent, path => do
    let currentKey := (← t.getNode parent).key
    let descend (referenceNode branch : Nat) : R (AVLTree K V maxSize × Option Nat) := do
      if referenceNode = SENTINEL then do
        if t.len ≥ t.capacity then return (t, none)
        let (a, referenceNode) ← t.allocator.addNode { key := key, value := value }
        let t := { t with allocator := a }
        let t ← t.setField parent branch referenceNode
        let t ← t.rebalance path
        return (t, some referenceNode)
      else insertLoop t key value fuel referenceNode ((some parent, some branch, referenceNode) :: path)
    if key < currentKey then descend (← t.getField parent LEFT) LEFT
    else if PartialGt.gt key currentKey then descend (← t.getField parent RIGHT) RIGHT
    else do
      let t ← t.setNodeValue parent value
      return (t, some parent)

/-- `_insert` (avl_tree.rs:279-320). `lim`, here and in the functions below, bounds the iterations of every loop; the
Rust code has no such bound, and C73 shows that it is never reached. -/
def insert [LT K] [DecidableLT K] [PartialGt K] (t : AVLTree K V maxSize) (key : K) (value : V) (lim : Nat := maxSize + 1) :
    R (AVLTree K V maxSize × Option Nat) := do
  if t.root = SENTINEL then do
    let (a, i) ← t.allocator.addNode { key := key, value := value }
    return ({ root := i, allocator := a }, some i)
  t.insertLoop key value lim t.root [(none, none, t.root)]

/-- The search loop of `_remove` (avl_tree.rs:330-345): `node_index` and `path` at its end. -/
def removePath [LT K] [DecidableLT K] [PartialGt K] (t : AVLTree K V maxSize) (key : K) :
    Nat → Nat → List Ancestor → R (Nat × List Ancestor)
  | 0, _, _ => .error .diverge
  | fuel + 1, parent, path => do
    if parent = SENTINEL then return (parent, path)
    let currentKey := (← t.getNode parent).key
    if key < currentKey then do
      let nodeIndex ← t.getField parent LEFT
      removePath t key fuel nodeIndex ((some parent, some LEFT, nodeIndex) :: path)
    else if PartialGt.gt key currentKey then do
      let nodeIndex ← t.getField parent RIGHT
      removePath t key fuel nodeIndex ((some parent, some RIGHT, nodeIndex) :: path)
    else return (parent, path)

/-- The loop of `_remove` to the leftmost descendant (avl_tree.rs:362-366): `leftmost`,
`leftmost_parent`, `inner_path` at its end. -/
def leftmostLoop (t : AVLTree K V maxSize) :
    Nat → Nat → Nat → List Ancestor → R (Nat × Nat × List Ancestor)
  | 0, _, _, _ => .error .diverge
  | fuel + 1, leftmost, leftmostParent, innerPath => do
    if (← t.getField leftmost LEFT) ≠ SENTINEL then do
      let leftmostParent := leftmost
      let leftmost ← t.getField leftmost LEFT
      leftmostLoop t fuel leftmost leftmostParent
        ((some leftmostParent, some LEFT, leftmost) :: innerPath)
    else return (leftmost, leftmostParent, innerPath)

/-- `path.pop().unwrap()`. -/
def popPath : List Ancestor → R (Ancestor × List Ancestor)
  | [] => .error .unwrapNone
  | e :: path => .ok (e, path)

/-- The case of two children in `_remove` (avl_tree.rs:357-397): new tree, `path`, `replacement`. -/
def removeTwo (t : AVLTree K V maxSize) (left right : Nat) (path : List Ancestor) (lim : Nat := maxSize + 1) :
    R (AVLTree K V maxSize × List Ancestor × Nat) := do
  let (leftmost, leftmostParent, innerPath) ← t.leftmostLoop lim right SENTINEL []
  let t ← (if leftmostParent ≠ SENTINEL then do
      t.setField leftmostParent LEFT (← t.getField leftmost RIGHT)
    else pure t)
  let t ← t.setField leftmost LEFT left
  let t ← (if right ≠ leftmost then t.setField leftmost RIGHT right else pure t)
  let ((parent, branch, _), path) ← popPath path
  let t ← (match parent with
    | some parent => do t.setField parent (← unwrap branch) leftmost
    | none => pure t)
  let path := (parent, branch, leftmost) :: path
  let path := if right ≠ leftmost then (some leftmost, some RIGHT, right) :: path else path
  let innerPath := innerPath.tail
  let path := innerPath ++ path
  return (t, path, leftmost)

/-- The other case in `_remove` (avl_tree.rs:398-418). -/
def removeOne (t : AVLTree K V maxSize) (left right : Nat) (path : List Ancestor) :
    R (AVLTree K V maxSize × List Ancestor × Nat) := do
  let child := if left = SENTINEL ∧ right = SENTINEL then SENTINEL
    else if left ≠ SENTINEL then left else right
  let ((parent, branch, _), path) ← popPath path
  match parent with
  | some parent => do
    let t ← t.setField parent (← unwrap branch) child
    let path := if child ≠ SENTINEL then (some parent, branch, child) :: path else path
    return (t, path, child)
  | none => return (t, path, child)

/-- `_remove` after the search (avl_tree.rs:352-427). -/
def removeNode (t : AVLTree K V maxSize) (nodeIndex : Nat) (path : List Ancestor) (lim : Nat := maxSize + 1) :
    R (AVLTree K V maxSize × Option V) := do
  let value := (← t.getNode nodeIndex).value
  let left ← t.getField nodeIndex LEFT
  let right ← t.getField nodeIndex RIGHT
  let (t, path, replacement) ← (if left ≠ SENTINEL ∧ right ≠ SENTINEL then t.removeTwo left right path lim
    else t.removeOne left right path)
  let t := if nodeIndex = t.root then { t with root := replacement } else t
  let t ← t.delete nodeIndex
  let t ← t.rebalance path
  return (t, some value)

/-- `_remove` (avl_tree.rs:322-428). -/
def remove [LT K] [DecidableLT K] [PartialGt K] (t : AVLTree K V maxSize) (key : K) (lim : Nat := maxSize + 1) :
    R (AVLTree K V maxSize × Option V) := do
  if t.root = SENTINEL then return (t, none)
  let (nodeIndex, path) ← t.removePath key (lim + 1) t.root [(none, none, t.root)]
  if nodeIndex = SENTINEL then return (t, none)
  t.removeNode nodeIndex path lim

/-- The loop of `get`, `get_mut` and `get_addr` (avl_tree.rs:134-147, 155-168, 546-559), which are
the same up to what is returned at the node found. `SENTINEL`: not found. -/
def searchLoop [LT K] [DecidableLT K] [PartialGt K] (t : AVLTree K V maxSize) (key : K) : Nat → Nat → R Nat
  | 0, _ => .error .diverge
  | fuel + 1, referenceNode => do
    let refValue := (← t.getNode referenceNode).key
    let descend (target : Nat) : R Nat := do
      if target = SENTINEL then return SENTINEL
      searchLoop t key fuel target
    if key < refValue then descend (← t.getField referenceNode LEFT)
    else if PartialGt.gt key refValue then descend (← t.getField referenceNode RIGHT)
    else return referenceNode

/-- `get_addr` (avl_tree.rs:541-560). -/
def getAddr [LT K] [DecidableLT K] [PartialGt K] (t : AVLTree K V maxSize) (key : K) : R Nat := do
  if t.root = SENTINEL then return SENTINEL
  t.searchLoop key (maxSize + 1) t.root

/-- `get` (avl_tree.rs:129-148). -/
def get [LT K] [DecidableLT K] [PartialGt K] (t : AVLTree K V maxSize) (key : K) : R (Option V) := do
  if t.root = SENTINEL then return none
  let i ← t.searchLoop key (maxSize + 1) t.root
  if i = SENTINEL then return none
  return some (← t.getNode i).value

/-- `contains` (avl_tree.rs:125-127). -/
def contains [LT K] [DecidableLT K] [PartialGt K] (t : AVLTree K V maxSize) (key : K) : R Bool := do
  return (← t.get key).isSome

/-- `get_mut` (avl_tree.rs:150-169); the `&mut V` is the node index, checked to be in bounds as
`get_node_mut` does. -/
def getMut [LT K] [DecidableLT K] [PartialGt K] (t : AVLTree K V maxSize) (key : K) : R (Option Nat) := do
  if t.root = SENTINEL then return none
  let i ← t.searchLoop key (maxSize + 1) t.root
  if i = SENTINEL then return none
  let _ ← t.getNode i
  return some i

/-- `index` (avl_tree.rs:834-836). -/
def index [LT K] [DecidableLT K] [PartialGt K] (t : AVLTree K V maxSize) (key : K) : R V := do
  unwrap (← t.get key)

/-- `index_mut` (avl_tree.rs:845-847). -/
def indexMut [LT K] [DecidableLT K] [PartialGt K] (t : AVLTree K V maxSize) (key : K) : R Nat := do
  unwrap (← t.getMut key)

/-- The loop of `find_min_index` (avl_tree.rs:567-569). -/
def minLoop (t : AVLTree K V maxSize) : Nat → Nat → R Nat
  | 0, _ => .error .diverge
  | fuel + 1, node => do
    let l ← t.getField node LEFT
    if l ≠ SENTINEL then minLoop t fuel l else return node

/-- The loop of `find_max_index` (avl_tree.rs:578-580). -/
def maxLoop (t : AVLTree K V maxSize) : Nat → Nat → R Nat
  | 0, _ => .error .diverge
  | fuel + 1, node => do
    let r ← t.getField node RIGHT
    if r ≠ SENTINEL then maxLoop t fuel r else return node

/-- `find_min_index` / `get_min_index` (avl_tree.rs:562-571, 198-200). -/
def getMinIndex (t : AVLTree K V maxSize) : R Nat := do
  if t.root = SENTINEL then return SENTINEL
  t.minLoop (maxSize + 1) t.root

/-- `find_max_index` / `get_max_index` (avl_tree.rs:573-582, 202-204). -/
def getMaxIndex (t : AVLTree K V maxSize) : R Nat := do
  if t.root = SENTINEL then return SENTINEL
  t.maxLoop (maxSize + 1) t.root

/-- `get_min` (avl_tree.rs:206-214). -/
def getMin (t : AVLTree K V maxSize) : R (Option (K × V)) := do
  let i ← t.getMinIndex
  if i = SENTINEL then return none
  let node ← t.getNode i
  return some (node.key, node.value)

/-- `get_max` (avl_tree.rs:216-224). -/
def getMax (t : AVLTree K V maxSize) : R (Option (K × V)) := do
  let i ← t.getMaxIndex
  if i = SENTINEL then return none
  let node ← t.getNode i
  return some (node.key, node.value)

/-- `find_min` (avl_tree.rs:584-591). -/
def findMin (t : AVLTree K V maxSize) : R (Option V) := do
  let i ← t.getMinIndex
  if i = SENTINEL then return none
  return some (← t.getNode i).value

/-- `find_max` (avl_tree.rs:593-600). -/
def findMax (t : AVLTree K V maxSize) : R (Option V) := do
  let i ← t.getMaxIndex
  if i = SENTINEL then return none
  return some (← t.getNode i).value

/-- Cursor state of `AVLTreeIterator` / `AVLTreeIteratorMut` (avl_tree.rs:658-672,
732-746). The top of a stack is the head of the list. -/
structure Iter where
  fwdStack : List Nat
  fwdPtr : Nat
  fwdNode : Option Nat
  revStack : List Nat
  revPtr : Nat
  revNode : Option Nat
  terminated : Bool
deriving DecidableEq, Repr

/-- `_iter` / `_iter_mut` (avl_tree.rs:602-627). -/
def iter (t : AVLTree K V maxSize) : Iter :=
  { fwdStack := [], fwdPtr := t.root, fwdNode := none,
    revStack := [], revPtr := t.root, revNode := none, terminated := false }

/-- `next` of both iterators up to the fabrication of the reference (avl_tree.rs:683-701,
757-785): yields the node index. -/
def Iter.nextLoop (t : AVLTree K V maxSize) : Nat → Iter → R (Iter × Option Nat)
  | 0, _ => .error .diverge
  | fuel + 1, it => do
    if it.terminated then return (it, none)
    if it.fwdPtr ≠ SENTINEL then do
      let l ← t.getField it.fwdPtr LEFT
      Iter.nextLoop t fuel { it with fwdStack := it.fwdPtr :: it.fwdStack, fwdPtr := l }
    else match it.fwdStack with
      | [] => return (it, none)
      | current :: stack => do
        let it := { it with fwdStack := stack }
        if some current = it.revNode then return ({ it with terminated := true }, none)
        let r ← t.getField current RIGHT
        return ({ it with fwdNode := some current, fwdPtr := r }, some current)

/-- `next_back` likewise (avl_tree.rs:711-729, 795-823). -/
def Iter.nextBackLoop (t : AVLTree K V maxSize) : Nat → Iter → R (Iter × Option Nat)
  | 0, _ => .error .diverge
  | fuel + 1, it => do
    if it.terminated then return (it, none)
    if it.revPtr ≠ SENTINEL then do
      let r ← t.getField it.revPtr RIGHT
      Iter.nextBackLoop t fuel { it with revStack := it.revPtr :: it.revStack, revPtr := r }
    else match it.revStack with
      | [] => return (it, none)
      | current :: stack => do
        let it := { it with revStack := stack }
        if some current = it.fwdNode then return ({ it with terminated := true }, none)
        let l ← t.getField current LEFT
        return ({ it with revNode := some current, revPtr := l }, some current)

/-- The item of the immutable iterator (avl_tree.rs:695-697, 723-725). -/
def Iter.item (t : AVLTree K V maxSize) (p : Iter × Option Nat) : R (Iter × Option (K × V)) :=
  match p with
  | (it, none) => .ok (it, none)
  | (it, some i) => do
    let node ← t.getNode i
    return (it, some (node.key, node.value))

/-- `AVLTreeIterator::next` (avl_tree.rs:683-701). -/
def Iter.next (t : AVLTree K V maxSize) (it : Iter) : R (Iter × Option (K × V)) := do
  Iter.item t (← Iter.nextLoop t (maxSize + 2) it)

/-- `AVLTreeIterator::next_back` (avl_tree.rs:711-729). -/
def Iter.nextBack (t : AVLTree K V maxSize) (it : Iter) : R (Iter × Option (K × V)) := do
  Iter.item t (← Iter.nextBackLoop t (maxSize + 2) it)

/-- `AVLTreeIteratorMut::next` (avl_tree.rs:757-785). The `&mut V` fabricated with
`as_mut_ptr().add(ptr - 1)` is the node index; no bounds check, as in the code. -/
def Iter.nextMut (t : AVLTree K V maxSize) (it : Iter) : R (Iter × Option Nat) :=
  Iter.nextLoop t (maxSize + 2) it

/-- `AVLTreeIteratorMut::next_back` (avl_tree.rs:795-823). -/
def Iter.nextBackMut (t : AVLTree K V maxSize) (it : Iter) : R (Iter × Option Nat) :=
  Iter.nextBackLoop t (maxSize + 2) it

end AVLTree
end Sokoban
