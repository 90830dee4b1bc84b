import Verif.Model.Alloc

/-
Model of `src/red_black_tree.rs`.

Directions and colours are the numbers used in the code (`Field::Left` = 0, `Field::Right` = 1,
`Color::Black` = 0, `Color::Red` = 1). `[Ord K]` is Rust's `K: Ord` (`key.cmp(..)` = `compare`).
Loops are recursions on `fuel`; running out is `Panic.diverge`. Not modelled: the `println!` of
`is_valid_red_black_tree`, `_padding`.
-/
namespace Sokoban

/-- `RBNode` (red_black_tree.rs:33-41). -/
structure RBNode (K V : Type) where
  key : K
  value : V

/-- `RedBlackTree` (red_black_tree.rs:66-76). -/
structure RedBlackTree (K V : Type) (maxSize : Nat) where
  root : Nat
  allocator : NodeAllocator (RBNode K V) maxSize 4

namespace RedBlackTree
variable {K V : Type} {maxSize : Nat}

/-- `Field::Left as u32` (node_allocator.rs:12). -/
def LEFT : Nat := 0
/-- `Field::Right as u32` (node_allocator.rs:13). -/
def RIGHT : Nat := 1
/-- `Field::Parent as u32` (node_allocator.rs:14). -/
def PARENT : Nat := 2
/-- `COLOR` (red_black_tree.rs:19; node_allocator.rs:15). -/
def COLOR : Nat := 3
/-- `Color::Black as u32` (red_black_tree.rs:23). -/
def BLACK : Nat := 0
/-- `Color::Red as u32` (red_black_tree.rs:24). -/
def RED : Nat := 1

/-- `opposite` (red_black_tree.rs:28-31). Only ever applied to 0 and 1, so the `u32` subtraction
does not overflow. -/
def opposite (dir : Nat) : Nat := 1 - dir

/-- `RedBlackTree::default` / `new` (red_black_tree.rs:107-114, 316-318) without the layout
assertions; `z` is `RBNode::default()`. -/
def new (z : RBNode K V) : RedBlackTree K V maxSize :=
  { root := SENTINEL, allocator := NodeAllocator.new z }

/-- A zero-filled buffer viewed as a tree. -/
def zeroed (z : RBNode K V) : RedBlackTree K V maxSize :=
  { root := 0, allocator := NodeAllocator.zeroed z }

/-- `RedBlackTree::initialize` (red_black_tree.rs:321-323); `new_from_slice` (123-128) is this on
the tree found in the buffer. -/
def initialise (t : RedBlackTree K V maxSize) : R (RedBlackTree K V maxSize) := do
  return { t with allocator := ← t.allocator.initialise }

/-- `get_node` (red_black_tree.rs:325-327). -/
def getNode (t : RedBlackTree K V maxSize) (node : Nat) : R (RBNode K V) :=
  t.allocator.getValue node

/-- `get_node_mut(node).value = value` (red_black_tree.rs:329-331, 488). -/
def setNodeValue (t : RedBlackTree K V maxSize) (node : Nat) (value : V) :
    R (RedBlackTree K V maxSize) := do
  let n ← t.allocator.getValue node
  return { t with allocator := ← t.allocator.setValue node { n with value := value } }

/-- `*get_node_mut(node) = n` (red_black_tree.rs:329-331): the whole node, key included, written through the
reference that the function hands out. -/
def setNode (t : RedBlackTree K V maxSize) (node : Nat) (n : RBNode K V) : R (RedBlackTree K V maxSize) := do
  return { t with allocator := ← t.allocator.setValue node n }

/-- `_color_red` (red_black_tree.rs:334-338). -/
def colorRed (t : RedBlackTree K V maxSize) (node : Nat) : R (RedBlackTree K V maxSize) := do
  if node ≠ SENTINEL then
    return { t with allocator := ← t.allocator.setRegister node RED COLOR }
  else return t

/-- `_color_black` (red_black_tree.rs:341-344). -/
def colorBlack (t : RedBlackTree K V maxSize) (node : Nat) : R (RedBlackTree K V maxSize) := do
  return { t with allocator := ← t.allocator.setRegister node BLACK COLOR }

/-- `_color_node` (red_black_tree.rs:347-349). -/
def colorNode (t : RedBlackTree K V maxSize) (node color : Nat) : R (RedBlackTree K V maxSize) := do
  return { t with allocator := ← t.allocator.setRegister node color COLOR }

/-- `is_red` (red_black_tree.rs:352-354). -/
def isRed (t : RedBlackTree K V maxSize) (node : Nat) : R Bool := do
  return (← t.allocator.getRegister node COLOR) = RED

/-- `is_black` (red_black_tree.rs:357-359). -/
def isBlack (t : RedBlackTree K V maxSize) (node : Nat) : R Bool := do
  return (← t.allocator.getRegister node COLOR) = BLACK

/-- `get_child` (red_black_tree.rs:362-364). -/
def getChild (t : RedBlackTree K V maxSize) (node dir : Nat) : R Nat :=
  t.allocator.getRegister node dir

/-- `get_left` (red_black_tree.rs:385-387). -/
def getLeft (t : RedBlackTree K V maxSize) (node : Nat) : R Nat :=
  t.allocator.getRegister node LEFT

/-- `get_right` (red_black_tree.rs:390-392). -/
def getRight (t : RedBlackTree K V maxSize) (node : Nat) : R Nat :=
  t.allocator.getRegister node RIGHT

/-- `is_leaf` (red_black_tree.rs:367-369). -/
def isLeaf (t : RedBlackTree K V maxSize) (node : Nat) : R Bool := do
  if (← t.getLeft node) = SENTINEL then return (← t.getRight node) = SENTINEL
  else return false

/-- `is_root` (red_black_tree.rs:372-374). -/
def isRoot (t : RedBlackTree K V maxSize) (node : Nat) : Bool := t.root = node

/-- `get_dir` (red_black_tree.rs:376-382). -/
def getDir (t : RedBlackTree K V maxSize) (node dir : Nat) : R Nat :=
  if dir = LEFT then t.getLeft node else t.getRight node

/-- `get_color` (red_black_tree.rs:395-397). -/
def getColor (t : RedBlackTree K V maxSize) (node : Nat) : R Nat :=
  t.allocator.getRegister node COLOR

/-- `get_parent` (red_black_tree.rs:400-402). -/
def getParent (t : RedBlackTree K V maxSize) (node : Nat) : R Nat :=
  t.allocator.getRegister node PARENT

/-- `_remove_allocator_node` (red_black_tree.rs:416-424). -/
def removeAllocatorNode (t : RedBlackTree K V maxSize) (node : Nat) :
    R (RedBlackTree K V maxSize) := do
  let a ← t.allocator.clearRegister node PARENT
  let a ← a.clearRegister node COLOR
  let a ← a.clearRegister node LEFT
  let a ← a.clearRegister node RIGHT
  let (a, _) ← a.removeNode node
  return { t with allocator := a }

/-- `_connect` (red_black_tree.rs:427-430). -/
def connect (t : RedBlackTree K V maxSize) (parent child dir : Nat) :
    R (RedBlackTree K V maxSize) := do
  return { t with allocator := ← t.allocator.connect parent child dir PARENT }

/-- `_child_dir` (red_black_tree.rs:433-443). -/
def childDir (t : RedBlackTree K V maxSize) (parent child : Nat) : R Nat := do
  let left ← t.getLeft parent
  let right ← t.getRight parent
  if child = left then return LEFT
  else if child = right then return RIGHT
  else throw .notConnected

/-- `_rotate_dir` (red_black_tree.rs:445-472). -/
def rotateDir (t : RedBlackTree K V maxSize) (parentIndex dir : Nat) :
    R (RedBlackTree K V maxSize × Option Nat) := do
  let grandparentIndex ← t.getParent parentIndex
  if ¬ (dir = LEFT ∨ dir = RIGHT) then return (t, none)
  let siblingIndex ← t.getChild parentIndex (opposite dir)
  if siblingIndex = SENTINEL then return (t, none)
  let childIndex ← t.getChild siblingIndex dir
  let t ← t.connect siblingIndex parentIndex dir
  let t ← t.connect parentIndex childIndex (opposite dir)
  if grandparentIndex ≠ SENTINEL then do
    let d ← t.childDir grandparentIndex parentIndex
    let t ← t.connect grandparentIndex siblingIndex d
    return (t, some siblingIndex)
  else do
    let a ← t.allocator.clearRegister siblingIndex PARENT
    return ({ root := siblingIndex, allocator := a }, some siblingIndex)

/-- The loop of `_fix_insert` (red_black_tree.rs:511-536). -/
def fixInsertLoop (t : RedBlackTree K V maxSize) : Nat → Nat → R (RedBlackTree K V maxSize)
  | 0, _ => .error .diverge
  | fuel + 1, node => do
    let parent ← t.getParent node
    if ← t.isRed parent then do
      let grandparent ← t.getParent parent
      if grandparent = SENTINEL then do
        rassert (t.isRoot parent)
        return t
      let dir ← t.childDir grandparent parent
      let uncle ← t.getChild grandparent (opposite dir)
      if ← t.isRed uncle then do
        let t ← t.colorBlack uncle
        let t ← t.colorBlack parent
        let t ← t.colorRed grandparent
        fixInsertLoop t fuel grandparent
      else do
        let (t, node) ← (if (← t.childDir parent node) = opposite dir then do
            let (t, _) ← t.rotateDir parent dir
            pure (t, parent)
          else pure (t, node))
        let parent ← t.getParent node
        let grandparent ← t.getParent parent
        let t ← t.colorBlack parent
        let t ← t.colorRed grandparent
        let (t, _) ← t.rotateDir grandparent (opposite dir)
        fixInsertLoop t fuel node
    else return t

/-- `_fix_insert` (red_black_tree.rs:510-539). `lim`, here and in the functions below, bounds the iterations of every
loop; the Rust code has no such bound, and C73 shows that it is never reached. -/
def fixInsert (t : RedBlackTree K V maxSize) (node : Nat) (lim : Nat := maxSize + 2) : R (RedBlackTree K V maxSize) := do
  let t ← t.fixInsertLoop lim node
  t.colorBlack t.root

/-- `len` / `size` (red_black_tree.rs:167-173). -/
def len (t : RedBlackTree K V maxSize) : Nat := t.allocator.size

/-- `capacity` (red_black_tree.rs:175-177). -/
def capacity (_ : RedBlackTree K V maxSize) : Nat := maxSize

/-- `is_empty` (node_allocator.rs:43-45). -/
def isEmpty (t : RedBlackTree K V maxSize) : Bool := t.len = 0

/-- The loop of `_insert` (red_black_tree.rs:482-507). -/
def insertLoop [Ord K] (t : RedBlackTree K V maxSize) (key : K) (value : V) :
    Nat → Nat → (lim : Nat := maxSize + 2) → R (RedBlackTree K V maxSize × Option Nat)
  | 0, _, _ => .error .diverge
  | fuel + 1, parentNodeIndex, lim => do
    let currKey := (← t.getNode parentNodeIndex).key
    let descend (target dir : Nat) : R (RedBlackTree K V maxSize × Option Nat) := do
      if target = SENTINEL then do
        if t.len ≥ t.capacity then return (t, none)
        let (a, nodeIndex) ← t.allocator.addNode { key := key, value := value }
        let t := { t with allocator := a }
        let t ← t.colorRed nodeIndex
        let t ← t.connect parentNodeIndex nodeIndex dir
        let grandparent ← t.getParent parentNodeIndex
        let t ← (if grandparent ≠ SENTINEL then t.fixInsert nodeIndex lim else pure t)
        return (t, some nodeIndex)
      insertLoop t key value fuel target lim
    match compare key currKey with
    | .lt => descend (← t.getLeft parentNodeIndex) LEFT
    | .gt => descend (← t.getRight parentNodeIndex) RIGHT
    | .eq => do
      let t ← t.setNodeValue parentNodeIndex value
      return (t, some parentNodeIndex)

/-- `_insert` (red_black_tree.rs:474-508). -/
def insert [Ord K] (t : RedBlackTree K V maxSize) (key : K) (value : V) (lim : Nat := maxSize + 2) :
    R (RedBlackTree K V maxSize × Option Nat) := do
  if t.root = SENTINEL then do
    let (a, nodeIndex) ← t.allocator.addNode { key := key, value := value }
    return ({ root := nodeIndex, allocator := a }, some nodeIndex)
  t.insertLoop key value lim t.root lim

/-- `_transplant` (red_black_tree.rs:677-687). -/
def transplant (t : RedBlackTree K V maxSize) (target source : Nat) :
    R (RedBlackTree K V maxSize) := do
  let parent ← t.getParent target
  if parent = SENTINEL then do
    let a ← t.allocator.setRegister source SENTINEL PARENT
    return { root := source, allocator := a }
  let dir ← t.childDir parent target
  t.connect parent source dir

/-- The loop of `_find_min` (red_black_tree.rs:710-712). -/
def findMin (t : RedBlackTree K V maxSize) : Nat → Nat → R Nat
  | 0, _ => .error .diverge
  | fuel + 1, node => do
    let l ← t.getLeft node
    if l ≠ SENTINEL then findMin t fuel l else return node

/-- The loop of `_find_max` (red_black_tree.rs:718-720). -/
def findMax (t : RedBlackTree K V maxSize) : Nat → Nat → R Nat
  | 0, _ => .error .diverge
  | fuel + 1, node => do
    let r ← t.getRight node
    if r ≠ SENTINEL then findMax t fuel r else return node

/-- The loop of `_fix_remove` and the final recolouring (red_black_tree.rs:641-671). -/
def fixRemoveLoop (t : RedBlackTree K V maxSize) : Nat → Nat → Nat → R (RedBlackTree K V maxSize)
  | 0, _, _ => .error .diverge
  | fuel + 1, parent, dir => do
    let sibling ← t.getChild parent (opposite dir)
    let (t, sibling) ← (if ← t.isRed sibling then do
        let t ← t.colorBlack sibling
        let t ← t.colorRed parent
        let (t, _) ← t.rotateDir parent dir
        let sibling ← t.getDir parent (opposite dir)
        pure (t, sibling)
      else pure (t, sibling))
    let bothBlack ← (if ← t.isBlack (← t.getLeft sibling) then do t.isBlack (← t.getRight sibling)
      else pure false)
    let (t, nodeIndex) ← (if bothBlack then do
        let t ← t.colorRed sibling
        pure (t, parent)
      else do
        let (t, sibling) ← (if ← t.isBlack (← t.getDir sibling (opposite dir)) then do
            let t ← t.colorBlack (← t.getDir sibling dir)
            let t ← t.colorRed sibling
            let (t, _) ← t.rotateDir sibling (opposite dir)
            let sibling ← t.getDir parent (opposite dir)
            pure (t, sibling)
          else pure (t, sibling))
        let t ← t.colorNode sibling (← t.getColor parent)
        let t ← t.colorBlack parent
        let t ← t.colorBlack (← t.getDir sibling (opposite dir))
        let (t, _) ← t.rotateDir parent dir
        pure (t, t.root))
    let stop ← (if t.isRoot nodeIndex then pure true else t.isRed nodeIndex)
    if stop then t.colorBlack nodeIndex
    else do
      let parent ← t.getParent nodeIndex
      let dir ← t.childDir parent nodeIndex
      fixRemoveLoop t fuel parent dir

/-- `_fix_remove` (red_black_tree.rs:635-672). The argument of `unwrap_or` is evaluated in any
case. -/
def fixRemove (t : RedBlackTree K V maxSize) (nodeIndex : Nat) (parentAndDir : Option (Nat × Nat))
    (lim : Nat := maxSize + 2) : R (RedBlackTree K V maxSize) := do
  let parent ← t.getParent nodeIndex
  let dir ← t.childDir parent nodeIndex
  let (parent, dir) := parentAndDir.getD (parent, dir)
  t.fixRemoveLoop lim parent dir

/-- The case of two children in `_remove_tree_node` (red_black_tree.rs:589-621): new tree, colour
of the node that replaces, pivot, parent and direction. -/
def removeTwoChildren (t : RedBlackTree K V maxSize) (nodeIndex left : Nat) (lim : Nat := maxSize + 2) :
    R (RedBlackTree K V maxSize × Bool × Nat × Option (Nat × Nat)) := do
  let maxLeft ← t.findMax lim left
  let maxLeftParent ← t.getParent maxLeft
  let maxLeftChild ← t.getLeft maxLeft
  let isBlack ← t.isBlack maxLeft
  let (t, parentAndDir) ← (if (← t.getParent maxLeft) ≠ nodeIndex then do
      let t ← t.transplant maxLeft maxLeftChild
      let t ← t.connect maxLeft (← t.getLeft nodeIndex) LEFT
      pure (t, if maxLeftChild = SENTINEL then some (maxLeftParent, RIGHT) else none)
    else if maxLeftChild = SENTINEL then do
      rassert (← t.isLeaf maxLeft)
      pure (t, some (maxLeft, LEFT))
    else pure (t, none))
  let t ← t.transplant nodeIndex maxLeft
  let t ← t.connect maxLeft (← t.getRight nodeIndex) RIGHT
  let t ← t.colorNode maxLeft (← t.getColor nodeIndex)
  return (t, isBlack, maxLeftChild, parentAndDir)

/-- `_remove_tree_node` (red_black_tree.rs:566-633). -/
def removeTreeNode (t : RedBlackTree K V maxSize) (nodeIndex : Nat) (lim : Nat := maxSize + 2) :
    R (RedBlackTree K V maxSize) := do
  let isBlack ← t.isBlack nodeIndex
  let left ← t.getLeft nodeIndex
  let right ← t.getRight nodeIndex
  let (t, isBlack, pivot, parentAndDir) ← (if ← t.isLeaf nodeIndex then do
      if ¬ t.isRoot nodeIndex then do
        let parent ← t.getParent nodeIndex
        let dir ← t.childDir parent nodeIndex
        let t ← t.connect parent SENTINEL dir
        pure (t, isBlack, SENTINEL, some (parent, dir))
      else pure ({ t with root := SENTINEL }, isBlack, SENTINEL, none)
    else if left = SENTINEL then do
      let t ← t.transplant nodeIndex right
      pure (t, isBlack, right, none)
    else if right = SENTINEL then do
      let t ← t.transplant nodeIndex left
      pure (t, isBlack, left, none)
    else t.removeTwoChildren nodeIndex left lim)
  let t ← t.removeAllocatorNode nodeIndex
  if isBlack then
    if t.isRoot pivot then t.colorBlack pivot
    else t.fixRemove pivot parentAndDir lim
  else return t

/-- The loop of `_remove` (red_black_tree.rs:546-563). -/
def removeLoop [Ord K] (t : RedBlackTree K V maxSize) (key : K) :
    Nat → Nat → (lim : Nat := maxSize + 2) → R (RedBlackTree K V maxSize × Option V)
  | 0, _, _ => .error .diverge
  | fuel + 1, curr, lim => do
    let n ← t.getNode curr
    let descend (target : Nat) : R (RedBlackTree K V maxSize × Option V) := do
      if target = SENTINEL then return (t, none)
      removeLoop t key fuel target lim
    match compare key n.key with
    | .lt => descend (← t.getLeft curr)
    | .gt => descend (← t.getRight curr)
    | .eq => do
      let t ← t.removeTreeNode curr lim
      return (t, some n.value)

/-- `_remove` (red_black_tree.rs:541-564). -/
def remove [Ord K] (t : RedBlackTree K V maxSize) (key : K) (lim : Nat := maxSize + 2) :
    R (RedBlackTree K V maxSize × Option V) := do
  if t.root = SENTINEL then return (t, none)
  t.removeLoop key lim t.root lim

/-- `remove_root` (red_black_tree.rs:404-414). -/
def removeRoot (t : RedBlackTree K V maxSize) (lim : Nat := maxSize + 2) :
    R (RedBlackTree K V maxSize × Option (RBNode K V)) := do
  if t.root = SENTINEL then return (t, none)
  let rootNode ← t.getNode t.root
  let t ← t.removeTreeNode t.root lim
  return (t, some rootNode)

/-- The loop of `get_addr` (red_black_tree.rs:694-705). -/
def getAddrLoop [Ord K] (t : RedBlackTree K V maxSize) (key : K) : Nat → Nat → R Nat
  | 0, _ => .error .diverge
  | fuel + 1, nodeIndex => do
    let currKey := (← t.getNode nodeIndex).key
    let descend (target : Nat) : R Nat := do
      if target = SENTINEL then return SENTINEL
      getAddrLoop t key fuel target
    match compare key currKey with
    | .lt => descend (← t.getLeft nodeIndex)
    | .gt => descend (← t.getRight nodeIndex)
    | .eq => return nodeIndex

/-- `get_addr` (red_black_tree.rs:689-706). -/
def getAddr [Ord K] (t : RedBlackTree K V maxSize) (key : K) : R Nat := do
  if t.root = SENTINEL then return SENTINEL
  t.getAddrLoop key (maxSize + 1) t.root

/-- `get` (red_black_tree.rs:149-156). -/
def get [Ord K] (t : RedBlackTree K V maxSize) (key : K) : R (Option V) := do
  let nodeIndex ← t.getAddr key
  if nodeIndex = SENTINEL then return none
  return some (← t.getNode nodeIndex).value

/-- `contains` (red_black_tree.rs:145-147). -/
def contains [Ord K] (t : RedBlackTree K V maxSize) (key : K) : R Bool := do
  return (← t.get key).isSome

/-- `get_mut` (red_black_tree.rs:158-165); the `&mut V` is the node index, checked to be in
bounds as `get_node_mut` does. -/
def getMut [Ord K] (t : RedBlackTree K V maxSize) (key : K) : R (Option Nat) := do
  let nodeIndex ← t.getAddr key
  if nodeIndex = SENTINEL then return none
  let _ ← t.getNode nodeIndex
  return some nodeIndex

/-- `index` (red_black_tree.rs:956-958). -/
def index [Ord K] (t : RedBlackTree K V maxSize) (key : K) : R V := do
  unwrap (← t.get key)

/-- `index_mut` (red_black_tree.rs:967-969). -/
def indexMut [Ord K] (t : RedBlackTree K V maxSize) (key : K) : R Nat := do
  unwrap (← t.getMut key)

/-- `get_min_index` (red_black_tree.rs:194-196). -/
def getMinIndex (t : RedBlackTree K V maxSize) : R Nat := t.findMin (maxSize + 1) t.root

/-- `get_max_index` (red_black_tree.rs:198-200). -/
def getMaxIndex (t : RedBlackTree K V maxSize) : R Nat := t.findMax (maxSize + 1) t.root

/-- `get_min` (red_black_tree.rs:202-210). -/
def getMin (t : RedBlackTree K V maxSize) : R (Option (K × V)) := do
  let i ← t.getMinIndex
  if i = SENTINEL then return none
  let node ← t.getNode i
  return some (node.key, node.value)

/-- `get_max` (red_black_tree.rs:212-220). -/
def getMax (t : RedBlackTree K V maxSize) : R (Option (K × V)) := do
  let i ← t.getMaxIndex
  if i = SENTINEL then return none
  let node ← t.getNode i
  return some (node.key, node.value)

/-- The test of `is_valid_red_black_tree` on one child (red_black_tree.rs:294-299): is there a red child
of a red node? The operands are evaluated only as far as needed. -/
def redPair (t : RedBlackTree K V maxSize) (red : Bool) (child : Nat) : R Bool :=
  if child ≠ SENTINEL ∧ red then t.isRed child else return false

/-- The loop of `is_valid_red_black_tree` (red_black_tree.rs:286-308): `none` is `return false`,
`some counts` the `black_count` vector at the end. The stack's top is the list's head. -/
def validLoop (t : RedBlackTree K V maxSize) : Nat → List (Nat × Nat) → List Nat → R (Option (List Nat))
  | 0, _, _ => .error .diverge
  | _ + 1, [], counts => .ok (some counts)
  | fuel + 1, (nodeIndex, count) :: stack, counts => do
    let count := count + (if ← t.isBlack nodeIndex then 1 else 0)
    if ← t.isLeaf nodeIndex then validLoop t fuel stack (counts ++ [count])
    else do
      let red ← t.isRed nodeIndex
      let left ← t.getLeft nodeIndex
      let right ← t.getRight nodeIndex
      if ← t.redPair red left then return none
      let stack := if left = SENTINEL then stack else (left, count) :: stack
      if ← t.redPair red right then return none
      let stack := if right = SENTINEL then stack else (right, count) :: stack
      validLoop t fuel stack counts

/-- `is_valid_red_black_tree` (red_black_tree.rs:273-314). -/
def isValid (t : RedBlackTree K V maxSize) : R Bool := do
  if t.len = 0 then return true
  if ← t.isRed t.root then return false
  match ← t.validLoop (maxSize + 1) [(t.root, 0)] [] with
  | none => return false
  | some counts => return counts.all (fun x => some x == counts.head?)

/-- The loop of `pretty_print` (red_black_tree.rs:236-262): the string built so far. The stack's top is the
list's head; its entries are `(node, padding, pointer)`. `debug` is the formatter `{:?}` of the key. -/
def prettyLoop (debug : K → String) (t : RedBlackTree K V maxSize) :
    Nat → List (Nat × String × String) → String → R String
  | 0, _, _ => .error .diverge
  | _ + 1, [], s => .ok s
  | fuel + 1, (node, padding, pointer) :: stack, s => do
    if node = SENTINEL then prettyLoop debug t fuel stack s
    else do
      let key := (← t.getNode node).key
      let s := s ++ padding ++ pointer
      let s := if ← t.isRed node then s ++ ("\u001b[31m" ++ debug key ++ "\u001b[0m") else s ++ debug key
      let s := s ++ "\n"
      let padding := padding ++ "│  "
      let leftPointer := if (← t.getRight node) ≠ SENTINEL then "├──" else "└──"
      prettyLoop debug t fuel
        ((← t.getLeft node, padding, leftPointer) :: (← t.getRight node, padding, "└──") :: stack) s

/-- `pretty_print` (red_black_tree.rs:229-264): the text written to the standard output. -/
def prettyPrint (debug : K → String) (t : RedBlackTree K V maxSize) : R String := do
  if t.len = 0 then return ""
  let s ← t.prettyLoop debug (2 * maxSize + 2) [(t.root, "", "")] ""
  return s ++ "\n"

/-- Cursor state of `RedBlackTreeIterator` / `RedBlackTreeIteratorMut` (red_black_tree.rs:780-794,
854-868). The top of a stack is the head of the list. -/
structure Iter where
  fwdStack : List Nat
  fwdPtr : Nat
  fwdNode : Option Nat
  revStack : List Nat
  revPtr : Nat
  revNode : Option Nat
  terminated : Bool
deriving DecidableEq, Repr

/-- `_iter` / `_iter_mut` (red_black_tree.rs:724-749). -/
def iter (t : RedBlackTree K V maxSize) : Iter :=
  { fwdStack := [], fwdPtr := t.root, fwdNode := none,
    revStack := [], revPtr := t.root, revNode := none, terminated := false }

/-- `next` of both iterators up to the fabrication of the reference (red_black_tree.rs:805-823,
879-907): yields the node index. -/
def Iter.nextLoop (t : RedBlackTree K V maxSize) : Nat → Iter → R (Iter × Option Nat)
  | 0, _ => .error .diverge
  | fuel + 1, it => do
    if it.terminated then return (it, none)
    if it.fwdPtr ≠ SENTINEL then do
      let l ← t.getLeft it.fwdPtr
      Iter.nextLoop t fuel { it with fwdStack := it.fwdPtr :: it.fwdStack, fwdPtr := l }
    else match it.fwdStack with
      | [] => return (it, none)
      | current :: stack => do
        let it := { it with fwdStack := stack }
        if some current = it.revNode then return ({ it with terminated := true }, none)
        let r ← t.getRight current
        return ({ it with fwdNode := some current, fwdPtr := r }, some current)

/-- `next_back` likewise (red_black_tree.rs:833-851, 917-945). -/
def Iter.nextBackLoop (t : RedBlackTree K V maxSize) : Nat → Iter → R (Iter × Option Nat)
  | 0, _ => .error .diverge
  | fuel + 1, it => do
    if it.terminated then return (it, none)
    if it.revPtr ≠ SENTINEL then do
      let r ← t.getRight it.revPtr
      Iter.nextBackLoop t fuel { it with revStack := it.revPtr :: it.revStack, revPtr := r }
    else match it.revStack with
      | [] => return (it, none)
      | current :: stack => do
        let it := { it with revStack := stack }
        if some current = it.fwdNode then return ({ it with terminated := true }, none)
        let l ← t.getLeft current
        return ({ it with revNode := some current, revPtr := l }, some current)

/-- The item of the immutable iterator (red_black_tree.rs:817-819, 845-847). -/
def Iter.item (t : RedBlackTree K V maxSize) (p : Iter × Option Nat) : R (Iter × Option (K × V)) :=
  match p with
  | (it, none) => .ok (it, none)
  | (it, some i) => do
    let node ← t.getNode i
    return (it, some (node.key, node.value))

/-- `RedBlackTreeIterator::next` (red_black_tree.rs:805-823). -/
def Iter.next (t : RedBlackTree K V maxSize) (it : Iter) : R (Iter × Option (K × V)) := do
  Iter.item t (← Iter.nextLoop t (maxSize + 2) it)

/-- `RedBlackTreeIterator::next_back` (red_black_tree.rs:833-851). -/
def Iter.nextBack (t : RedBlackTree K V maxSize) (it : Iter) : R (Iter × Option (K × V)) := do
  Iter.item t (← Iter.nextBackLoop t (maxSize + 2) it)

/-- `RedBlackTreeIteratorMut::next` (red_black_tree.rs:879-907). The `&mut V` fabricated with
`as_mut_ptr().add(ptr - 1)` is the node index; no bounds check, as in the code. -/
def Iter.nextMut (t : RedBlackTree K V maxSize) (it : Iter) : R (Iter × Option Nat) :=
  Iter.nextLoop t (maxSize + 2) it

/-- `RedBlackTreeIteratorMut::next_back` (red_black_tree.rs:917-945). -/
def Iter.nextBackMut (t : RedBlackTree K V maxSize) (it : Iter) : R (Iter × Option Nat) :=
  Iter.nextBackLoop t (maxSize + 2) it

end RedBlackTree
end Sokoban
