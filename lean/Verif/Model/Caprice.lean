import Verif.Model.RedBlack
import Verif.Model.AVL
import Verif.Model.HashTable

/-
Calls into code of the key type. The trees compare keys (`Ord::cmp`, `PartialOrd::lt`, `PartialOrd::gt`), the hash
table hashes them and tests them for equality (`Hash::hash`, `PartialEq::eq`). All of these are written by the user of
the crate and may panic or answer differently every time.

The functions that search for a key are written here once more, on the memory behind `&mut self`, with an oracle in
the place of the code of the key type: `none` is a panic of that code. The oracle is asked with the number of the
iteration and the two keys, so that the same comparison may be answered in several ways. Such a panic unwinds through
the function and leaves the memory as it is at that point. What follows the search contains no code of the key type
and is taken over from the other model files as one step. (The keys of `Critbit` are `u128`: no user code.)
-/
namespace Sokoban.Caprice

/-- Why a call ends early: a panic raised by the crate itself (or an endless loop), or one raised in code of the key
type. -/
inductive Stop where
  | crate (p : Panic)
  | user
deriving DecidableEq

/-- A method with `&mut self` on memory `σ`; the memory is there also after a panic. -/
abbrev C (σ α : Type) := EStateM Stop σ α

variable {σ α : Type}

/-- An expression that only reads. -/
def look (f : σ → R α) : C σ α := fun s =>
  match f s with
  | .ok x => .ok x s
  | .error p => .error (.crate p) s

/-- Statements without code of the key type. (Their panics are not caught in this model; C96 shows that there are
none.) -/
def step (f : σ → R (σ × α)) : C σ α := fun s =>
  match f s with
  | .ok (s', x) => .ok x s'
  | .error p => .error (.crate p) s

/-- A call of code of the key type: its answer, or its panic. -/
def ask (x : Option α) : C σ α := fun s =>
  match x with
  | some x => .ok x s
  | none => .error .user s

section rb
variable {K V : Type} {M : Nat}

/-- The body of the branch of `_insert` that adds a node (red_black_tree.rs:491-502), below `parentNodeIndex` on the
side `dir`. -/
def rbAttach (key : K) (value : V) (parentNodeIndex dir : Nat) (t : RedBlackTree K V M) :
    R (RedBlackTree K V M × Option Nat) := do
  if t.len ≥ t.capacity then return (t, none)
  let (a, nodeIndex) ← t.allocator.addNode { key := key, value := value }
  let t := { t with allocator := a }
  let t ← t.colorRed nodeIndex
  let t ← t.connect parentNodeIndex nodeIndex dir
  let grandparent ← t.getParent parentNodeIndex
  let t ← (if grandparent ≠ SENTINEL then t.fixInsert nodeIndex else pure t)
  return (t, some nodeIndex)

/-- The loop of `_insert` (red_black_tree.rs:482-507); `o n` answers the `n`-th `key.cmp(&curr_key)`. -/
def rbInsertLoop (o : Nat → K → K → Option Ordering) (key : K) (value : V) :
    Nat → Nat → Nat → C (RedBlackTree K V M) (Option Nat)
  | 0, _, _ => throw (.crate .diverge)
  | fuel + 1, n, parentNodeIndex => do
    let node ← look (·.getNode parentNodeIndex)
    let descend (target dir : Nat) : C (RedBlackTree K V M) (Option Nat) :=
      if target = SENTINEL then step (rbAttach key value parentNodeIndex dir)
      else rbInsertLoop o key value fuel (n + 1) target
    match ← ask (o n key node.key) with
    | .lt => descend (← look (·.getLeft parentNodeIndex)) RedBlackTree.LEFT
    | .gt => descend (← look (·.getRight parentNodeIndex)) RedBlackTree.RIGHT
    | .eq => step fun t => do return (← t.setNodeValue parentNodeIndex value, some parentNodeIndex)

/-- `_insert` (red_black_tree.rs:474-508). -/
def rbInsert (o : Nat → K → K → Option Ordering) (key : K) (value : V) : C (RedBlackTree K V M) (Option Nat) := do
  let t ← get
  if t.root = SENTINEL then
    step fun t => do
      let (a, nodeIndex) ← t.allocator.addNode { key := key, value := value }
      return ({ root := nodeIndex, allocator := a }, some nodeIndex)
  else rbInsertLoop o key value (M + 2) 0 t.root

/-- The loop of `_remove` (red_black_tree.rs:546-563). -/
def rbRemoveLoop (o : Nat → K → K → Option Ordering) (key : K) : Nat → Nat → Nat → C (RedBlackTree K V M) (Option V)
  | 0, _, _ => throw (.crate .diverge)
  | fuel + 1, n, curr => do
    let node ← look (·.getNode curr)
    let descend (target : Nat) : C (RedBlackTree K V M) (Option V) :=
      if target = SENTINEL then pure none else rbRemoveLoop o key fuel (n + 1) target
    match ← ask (o n key node.key) with
    | .lt => descend (← look (·.getLeft curr))
    | .gt => descend (← look (·.getRight curr))
    | .eq => step fun t => do return (← t.removeTreeNode curr, some node.value)

/-- `_remove` (red_black_tree.rs:541-564). -/
def rbRemove (o : Nat → K → K → Option Ordering) (key : K) : C (RedBlackTree K V M) (Option V) := do
  let t ← get
  if t.root = SENTINEL then pure none else rbRemoveLoop o key (M + 2) 0 t.root

/-- The loop of `get_addr` (red_black_tree.rs:694-705). -/
def rbSearchLoop (o : Nat → K → K → Option Ordering) (key : K) : Nat → Nat → Nat → C (RedBlackTree K V M) Nat
  | 0, _, _ => throw (.crate .diverge)
  | fuel + 1, n, nodeIndex => do
    let node ← look (·.getNode nodeIndex)
    let descend (target : Nat) : C (RedBlackTree K V M) Nat :=
      if target = SENTINEL then pure SENTINEL else rbSearchLoop o key fuel (n + 1) target
    match ← ask (o n key node.key) with
    | .lt => descend (← look (·.getLeft nodeIndex))
    | .gt => descend (← look (·.getRight nodeIndex))
    | .eq => pure nodeIndex

/-- `get_addr` (red_black_tree.rs:689-706). -/
def rbGetAddr (o : Nat → K → K → Option Ordering) (key : K) : C (RedBlackTree K V M) Nat := do
  let t ← get
  if t.root = SENTINEL then pure SENTINEL else rbSearchLoop o key (M + 1) 0 t.root

/-- `get_mut` (red_black_tree.rs:158-165), then a read and a write of the client through the reference: the value read.
With `f := id` this is also what `get` (149-156) and `contains` (145-147) do. -/
def rbGetMut (o : Nat → K → K → Option Ordering) (key : K) (f : V → V) : C (RedBlackTree K V M) (Option V) := do
  let i ← rbGetAddr o key
  if i = SENTINEL then pure none
  else step fun t => do
    let n ← t.getNode i
    return (← t.setNodeValue i (f n.value), some n.value)

end rb

section avl
variable {K V : Type} {M : Nat}

/-- The body of the branch of `_insert` that adds a node (avl_tree.rs:306-317), below `parent` on the side `branch`. -/
def avlAttach (key : K) (value : V) (parent branch : Nat) (path : List AVLTree.Ancestor) (t : AVLTree K V M) :
    R (AVLTree K V M × Option Nat) := do
  if t.len ≥ t.capacity then return (t, none)
  let (a, referenceNode) ← t.allocator.addNode { key := key, value := value }
  let t := { t with allocator := a }
  let t ← t.setField parent branch referenceNode
  let t ← t.rebalance path
  return (t, some referenceNode)

/-- The loop of `_insert` (avl_tree.rs:290-319); `lt n` and `gt n` answer `key < current_key` and `key > current_key`
of the `n`-th iteration. The second is asked only if the first said no. -/
def avlInsertLoop (lt gt : Nat → K → K → Option Bool) (key : K) (value : V) :
    Nat → Nat → Nat → List AVLTree.Ancestor → C (AVLTree K V M) (Option Nat)
  | 0, _, _, _ => throw (.crate .diverge)
  | fuel + 1, n, parent, path => do
    let node ← look (·.getNode parent)
    let descend (referenceNode branch : Nat) : C (AVLTree K V M) (Option Nat) :=
      if referenceNode = SENTINEL then step (avlAttach key value parent branch path)
      else avlInsertLoop lt gt key value fuel (n + 1) referenceNode ((some parent, some branch, referenceNode) :: path)
    if ← ask (lt n key node.key) then descend (← look (·.getField parent AVLTree.LEFT)) AVLTree.LEFT
    else if ← ask (gt n key node.key) then descend (← look (·.getField parent AVLTree.RIGHT)) AVLTree.RIGHT
    else step fun t => do return (← t.setNodeValue parent value, some parent)

/-- `_insert` (avl_tree.rs:279-320). -/
def avlInsert (lt gt : Nat → K → K → Option Bool) (key : K) (value : V) : C (AVLTree K V M) (Option Nat) := do
  let t ← get
  if t.root = SENTINEL then
    step fun t => do
      let (a, i) ← t.allocator.addNode { key := key, value := value }
      return ({ root := i, allocator := a }, some i)
  else avlInsertLoop lt gt key value (M + 1) 0 t.root [(none, none, t.root)]

/-- The search loop of `_remove` (avl_tree.rs:330-345). -/
def avlRemovePath (lt gt : Nat → K → K → Option Bool) (key : K) :
    Nat → Nat → Nat → List AVLTree.Ancestor → C (AVLTree K V M) (Nat × List AVLTree.Ancestor)
  | 0, _, _, _ => throw (.crate .diverge)
  | fuel + 1, n, parent, path =>
    if parent = SENTINEL then pure (parent, path)
    else do
      let node ← look (·.getNode parent)
      if ← ask (lt n key node.key) then do
        let nodeIndex ← look (·.getField parent AVLTree.LEFT)
        avlRemovePath lt gt key fuel (n + 1) nodeIndex ((some parent, some AVLTree.LEFT, nodeIndex) :: path)
      else if ← ask (gt n key node.key) then do
        let nodeIndex ← look (·.getField parent AVLTree.RIGHT)
        avlRemovePath lt gt key fuel (n + 1) nodeIndex ((some parent, some AVLTree.RIGHT, nodeIndex) :: path)
      else pure (parent, path)

/-- `_remove` (avl_tree.rs:322-428). -/
def avlRemove (lt gt : Nat → K → K → Option Bool) (key : K) : C (AVLTree K V M) (Option V) := do
  let t ← get
  if t.root = SENTINEL then pure none
  else do
    let p ← avlRemovePath lt gt key (M + 2) 0 t.root [(none, none, t.root)]
    if p.1 = SENTINEL then pure none else step fun t => t.removeNode p.1 p.2

/-- The loop of `get`, `get_mut` and `get_addr` (avl_tree.rs:134-147, 155-168, 546-559). -/
def avlSearchLoop (lt gt : Nat → K → K → Option Bool) (key : K) : Nat → Nat → Nat → C (AVLTree K V M) Nat
  | 0, _, _ => throw (.crate .diverge)
  | fuel + 1, n, referenceNode => do
    let node ← look (·.getNode referenceNode)
    let descend (target : Nat) : C (AVLTree K V M) Nat :=
      if target = SENTINEL then pure SENTINEL else avlSearchLoop lt gt key fuel (n + 1) target
    if ← ask (lt n key node.key) then descend (← look (·.getField referenceNode AVLTree.LEFT))
    else if ← ask (gt n key node.key) then descend (← look (·.getField referenceNode AVLTree.RIGHT))
    else pure referenceNode

/-- `get_mut` (avl_tree.rs:150-169), then a read and a write of the client through the reference: the value read. With
`f := id` this is also what `get` (129-148) and `contains` (125-127) do. -/
def avlGetMut (lt gt : Nat → K → K → Option Bool) (key : K) (f : V → V) : C (AVLTree K V M) (Option V) := do
  let t ← get
  if t.root = SENTINEL then pure none
  else do
    let i ← avlSearchLoop lt gt key (M + 1) 0 t.root
    if i = SENTINEL then pure none
    else step fun t => do
      let n ← t.getNode i
      return (← t.setNodeValue i (f n.value), some n.value)

end avl

section hash
variable {K V : Type} {B M : Nat}

/-- The search loop (hash_table.rs:123-130, 140-167, 248-256, 279-300, 309-316, 325-332); `eq n` answers the `n`-th
`node.key == key`. -/
def hashFindLoop (eq : Nat → K → K → Option Bool) (key : K) : Nat → Nat → Nat → C (HashTable K V B M) Nat
  | 0, _, _ => throw (.crate .diverge)
  | fuel + 1, n, curr =>
    if curr = SENTINEL then pure SENTINEL
    else do
      let node ← look (·.getNode curr)
      if ← ask (eq n node.key key) then pure curr
      else do
        let next ← look (·.getNext curr)
        hashFindLoop eq key fuel (n + 1) next

/-- `HashTable::_insert` after the search (hash_table.rs:250-270). -/
def hashInsertAt (key : K) (value : V) (b head curr : Nat) (h : HashTable K V B M) :
    R (HashTable K V B M × Option Nat) := do
  if curr ≠ SENTINEL then
    let h ← h.setNodeValue curr value
    return (h, some curr)
  if h.len ≥ h.capacity then return (h, none)
  let (a, nodeIndex) ← h.allocator.addNode { key := key, value := value }
  let h := { h with allocator := a }
  let h ← h.setBucket b nodeIndex
  let a ← (if head ≠ SENTINEL then h.allocator.connect nodeIndex head HashTable.RIGHT HashTable.LEFT
           else pure h.allocator)
  return ({ h with allocator := a }, some nodeIndex)

/-- `HashTable::_remove` after the search (hash_table.rs:282-297). -/
def hashRemoveAt (b head curr : Nat) (h : HashTable K V B M) : R (HashTable K V B M × Option V) := do
  if curr = SENTINEL then return (h, none)
  let node ← h.getNode curr
  let val := node.value
  let prev ← h.getPrev curr
  let next ← h.getNext curr
  let a ← h.allocator.clearRegister curr HashTable.LEFT
  let a ← a.clearRegister curr HashTable.RIGHT
  let (a, _) ← a.removeNode curr
  let h := { h with allocator := a }
  let h ← (if head = curr then do
      rassert (prev = SENTINEL)
      h.setBucket b next
    else pure h)
  let a ← h.allocator.connect prev next HashTable.RIGHT HashTable.LEFT
  return ({ h with allocator := a }, some val)

/-- `NodeAllocatorMap::get_mut` after the search (hash_table.rs:144-164). -/
def hashGetMutAt (b head curr : Nat) (h : HashTable K V B M) : R (HashTable K V B M × Option Nat) := do
  if curr = SENTINEL then return (h, none)
  let prev ← h.getPrev curr
  let next ← h.getNext curr
  let a ← (if curr ≠ head then do
      let a ← h.allocator.clearRegister curr HashTable.LEFT
      let a ← a.connect prev next HashTable.RIGHT HashTable.LEFT
      a.connect curr head HashTable.RIGHT HashTable.LEFT
    else pure h.allocator)
  let h := { h with allocator := a }
  let h ← h.setBucket b curr
  return (h, some curr)

/-- The hashing and the search with which all of these functions begin: bucket, its head, and the node found.
`hash` is what `key.hash(&mut hasher)` leads to in this call. -/
def hashFind (hash : Option Nat) (eq : Nat → K → K → Option Bool) (key : K) :
    C (HashTable K V B M) (Nat × Nat × Nat) := do
  let hv ← ask hash
  let b ← look fun _ => HashTable.bucketIndex B (fun _ => hv) key
  let head ← look (·.bucket b)
  let curr ← hashFindLoop eq key (M + 1) 0 head
  return (b, head, curr)

/-- `HashTable::_insert` (hash_table.rs:242-271). -/
def hashInsert (hash : Option Nat) (eq : Nat → K → K → Option Bool) (key : K) (value : V) :
    C (HashTable K V B M) (Option Nat) := do
  let p ← hashFind hash eq key
  step (hashInsertAt key value p.1 p.2.1 p.2.2)

/-- `HashTable::_remove` (hash_table.rs:273-302). -/
def hashRemove (hash : Option Nat) (eq : Nat → K → K → Option Bool) (key : K) : C (HashTable K V B M) (Option V) := do
  let p ← hashFind hash eq key
  step (hashRemoveAt p.1 p.2.1 p.2.2)

/-- `NodeAllocatorMap::get_mut` (hash_table.rs:134-169), then a read and a write of the client through the reference:
the value read. -/
def hashGetMut (hash : Option Nat) (eq : Nat → K → K → Option Bool) (key : K) (f : V → V) :
    C (HashTable K V B M) (Option V) := do
  let p ← hashFind hash eq key
  step fun h => do
    let (h, s) ← hashGetMutAt p.1 p.2.1 p.2.2 h
    match s with
    | none => return (h, none)
    | some i => do
      let n ← h.getNode i
      return (← h.setNodeValue i (f n.value), some n.value)

end hash

end Sokoban.Caprice
