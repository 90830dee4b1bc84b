import Verif.Spec.AVL
import Verif.Spec.RedBlack

/-
The insertion and removal of AVL trees and red-black trees as recursive functions on algebraic trees, without
memory, indices, parents and paths. They are written down here independently of the model of the crate and
of /repo; the properties say that the crate computes exactly these trees.
-/
namespace Sokoban.Textbook
open MapSpec
variable {K V : Type}

/-- What a call returns, given whether the key is found (`has`) and whether the tree is full. -/
def Returns (has : K → Bool) (full : Bool) : Op K V → Out K V → Prop
  | .insert k _, o => o = .inserted (has k || !full)
  | .remove k, o => ∃ r, o = .removed r ∧ r.isSome = has k
  | .getMut k _, o => ∃ r, o = .got r ∧ r.isSome = has k
  | .iterMut _, o => ∃ r, o = .seen r

/-! ### AVL trees -/

/-- Binary trees of keys. -/
inductive Tree (K : Type) where
  | leaf
  | node (l : Tree K) (k : K) (r : Tree K)

namespace Tree

/-- The number of nodes on a longest path. -/
def height : Tree K → Nat
  | leaf => 0
  | node l _ r => max l.height r.height + 1

/-- The number of nodes. -/
def size : Tree K → Nat
  | leaf => 0
  | node l _ r => l.size + r.size + 1

/-- The keys in order. -/
def keys : Tree K → List K
  | leaf => []
  | node l k r => l.keys ++ k :: r.keys

/-- The left subtree becomes the root. -/
def rotateRight : Tree K → Tree K
  | node (node a x b) y c => node a x (node b y c)
  | t => t

/-- The right subtree becomes the root. -/
def rotateLeft : Tree K → Tree K
  | node a x (node b y c) => node (node a x b) y c
  | t => t

/-- A left-rotation, if the right subtree is the higher one. -/
def leanLeft : Tree K → Tree K
  | leaf => leaf
  | node a x b => if a.height < b.height then rotateLeft (node a x b) else node a x b

/-- A right-rotation, if the left subtree is the higher one. -/
def leanRight : Tree K → Tree K
  | leaf => leaf
  | node a x b => if b.height < a.height then rotateRight (node a x b) else node a x b

/-- A node above two AVL trees whose heights differ by two at most: single and double rotations. -/
def balance (l : Tree K) (k : K) (r : Tree K) : Tree K :=
  if r.height + 1 < l.height then rotateRight (node (leanLeft l) k r)
  else if l.height + 1 < r.height then rotateLeft (node l k (leanRight r))
  else node l k r

/-- The search goes left at `lt`, right at `gt` and stops at `eq`. -/
def has (cmp : K → Ordering) : Tree K → Bool
  | leaf => false
  | node l k r => match cmp k with
    | .lt => l.has cmp
    | .gt => r.has cmp
    | .eq => true

/-- Insertion of the key `k`, compared with the keys of the tree by `cmp`. -/
def insert (cmp : K → Ordering) (k : K) : Tree K → Tree K
  | leaf => node leaf k leaf
  | node l x r => match cmp x with
    | .lt => balance (l.insert cmp k) x r
    | .gt => balance l x (r.insert cmp k)
    | .eq => node l x r

/-- The least key of `node l k r` and the tree without it. -/
def popMin : Tree K → K → Tree K → K × Tree K
  | leaf, k, r => (k, r)
  | node a x b, k, r => ((popMin a x b).1, balance (popMin a x b).2 k r)

/-- Two subtrees without the node above them: the least key on the right takes its place. -/
def join : Tree K → Tree K → Tree K
  | leaf, r => r
  | l, leaf => l
  | l, node a x b => balance l (popMin a x b).1 (popMin a x b).2

/-- Removal of the key found. -/
def remove (cmp : K → Ordering) : Tree K → Tree K
  | leaf => leaf
  | node l x r => match cmp x with
    | .lt => balance (l.remove cmp) x r
    | .gt => balance l x (r.remove cmp)
    | .eq => join l r

/-- What a call does to the tree; a full tree takes no new key. -/
def step (cmp : K → K → Ordering) (M : Nat) (T : Tree K) : Op K V → Tree K
  | .insert k _ => if T.size = M ∧ T.has (cmp k) = false then T else T.insert (cmp k) k
  | .remove k => T.remove (cmp k)
  | .getMut _ _ => T
  | .iterMut _ => T

end Tree

/-- The comparisons of the AVL tree as one answer: `key < node.key`, and if not, `key > node.key`. -/
def order [LT K] [DecidableLT K] [PartialGt K] (k x : K) : Ordering :=
  if k < x then .lt else if PartialGt.gt k x then .gt else .eq

/-- The memory of the AVL tree below node `i` is the tree: keys, children and stored heights. -/
def AVLIs {M : Nat} (t : AVLTree K V M) : Nat → Tree K → Prop
  | i, .leaf => i = SENTINEL
  | i, .node l k r => i ≠ SENTINEL ∧ (∃ n, t.getNode i = .ok n ∧ n.key = k) ∧
      t.getField i AVLTree.HEIGHT = .ok (max l.height r.height) ∧
      (∃ a, t.getField i AVLTree.LEFT = .ok a ∧ AVLIs t a l) ∧
      ∃ b, t.getField i AVLTree.RIGHT = .ok b ∧ AVLIs t b r

/-! ### Red-black trees -/

/-- Binary trees of coloured keys. -/
inductive RBTree (K : Type) where
  | leaf
  | node (red : Bool) (l : RBTree K) (k : K) (r : RBTree K)

namespace RBTree

/-- The number of nodes. -/
def size : RBTree K → Nat
  | leaf => 0
  | node _ l _ r => l.size + r.size + 1

/-- The keys in order. -/
def keys : RBTree K → List K
  | leaf => []
  | node _ l k r => l.keys ++ k :: r.keys

/-- The root is red; a missing node is black. -/
def isRed : RBTree K → Bool
  | leaf => false
  | node c _ _ _ => c

/-- The root becomes black. -/
def blacken : RBTree K → RBTree K
  | leaf => leaf
  | node _ l k r => node false l k r

/-- The search goes left at `lt`, right at `gt` and stops at `eq`. -/
def has (cmp : K → Ordering) : RBTree K → Bool
  | leaf => false
  | node _ l k r => match cmp k with
    | .lt => l.has cmp
    | .gt => r.has cmp
    | .eq => true

/-- A black node `k` whose left child may be red with a red child: a red uncle `r` and the left child become black
and the node red, or else the middle key of the three becomes the black root. -/
def fixL : RBTree K → K → RBTree K → RBTree K
  | node true (node true a x b) y c, k, r =>
    if r.isRed then node true (node false (node true a x b) y c) k r.blacken
    else node false (node true a x b) y (node true c k r)
  | node true a x (node true b y c), k, r =>
    if r.isRed then node true (node false a x (node true b y c)) k r.blacken
    else node false (node true a x b) y (node true c k r)
  | l, k, r => node false l k r

/-- The same for the right child. -/
def fixR : RBTree K → K → RBTree K → RBTree K
  | l, k, node true a x (node true b y c) =>
    if l.isRed then node true l.blacken k (node false a x (node true b y c))
    else node false (node true l k a) x (node true b y c)
  | l, k, node true (node true a x b) y c =>
    if l.isRed then node true l.blacken k (node false (node true a x b) y c)
    else node false (node true l k a) x (node true b y c)
  | l, k, r => node false l k r

/-- Insertion of a red leaf; the result may have a red root with a red child. -/
def ins (cmp : K → Ordering) (k : K) : RBTree K → RBTree K
  | leaf => node true leaf k leaf
  | node c l x r => match cmp x with
    | .lt => if c then node true (l.ins cmp k) x r else fixL (l.ins cmp k) x r
    | .gt => if c then node true l x (r.ins cmp k) else fixR l x (r.ins cmp k)
    | .eq => node c l x r

/-- Insertion. -/
def insert (cmp : K → Ordering) (k : K) (t : RBTree K) : RBTree K := (t.ins cmp k).blacken

/-- The left subtree of a node of colour `c` lacks a black node; its right subtree `node _ a x b` is black. The
result, and whether it lacks a black node. -/
def raiseL (c : Bool) (l : RBTree K) (k : K) : RBTree K → RBTree K × Bool
  | leaf => (node c l k leaf, true)
  | node _ a x b =>
    if b.isRed then (node c (node false l k a) x b.blacken, false)
    else match a with
      | node true a1 y a2 => (node c (node false l k a1) y (node false a2 x b), false)
      | a => (node false l k (node true a x b), !c)

/-- The same for the right subtree. -/
def raiseR (c : Bool) (r : RBTree K) (k : K) : RBTree K → RBTree K × Bool
  | leaf => (node c leaf k r, true)
  | node _ a x b =>
    if a.isRed then (node c a.blacken x (node false b k r), false)
    else match b with
      | node true b1 y b2 => (node c (node false a x b1) y (node false b2 k r), false)
      | b => (node false (node true a x b) k r, !c)

/-- A node whose left subtree may lack a black node. A red sibling is first made the root. -/
def delL (c : Bool) : RBTree K × Bool → K → RBTree K → RBTree K × Bool
  | (l, false), k, r => (node c l k r, false)
  | (l, true), k, node true a x b => (node false (raiseL true l k a).1 x b, (raiseL true l k a).2)
  | (l, true), k, r => raiseL c l k r

/-- A node whose right subtree may lack a black node. -/
def delR (c : Bool) : RBTree K → K → RBTree K × Bool → RBTree K × Bool
  | l, k, (r, false) => (node c l k r, false)
  | node true a x b, k, (r, true) => (node false a x (raiseR true r k b).1, (raiseR true r k b).2)
  | l, k, (r, true) => raiseR c r k l

/-- The greatest key of `node c l k r`, and the tree without it. -/
def popMax (c : Bool) (l : RBTree K) (k : K) : RBTree K → K × (RBTree K × Bool)
  | leaf => (k, (l, !c))
  | node c' a x b => ((popMax c' a x b).1, delR c l k (popMax c' a x b).2)

/-- The subtrees of a node of colour `c` without the node: the greatest key on the left takes its place. A red
child that takes the place of a black node stays red, and the tree counts as lacking a black node. -/
def join (c : Bool) : RBTree K → RBTree K → RBTree K × Bool
  | leaf, r => (r, !c)
  | l, leaf => (l, !c)
  | node c' a x b, r => delL c (popMax c' a x b).2 (popMax c' a x b).1 r

/-- Removal of the key found, below the root. -/
def del (cmp : K → Ordering) : RBTree K → RBTree K × Bool
  | leaf => (leaf, false)
  | node c l x r => match cmp x with
    | .lt => delL c (l.del cmp) x r
    | .gt => delR c l x (r.del cmp)
    | .eq => join c l r

/-- Removal. -/
def remove (cmp : K → Ordering) (t : RBTree K) : RBTree K := (t.del cmp).1.blacken

/-- Removal of the root. -/
def removeRoot : RBTree K → RBTree K
  | leaf => leaf
  | node c l _ r => (join c l r).1.blacken

/-- What a call does to the tree; a full tree takes no new key. -/
def step (cmp : K → K → Ordering) (M : Nat) (T : RBTree K) : RedBlackSpec.TOp K V → RBTree K
  | .map (.insert k _) => if T.size = M ∧ T.has (cmp k) = false then T else T.insert (cmp k) k
  | .map (.remove k) => T.remove (cmp k)
  | .map (.getMut _ _) => T
  | .map (.iterMut _) => T
  | .removeRoot => T.removeRoot

end RBTree

/-- The memory of the red-black tree below node `i`, whose parent is `p`, is the tree. -/
def RBIs {M : Nat} (t : RedBlackTree K V M) : Nat → Nat → RBTree K → Prop
  | _, i, .leaf => i = SENTINEL
  | p, i, .node c l k r => i ≠ SENTINEL ∧ (∃ n, t.getNode i = .ok n ∧ n.key = k) ∧
      t.getColor i = .ok (if c then RedBlackTree.RED else RedBlackTree.BLACK) ∧ t.getParent i = .ok p ∧
      (∃ a, t.getLeft i = .ok a ∧ RBIs t i a l) ∧ ∃ b, t.getRight i = .ok b ∧ RBIs t i b r

end Sokoban.Textbook
