import Verif.Model.AVL
import Verif.Spec.Api
import Mathlib.Order.Defs.LinearOrder

/-
Histories of AVL tree calls and the balance conditions, stated through the accessor functions.
-/
namespace Sokoban.AVLSpec
open MapSpec
variable {K V : Type} {M : Nat}

/-- `impl NodeAllocatorMap for AVLTree` (avl_tree.rs:111-190) and the `Index` implementation. -/
def api [LT K] [DecidableLT K] [PartialGt K] : Api (AVLTree K V M) K V where
  insert := AVLTree.insert
  remove := AVLTree.remove
  get := AVLTree.get
  contains := AVLTree.contains
  index := AVLTree.index
  getMut := AVLTree.getMut
  len := AVLTree.len
  isEmpty := AVLTree.isEmpty
  Iter := AVLTree.Iter
  iter := AVLTree.iter
  next := AVLTree.Iter.next
  nextBack := AVLTree.Iter.nextBack
  Ref := Nat
  slot := id
  nextMut := AVLTree.Iter.nextMut
  nextBackMut := AVLTree.Iter.nextBackMut
  read t i := do
    let n ← t.getNode i
    return (n.key, n.value)
  readVal t i := do
    let n ← t.getNode i
    return n.value
  write := AVLTree.setNodeValue

/-- One call on an AVL tree. -/
abbrev call [LT K] [DecidableLT K] [PartialGt K] : AVLTree K V M → Op K V → R (AVLTree K V M × Out K V) := api.call

/-- Follow directions (`false` = left) from node `i`: the node reached. -/
def walk (t : AVLTree K V M) (i : Nat) : List Bool → R Nat
  | [] => .ok i
  | d :: ds => do
    let j ← (if d then t.getField i AVLTree.RIGHT else t.getField i AVLTree.LEFT)
    walk t j ds

/-- `Levels t i n`: the subtree at node `i` is a finite tree with `n` levels. -/
inductive Levels (t : AVLTree K V M) : Nat → Nat → Prop where
  | nil : Levels t SENTINEL 0
  | node {i l r a b : Nat} : i ≠ SENTINEL → t.getField i AVLTree.LEFT = .ok l →
      t.getField i AVLTree.RIGHT = .ok r → Levels t l a → Levels t r b → Levels t i (max a b + 1)

end Sokoban.AVLSpec
