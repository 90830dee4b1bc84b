import Verif.Spec.RedBlack

/-
What a red-black tree looks like in memory, read through the accessor functions: a picture of the
tree, the red-black conditions on pictures, and the picture as text. Any memory that holds a finite
tree has a picture, whether or not it was made by the operations of `RedBlackTree`.
-/
namespace Sokoban.RedBlackSpec
variable {K V : Type} {M : Nat}

/-- A binary tree whose nodes carry an index, a colour and a key. -/
inductive Pic (K : Type) where
  | nil
  | node (l : Pic K) (i color : Nat) (key : K) (r : Pic K)

namespace Pic

/-- The nodes in order. -/
def nodes : Pic K → List (Nat × K)
  | nil => []
  | node l i _ k r => l.nodes ++ (i, k) :: r.nodes

/-- The node at the top is red. -/
def Red : Pic K → Prop
  | nil => False
  | node _ _ c _ _ => c = RedBlackTree.RED

/-- No red node has a red child. -/
def NoRedRed : Pic K → Prop
  | nil => True
  | node l _ c _ r => (c = RedBlackTree.RED → ¬ l.Red ∧ ¬ r.Red) ∧ l.NoRedRed ∧ r.NoRedRed

/-- For every path from the top to a missing child, the number of black nodes on it. -/
def nilBlacks : Pic K → List Nat
  | nil => [0]
  | node l _ c _ r => (l.nilBlacks ++ r.nilBlacks).map (· + if c = RedBlackTree.BLACK then 1 else 0)

/-- For every path from the top to a node without children, the number of black nodes on it. -/
def leafBlacks : Pic K → List Nat
  | nil => []
  | node nil _ c _ nil => [if c = RedBlackTree.BLACK then 1 else 0]
  | node l _ c _ r => (l.leafBlacks ++ r.leafBlacks).map (· + if c = RedBlackTree.BLACK then 1 else 0)

/-- The number of nodes on a longest path. -/
def height : Pic K → Nat
  | nil => 0
  | node l _ _ _ r => max l.height r.height + 1

/-- The red-black conditions. -/
def IsRedBlack (p : Pic K) : Prop :=
  ¬ p.Red ∧ p.NoRedRed ∧ ∀ a ∈ p.nilBlacks, ∀ b ∈ p.nilBlacks, a = b

/-- The mark before a left child whose sibling is this. -/
def leftPointer : Pic K → String
  | nil => "└──"
  | node .. => "├──"

/-- The picture as text, one line per node, children indented below their parent. -/
def render (debug : K → String) (padding pointer : String) : Pic K → String
  | nil => ""
  | node l _ c k r =>
    padding ++ pointer ++
      (if c = RedBlackTree.RED then "\u001b[31m" ++ debug k ++ "\u001b[0m" else debug k) ++ "\n" ++
      l.render debug (padding ++ "│  ") r.leftPointer ++
      r.render debug (padding ++ "│  ") "└──"

end Pic

/-- The memory below node `i` looks like the picture. -/
def Holds (t : RedBlackTree K V M) : Nat → Pic K → Prop
  | i, .nil => i = SENTINEL
  | i, .node l j c k r => i = j ∧ j ≠ SENTINEL ∧ t.getColor j = .ok c ∧ (∃ n, t.getNode j = .ok n ∧ n.key = k) ∧
      (∃ a, t.getLeft j = .ok a ∧ Holds t a l) ∧ ∃ b, t.getRight j = .ok b ∧ Holds t b r

/-- The nodes reachable from the root form the tree `p`: no node is reached twice. -/
def Pictured (t : RedBlackTree K V M) (p : Pic K) : Prop :=
  Holds t t.root p ∧ (p.nodes.map Prod.fst).Nodup

end Sokoban.RedBlackSpec
