import Verif.Model.Deque
import Verif.Model.HashTable
import Verif.Model.Critbit
import Verif.Model.RedBlack
import Verif.Model.AVL

/-
When a call leaves a node alone, stated through the accessor functions.
-/
namespace Sokoban.RelinkSpec
variable {K V T : Type} {M N B : Nat}

/-- All but `n` of the nodes satisfy `P`. -/
def AllBut (n : Nat) (P : Nat → Prop) : Prop := ∃ S : List Nat, S.length ≤ n ∧ ∀ i, i ∉ S → P i

/-- `get_left`, `get_right`, `get_parent` and `get_node` return for node `i` what they returned before. The colour is
left out. -/
def RBSame (t t' : RedBlackTree K V M) (i : Nat) : Prop :=
  t'.getLeft i = t.getLeft i ∧ t'.getRight i = t.getRight i ∧ t'.getParent i = t.getParent i ∧ t'.getNode i = t.getNode i

/-- The same for an AVL tree: `get_field` for `Field::Left` and `Field::Right`, `get_node`. The height is left out. -/
def AVLSame (t t' : AVLTree K V M) (i : Nat) : Prop :=
  t'.getField i AVLTree.LEFT = t.getField i AVLTree.LEFT ∧ t'.getField i AVLTree.RIGHT = t.getField i AVLTree.RIGHT ∧
  t'.getNode i = t.getNode i

/-- The same for a deque: `get_next`, `get_prev`, `get_node`. -/
def DequeSame (d d' : Deque T M) (i : Nat) : Prop :=
  d'.getNext i = d.getNext i ∧ d'.getPrev i = d.getPrev i ∧ d'.getNode i = d.getNode i

/-- The same for a hash table: `get_next`, `get_prev`, `get_node`. -/
def HashSame (h h' : HashTable K V B M) (i : Nat) : Prop :=
  h'.getNext i = h.getNext i ∧ h'.getPrev i = h.getPrev i ∧ h'.getNode i = h.getNode i

/-- The same for the nodes of a critbit tree: `get_left`, `get_right`, `get_parent`, `get_leaf_index`, `get_node`. -/
def CritbitSame (t t' : Critbit V N M) (i : Nat) : Prop :=
  t'.getLeft i = t.getLeft i ∧ t'.getRight i = t.getRight i ∧ t'.getParent i = t.getParent i ∧
  t'.getLeafIndex i = t.getLeafIndex i ∧ t'.getNode i = t.getNode i

end Sokoban.RelinkSpec
