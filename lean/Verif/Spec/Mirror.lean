import Verif.Spec.RBFull
import Mathlib.Order.Basic

/-
Mirror images.
-/
namespace Sokoban.Textbook
variable {K V : Type}

/-- The mirror image. -/
def RBTree.mirror : RBTree K → RBTree K
  | leaf => leaf
  | node c l k r => node c r.mirror k l.mirror

/-- The mirror image. -/
def Tree.mirror : Tree K → Tree K
  | leaf => leaf
  | node l k r => node r.mirror k l.mirror

/-- The call is a `remove`. -/
def IsRemove : MapSpec.Op K V → Bool
  | .remove _ => true
  | _ => false

/-- One order is the reverse of the other. -/
def Reverse (o1 o2 : LinearOrder K) : Prop := ∀ a b, o1.lt a b ↔ o2.lt b a

/-- The calls of a red-black tree whose keys are compared by the order. -/
abbrev callRB (o : LinearOrder K) {M : Nat} : RedBlackTree K V M → RedBlackSpec.TOp K V → R (RedBlackTree K V M × RedBlackSpec.TOut K V) :=
  letI := o
  RedBlackSpec.call

/-- The calls of an AVL tree whose keys are compared by the order. -/
abbrev callAVL (o : LinearOrder K) {M : Nat} : AVLTree K V M → MapSpec.Op K V → R (AVLTree K V M × MapSpec.Out K V) :=
  letI := o
  AVLSpec.call

end Sokoban.Textbook
