import Verif.Spec.RedBlack
import Verif.Spec.AVL

/-
How often the colours of a red-black tree change in the course of a history, as `get_addr` and `get_color` show it.
-/
namespace Sokoban.RedBlackSpec
variable {K V : Type} [Ord K] {M : Nat}

/-- The key is in the tree and its node has the colour `c`: `get_addr(k) != SENTINEL`, `get_color(get_addr(k)) == c`. -/
def Coloured (s : RedBlackTree K V M) (k : K) (c : Nat) : Prop :=
  ∃ i, s.getAddr k = .ok i ∧ i ≠ SENTINEL ∧ s.getColor i = .ok c

/-- `L` are some of the keys that are in both trees with different colours. -/
def Recoloured (s s' : RedBlackTree K V M) (L : List K) : Prop :=
  L.Nodup ∧ ∀ k ∈ L, ∃ c c', Coloured s k c ∧ Coloured s' k c' ∧ c ≠ c'

/-- `n` counts some of the changes of colour which the calls make, one after the other: a key is counted again in every call
that changes the colour of its node. -/
inductive Recolourings : RedBlackTree K V M → List (TOp K V) → Nat → Prop
  | done (s : RedBlackTree K V M) : Recolourings s [] 0
  | call {s s' : RedBlackTree K V M} {op : TOp K V} {o : TOut K V} {ops : List (TOp K V)} {L : List K} {n : Nat} :
      call s op = .ok (s', o) → Recoloured s s' L → Recolourings s' ops n → Recolourings s (op :: ops) (L.length + n)

/-- The number of recolourings that a call pays for: 9 for an insertion, 13 for a removal, none for the others. -/
def allowance : TOp K V → Nat
  | .map (.insert _ _) => 9
  | .map (.remove _) => 13
  | .map (.getMut _ _) => 0
  | .map (.iterMut _) => 0
  | .removeRoot => 13

end Sokoban.RedBlackSpec

/-
The same for the heights stored in an AVL tree.
-/
namespace Sokoban.AVLSpec
open MapSpec
variable {K V : Type} [LT K] [DecidableLT K] [PartialGt K] {M : Nat}

/-- The key is in the tree and the height stored in its node is `c`. -/
def High (s : AVLTree K V M) (k : K) (c : Nat) : Prop :=
  ∃ i, s.getAddr k = .ok i ∧ i ≠ SENTINEL ∧ s.getField i AVLTree.HEIGHT = .ok c

/-- `L` are some of the keys that are in both trees with different heights. -/
def Rewritten (s s' : AVLTree K V M) (L : List K) : Prop :=
  L.Nodup ∧ ∀ k ∈ L, ∃ c c', High s k c ∧ High s' k c' ∧ c ≠ c'

/-- `n` counts some of the changes of stored heights which the calls make, one after the other. -/
inductive Rewritings : AVLTree K V M → List (Op K V) → Nat → Prop
  | done (s : AVLTree K V M) : Rewritings s [] 0
  | call {s s' : AVLTree K V M} {op : Op K V} {o : Out K V} {ops : List (Op K V)} {L : List K} {n : Nat} :
      call s op = .ok (s', o) → Rewritten s s' L → Rewritings s' ops n → Rewritings s (op :: ops) (L.length + n)

/-- The number of changes that a call pays for: 7 for an insertion, none for the others. -/
def allowance : Op K V → Nat
  | .insert _ _ => 7
  | .remove _ => 0
  | .getMut _ _ => 0
  | .iterMut _ => 0

/-- The call is no removal. -/
def Keeps : Op K V → Prop
  | .remove _ => False
  | _ => True

end Sokoban.AVLSpec
