import Verif.Spec.Textbook

/-
Which algebraic trees are AVL trees.
-/
namespace Sokoban.Textbook.Tree
variable {K : Type}

/-- At every node the heights of the two subtrees differ by one at most. -/
def Balanced : Tree K → Prop
  | leaf => True
  | node l _ r => l.height ≤ r.height + 1 ∧ r.height ≤ l.height + 1 ∧ l.Balanced ∧ r.Balanced

/-- An AVL tree of at most `M` keys: balanced, and the keys ascend from left to right. -/
def IsAVL [LT K] (T : Tree K) (M : Nat) : Prop :=
  T.Balanced ∧ T.keys.Pairwise (· < ·) ∧ T.size ≤ M

end Sokoban.Textbook.Tree
