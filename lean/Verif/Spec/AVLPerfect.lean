import Verif.Spec.Textbook

/-
Perfect trees.
-/
namespace Sokoban.Textbook.Tree
variable {K : Type}

/-- All levels of the tree are complete. -/
def Perfect : Nat → Tree K → Prop
  | 0, T => T = leaf
  | h + 1, T => ∃ l k r, T = node l k r ∧ Perfect h l ∧ Perfect h r

end Sokoban.Textbook.Tree
