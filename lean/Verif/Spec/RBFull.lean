import Verif.Spec.Textbook
import Verif.Spec.Amortised

/-
Red-black trees without red nodes.
-/
namespace Sokoban.Textbook.RBTree
variable {K : Type}

/-- All nodes are black. -/
def AllBlack : RBTree K → Prop
  | leaf => True
  | node c l _ r => c = false ∧ l.AllBlack ∧ r.AllBlack

end Sokoban.Textbook.RBTree

namespace Sokoban.RedBlackSpec

/-- The call is a `remove` or a `remove_root`. -/
def Removal {K V : Type} : TOp K V → Bool
  | .map (.remove _) => true
  | .removeRoot => true
  | _ => false

end Sokoban.RedBlackSpec
