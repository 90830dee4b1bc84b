import Verif.Model.RedBlack
import Verif.Model.AVL
import Verif.Model.HashTable

/-
Histories of calls that change a structure, with the slots that they hand out to the caller: those that `insert`
returns, and those that the caller writes to through a `&mut V`. No state is excluded.
-/
namespace Sokoban.KeepSpec
variable {K V S : Type} {B M : Nat}

/-- One changing call on a red-black tree: the state before, the slots handed out, the state after. -/
inductive RBStep [Ord K] : RedBlackTree K V M → List Nat → RedBlackTree K V M → Prop
  | insert {t t' : RedBlackTree K V M} {k : K} {v : V} {r : Option Nat} : t.insert k v = .ok (t', r) → RBStep t r.toList t'
  | remove {t t' : RedBlackTree K V M} {k : K} {r : Option V} : t.remove k = .ok (t', r) → RBStep t [] t'
  | removeRoot {t t' : RedBlackTree K V M} {r : Option (RBNode K V)} : t.removeRoot = .ok (t', r) → RBStep t [] t'
  | write {t t' : RedBlackTree K V M} {i : Nat} {v : V} : t.setNodeValue i v = .ok t' → RBStep t [i] t'

/-- One changing call on an AVL tree. -/
inductive AVLStep [LT K] [DecidableLT K] [PartialGt K] : AVLTree K V M → List Nat → AVLTree K V M → Prop
  | insert {t t' : AVLTree K V M} {k : K} {v : V} {r : Option Nat} : t.insert k v = .ok (t', r) → AVLStep t r.toList t'
  | remove {t t' : AVLTree K V M} {k : K} {r : Option V} : t.remove k = .ok (t', r) → AVLStep t [] t'
  | write {t t' : AVLTree K V M} {i : Nat} {v : V} : t.setNodeValue i v = .ok t' → AVLStep t [i] t'

/-- One changing call on a hash table. -/
inductive HashStep [BEq K] (hash : K → Nat) : HashTable K V B M → List Nat → HashTable K V B M → Prop
  | insert {t t' : HashTable K V B M} {k : K} {v : V} {r : Option Nat} : t.insert hash k v = .ok (t', r) → HashStep hash t r.toList t'
  | remove {t t' : HashTable K V B M} {k : K} {r : Option V} : t.remove hash k = .ok (t', r) → HashStep hash t [] t'
  | getMut {t t' : HashTable K V B M} {k : K} {r : Option Nat} : t.getMut hash k = .ok (t', r) → HashStep hash t [] t'
  | write {t t' : HashTable K V B M} {i : Nat} {v : V} : t.setNodeValue i v = .ok t' → HashStep hash t [i] t'

/-- Many calls. -/
inductive Hist (step : S → List Nat → S → Prop) : S → List Nat → S → Prop
  | nil {s : S} : Hist step s [] s
  | cons {s s1 s2 : S} {L L' : List Nat} : step s L s1 → Hist step s1 L' s2 → Hist step s (L ++ L') s2

end Sokoban.KeepSpec
