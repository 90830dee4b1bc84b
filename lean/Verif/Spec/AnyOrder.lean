import Verif.Spec.RedBlack
import Verif.Spec.AVL

/-
What a map does when nothing is assumed about the comparison of keys (not that it is an order, not that it
agrees with equality): a specification on the plain sequence of the entries, in the order of iteration.
-/
namespace Sokoban.AnyOrder
open MapSpec
variable {K V : Type}

/-- What one call may do to the sequence of the entries. `same k k'`: comparing `k` with `k'` says "equal".
Every call concerns one entry, whose key compares equal to the given one, or none; no other entry is lost,
duplicated, changed or moved relative to the others. -/
def Step (same : K → K → Prop) (cap : Nat) (L : List (K × V)) : Op K V → Out K V → List (K × V) → Prop
  | .insert k v, o, L' =>
      (∃ L1 k' w L2, same k k' ∧ L = L1 ++ (k', w) :: L2 ∧ L' = L1 ++ (k', v) :: L2 ∧ o = .inserted true) ∨
      (L.length < cap ∧ ∃ L1 L2, L = L1 ++ L2 ∧ L' = L1 ++ (k, v) :: L2 ∧ o = .inserted true) ∨
      (L.length = cap ∧ L' = L ∧ o = .inserted false)
  | .remove k, o, L' =>
      (∃ L1 k' w L2, same k k' ∧ L = L1 ++ (k', w) :: L2 ∧ L' = L1 ++ L2 ∧ o = .removed (some w)) ∨
      (L' = L ∧ o = .removed none)
  | .getMut k f, o, L' =>
      (∃ L1 k' w L2, same k k' ∧ L = L1 ++ (k', w) :: L2 ∧ L' = L1 ++ (k', f w) :: L2 ∧ o = .got (some w)) ∨
      (L' = L ∧ o = .got none)
  | .iterMut es, o, L' => o = .seen (consumeMut L (script es)).1 ∧ L' = (consumeMut L (script es)).2

/-- The same for a red-black tree: `remove_root` removes some entry, if there is one. -/
def TStep (same : K → K → Prop) (cap : Nat) (L : List (K × V)) :
    RedBlackSpec.TOp K V → RedBlackSpec.TOut K V → List (K × V) → Prop
  | .map op, .map o, L' => Step same cap L op o L'
  | .removeRoot, .root none, L' => L = [] ∧ L' = []
  | .removeRoot, .root (some e), L' => ∃ L1 L2, L = L1 ++ e :: L2 ∧ L' = L1 ++ L2
  | _, _, _ => False

/-- What `get`, `get_mut`, `remove` and `insert` do with a key on the same state: they all find the same entry,
or all find none, and `insert` replaces the value of that entry, or adds an entry. -/
def Finds {S : Type} (A : Api S K V) (same : K → K → Prop) (cap : Nat) (s : S) (L : List (K × V)) (k : K) : Prop :=
  (A.get s k = .ok none ∧ A.getMut s k = .ok none ∧ A.remove s k = .ok (s, none) ∧
    ∀ v, ∃ s' r, A.insert s k v = .ok (s', r) ∧ (r = none ↔ L.length = cap) ∧ (r = none → s' = s) ∧
      (r ≠ none → A.len s' = A.len s + 1)) ∨
  ∃ k' w i, same k k' ∧ (k', w) ∈ L ∧ A.get s k = .ok (some w) ∧ A.getMut s k = .ok (some i) ∧
    A.readVal s i = .ok w ∧ (∃ s', A.remove s k = .ok (s', some w) ∧ A.len s' + 1 = A.len s) ∧
    ∀ v, ∃ s' j, A.insert s k v = .ok (s', some j) ∧ A.readVal s' i = .ok v ∧ A.len s' = A.len s

end Sokoban.AnyOrder
