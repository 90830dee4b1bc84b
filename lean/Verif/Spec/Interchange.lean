import Verif.Spec.Map
import Mathlib.Data.Finset.Card
import Mathlib.Order.Defs.LinearOrder

/-
Histories that stay below a capacity, and the order of `u128`.
-/
namespace Sokoban.MapSpec
variable {K V : Type} [DecidableEq K]

/-- Starting from a map with the keys `S`, every `insert` of the history happens when fewer than
`cap` keys are present. -/
def Below (cap : Nat) (S : Finset K) : List (Op K V) → Prop
  | [] => True
  | .insert k _ :: ops => S.card < cap ∧ Below cap (insert k S) ops
  | .remove k :: ops => Below cap (S.erase k) ops
  | .getMut _ _ :: ops => Below cap S ops
  | .iterMut _ :: ops => Below cap S ops

omit [DecidableEq K] in
/-- The history does not call `iter_mut`. -/
def NoIterMut (ops : List (Op K V)) : Prop := ∀ es, .iterMut es ∉ ops

/-- The order of `u128`. -/
instance u128Order : LinearOrder (BitVec 128) where
  le := (· ≤ ·)
  lt := (· < ·)
  le_refl := BitVec.le_refl
  le_trans _ _ _ := BitVec.le_trans
  lt_iff_le_not_ge a b := by simp only [BitVec.lt_def, BitVec.le_def]; omega
  le_antisymm _ _ := BitVec.le_antisymm
  le_total := BitVec.le_total
  toDecidableLE := inferInstance
  toDecidableEq := inferInstance
  toDecidableLT := inferInstance

end Sokoban.MapSpec
