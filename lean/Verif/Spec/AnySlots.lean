import Verif.Spec.Slots

/-
Calls that give every key the slot one wants it to have.
-/
namespace Sokoban.Slots
open MapSpec
variable {K V : Type}

/-- The keys are distinct, and so are the slots, which lie between 1 and `M`. -/
def Wish (A : List (K × Nat)) (M : Nat) : Prop :=
  (A.map Prod.fst).Nodup ∧ (A.map Prod.snd).Nodup ∧ ∀ e ∈ A, 1 ≤ e.2 ∧ e.2 ≤ M

/-- The slot that is wished for `k`, and 0 for other keys. -/
def wished [DecidableEq K] (A : List (K × Nat)) (k : K) : Nat := ((A.find? fun e => e.1 = k).map Prod.snd).getD 0

end Sokoban.Slots
