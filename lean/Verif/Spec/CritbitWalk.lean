import Verif.Spec.Critbit

/-
Walking down a critbit tree with the public accessors.
-/
namespace Sokoban.CritbitSpec
variable {V : Type} {N M : Nat}

/-- The node reached from `i` by following `get_left` (`false`) and `get_right` (`true`), critbit.rs:246-254. -/
def walk (t : Critbit V N M) (i : Nat) : List Bool → R Nat
  | [] => .ok i
  | d :: ds => do
    let j ← (if d then t.getRight i else t.getLeft i)
    walk t j ds

end Sokoban.CritbitSpec
