import Verif.Spec.Run

/-
The greatest number of elements that a structure held at any time during a history.
-/
namespace Sokoban

/-- The greatest `len` among the states that the history `ops` goes through, the first and the last one included. -/
def peak {S Op Out : Type} (len : S → Nat) (step : S → Op → R (S × Out)) (s : S) : List Op → Nat
  | [] => len s
  | op :: ops => max (len s) (match step s op with
    | .ok (s', _) => peak len step s' ops
    | .error _ => 0)

end Sokoban
