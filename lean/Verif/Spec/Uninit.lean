import Verif.Spec.Map
import Verif.Spec.Deque

/-
What the calls on memory filled with zeros return when nobody called `initialize`.
-/
namespace Sokoban.Uninit
open MapSpec

/-- The result of a call that finds nothing; an insertion has none. -/
def answer {K V : Type} : Op K V → Option (Out K V)
  | .insert _ _ => none
  | .remove _ => some (.removed none)
  | .getMut _ _ => some (.got none)
  | .iterMut es => some (.seen (es.map fun _ => none))

/-- The same for a deque; a push has none. -/
def answerD {T : Type} : DequeSpec.Op T → Option (DequeSpec.Out T)
  | .pushBack _ => none
  | .pushFront _ => none
  | .popBack => some (.popped none)
  | .popFront => some (.popped none)
  | .iterMut es => some (.seen (es.map fun _ => none))

/-- A history in which every call leaves `s` alone and returns its answer, up to the first call that has none;
that one is out of bounds. -/
def expect {S Op Out : Type} (answer : Op → Option Out) (s : S) : List Op → R (S × List Out)
  | [] => .ok (s, [])
  | op :: ops =>
    match answer op with
    | none => .error .indexOutOfBounds
    | some o => do let (s, os) ← expect answer s ops; return (s, o :: os)

end Sokoban.Uninit
