import Verif.Spec.Run
import Verif.Model.HashTable

/-
A client loop over an iterator in which the number of iterations that each call may spend is given.
-/
namespace Sokoban

/-- The client loop `drive`, with a bound for each call: `next c` is `next` when its loop may run at most `c`
iterations. -/
def driveWithin {It α : Type} (next nextBack : Nat → It → R (It × Option α)) (it : It) :
    List (End × Nat) → R (It × List (Option α))
  | [] => .ok (it, [])
  | (e, c) :: es => do
    let (it, x) ← (match e with | .front => next c it | .back => nextBack c it)
    let (it, xs) ← driveWithin next nextBack it es
    return (it, x :: xs)

/-- The iterations spent on calls at the end `e`. -/
def spent (e : End) : List (End × Nat) → Nat
  | [] => 0
  | (e', c) :: cs => (if e' = e then c else 0) + spent e cs

/-- `HashTableIteratorMut::next`, given that its loop over empty buckets (hash_table.rs:464-471) ends within `c`
iterations; `Panic.diverge` otherwise. -/
def HashTable.nextWithin {K V : Type} {B M : Nat} (h : HashTable K V B M) (c : Nat) (it : HashTable.Iter) :
    R (HashTable.Iter × Option Nat) :=
  if it.bucket < B then do
    let _ ← HashTable.Iter.skip h c it
    HashTable.Iter.nextMut h it
  else HashTable.Iter.nextMut h it

end Sokoban
