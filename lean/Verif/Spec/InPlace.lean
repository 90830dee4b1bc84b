import Verif.Model.InPlace
import Verif.Spec.Deque
import Verif.Spec.Critbit

/-
Histories of a client that catches panics and goes on with the structure as the panicking call left it.
-/
namespace Sokoban.InPlace

/-- Run a history; a panic is caught and recorded, the next call finds the memory as it is then. -/
def runCaught {S Op Out : Type} (step : Op → U S Out) (s : S) : List Op → S × List (Except Panic Out)
  | [] => (s, [])
  | op :: ops =>
    match step op s with
    | .ok o s => let (s, os) := runCaught step s ops; (s, .ok o :: os)
    | .error p s => let (s, os) := runCaught step s ops; (s, .error p :: os)

/-- The same on a specification that cannot panic. -/
def specCaught {S Op Out : Type} (step : S → Op → S × Except Panic Out) (s : S) :
    List Op → S × List (Except Panic Out)
  | [] => (s, [])
  | op :: ops =>
    let (s, o) := step s op
    let (s, os) := specCaught step s ops
    (s, o :: os)

/-- `driveMut` (Spec/Run.lean) in place. -/
def driveMut {S It P V : Type} (next nextBack : S → It → R (It × Option P)) (read : S → P → R V)
    (write : S → P → V → R S) (it : It) : List (End × (V → V)) → U S (It × List (Option (P × V)))
  | [] => return (it, [])
  | (e, f) :: es => do
    let (it, x) ← look fun s => match e with | .front => next s it | .back => nextBack s it
    match x with
    | none => do
      let (it, xs) ← driveMut next nextBack read write it es
      return (it, none :: xs)
    | some slot => do
      let v ← look (read · slot)
      store (write · slot (f v))
      let (it, xs) ← driveMut next nextBack read write it es
      return (it, some (slot, v) :: xs)

/-- One call on a map whose `insert` and `remove` are given in place. -/
def mapCall {S K V : Type} (A : Api S K V) (insert : K → V → U S (Option Nat)) (remove : K → U S (Option V)) :
    MapSpec.Op K V → U S (MapSpec.Out K V)
  | .insert k v => do return .inserted (← insert k v).isSome
  | .remove k => do return .removed (← remove k)
  | .getMut k f => do
    match ← look (A.getMut · k) with
    | none => return .got none
    | some i => do
      let v ← look (A.readVal · i)
      store (A.write · i (f v))
      return .got (some v)
  | .iterMut es => do
    let it := A.iter (← get)
    let (_, o) ← driveMut A.nextMut A.nextBackMut A.read (fun s r e => A.write s (A.slot r) e.2) it (MapSpec.script es)
    return .seen (o.map (Option.map Prod.snd))

namespace Deq
open DequeSpec
variable {T : Type} {M : Nat}

/-- One call on the deque, in place; `bump` counts it. -/
def callBy (bump : U (Deque T M) Unit) : Op T → U (Deque T M) (Out T)
  | .pushBack v => do pushBackBy bump v; return .unit
  | .pushFront v => do pushFrontBy bump v; return .unit
  | .popBack => do return .popped (← popBackBy bump)
  | .popFront => do return .popped (← popFrontBy bump)
  | .iterMut es => do
    let it := (← get).iter
    let (_, o) ← driveMut Deque.Iter.nextMut Deque.Iter.nextBackMut Deque.getNode Deque.writeSlot it es
    return .seen (o.map (Option.map Prod.snd))

/-- One call on the deque, in place, with overflow checks. -/
def call (op : Op T) : U (Deque T M) (Out T) := callBy bumpSeq op

/-- The plain bounded queue of a client that catches panics: a push into a full queue fails and does nothing. -/
def step (maxSize : Nat) (l : List T) (op : Op T) : List T × Except Panic (Out T) :=
  match DequeSpec.step maxSize l op with
  | some (l, o) => (l, .ok o)
  | none => (l, .error .bufferFull)

end Deq

end Sokoban.InPlace
