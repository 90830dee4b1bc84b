import Verif.Model.Alloc

/-
Histories of API calls, two-ended consumption of sequences, and the client loops that
drive iterators. Nothing here mentions how a structure is represented.
-/
namespace Sokoban

/-- Run a history of calls; stops at the first panic. Returns the results of the calls. -/
def run {S Op Out : Type} (step : S → Op → R (S × Out)) (s : S) : List Op → R (S × List Out)
  | [] => .ok (s, [])
  | op :: ops => do
    let (s, o) ← step s op
    let (s, os) ← run step s ops
    return (s, o :: os)

/-- Run a history on a specification; `none` means that the specification does not allow it. -/
def specRun {S Op Out : Type} (step : S → Op → Option (S × Out)) (s : S) :
    List Op → Option (S × List Out)
  | [] => some (s, [])
  | op :: ops => do
    let (s, o) ← step s op
    let (s, os) ← specRun step s ops
    return (s, o :: os)

/-- What a history may do when a single call is described by a relation: `Trace step s ops outs s'`
when the calls `ops` can lead from `s` to `s'` with results `outs`. -/
def Trace {S Op Out : Type} (step : S → Op → Out → S → Prop) (s : S) :
    List Op → List Out → S → Prop
  | [], [], s' => s' = s
  | op :: ops, o :: os, s' => ∃ s1, step s op o s1 ∧ Trace step s1 ops os s'
  | _, _, _ => False

/-- From which end of a double-ended iterator the next element is asked. -/
inductive End where
  | front
  | back
deriving DecidableEq, Repr

/-- Consuming a plain sequence from both ends: `next()` yields the first remaining element,
`next_back()` the last remaining one, `None` once nothing remains. -/
def consume {α : Type} : List α → List End → List (Option α)
  | _, [] => []
  | l, .front :: es => l.head? :: consume l.tail es
  | l, .back :: es => l.getLast? :: consume l.dropLast es

/-- Consuming a plain sequence from both ends while modifying the elements seen: returns the
elements as they were seen and the resulting sequence. -/
def consumeMut {α : Type} : List α → List (End × (α → α)) → List (Option α) × List α
  | l, [] => ([], l)
  | [], _ :: es => let (o, l') := consumeMut [] es; (none :: o, l')
  | x :: l, (.front, f) :: es =>
      let (o, l') := consumeMut l es
      (some x :: o, f x :: l')
  | x :: l, (.back, f) :: es =>
      let (o, l') := consumeMut (x :: l).dropLast es
      let y := (x :: l).getLast (by simp)
      (some y :: o, l' ++ [f y])

/-- Client loop over an iterator with calls from either end. -/
def drive {It α : Type} (next nextBack : It → R (It × Option α)) (it : It) :
    List End → R (It × List (Option α))
  | [] => .ok (it, [])
  | e :: es => do
    let (it, x) ← (match e with | .front => next it | .back => nextBack it)
    let (it, xs) ← drive next nextBack it es
    return (it, x :: xs)

/-- Client loop over a mutable iterator: at every element the client reads the value through
the reference it got and writes a new value through it, all while the iterator is alive. The
result lists, per call, the slot referred to and the value read. `P` is the type of references. -/
def driveMut {S It P V : Type} (next nextBack : S → It → R (It × Option P))
    (read : S → P → R V) (write : S → P → V → R S) (s : S) (it : It) :
    List (End × (V → V)) → R (S × It × List (Option (P × V)))
  | [] => .ok (s, it, [])
  | (e, f) :: es => do
    let (it, x) ← (match e with | .front => next s it | .back => nextBack s it)
    match x with
    | none => do
      let (s, it, xs) ← driveMut next nextBack read write s it es
      return (s, it, none :: xs)
    | some slot => do
      let v ← read s slot
      let s ← write s slot (f v)
      let (s, it, xs) ← driveMut next nextBack read write s it es
      return (s, it, some (slot, v) :: xs)

end Sokoban
