import Verif.Model.Deque
import Verif.Spec.Run

/-
Histories of deque calls and what a plain double-ended queue of bounded length does.
-/
namespace Sokoban.DequeSpec
variable {T : Type}

/-- Mutating calls. `iterMut es`: make an `iter_mut()` and call `next` / `next_back` in the order
given, applying the given function to each element obtained. -/
inductive Op (T : Type) where
  | pushBack (v : T)
  | pushFront (v : T)
  | popBack
  | popFront
  | iterMut (es : List (End × (T → T)))

/-- Results of calls. -/
inductive Out (T : Type) where
  | unit
  | popped (v : Option T)
  | seen (vs : List (Option T))
deriving DecidableEq

/-- One call on the plain queue (front first); `none`: a push into a full queue, not allowed. -/
def step (maxSize : Nat) (l : List T) : Op T → Option (List T × Out T)
  | .pushBack v => if l.length = maxSize then none else some (l ++ [v], .unit)
  | .pushFront v => if l.length = maxSize then none else some (v :: l, .unit)
  | .popBack => some (l.dropLast, .popped l.getLast?)
  | .popFront => some (l.tail, .popped l.head?)
  | .iterMut es => let (o, l') := consumeMut l es; some (l', .seen o)

/-- The loop of `Op.iterMut` on the deque. -/
def iterMut {M : Nat} (d : Deque T M) (es : List (End × (T → T))) :
    R (Deque T M × Deque.Iter × List (Option (Nat × T))) :=
  driveMut Deque.Iter.nextMut Deque.Iter.nextBackMut Deque.getNode Deque.writeSlot d d.iter es

/-- One call on the deque. -/
def call {M : Nat} (d : Deque T M) : Op T → R (Deque T M × Out T)
  | .pushBack v => do return (← d.pushBack v, .unit)
  | .pushFront v => do return (← d.pushFront v, .unit)
  | .popBack => do let (d, v) ← d.popBack; return (d, .popped v)
  | .popFront => do let (d, v) ← d.popFront; return (d, .popped v)
  | .iterMut es => do
      let (d, _, o) ← iterMut d es
      return (d, .seen (o.map (Option.map Prod.snd)))

/-- 1 if the call changed the queue (a push, or a pop that returned something), else 0. -/
def changed : Op T → Out T → Nat
  | .pushBack _, _ => 1
  | .pushFront _, _ => 1
  | _, .popped (some _) => 1
  | _, _ => 0

/-- Number of calls in a history that changed the queue. -/
def mutations : List (Op T) → List (Out T) → Nat
  | op :: ops, o :: os => changed op o + mutations ops os
  | _, _ => 0

end Sokoban.DequeSpec
