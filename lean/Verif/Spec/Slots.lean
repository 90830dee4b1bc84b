import Verif.Spec.RedBlack
import Verif.Spec.Map
import Verif.Spec.Deque

/-
Which slot every key gets, said without any structure: slots are handed out in the order 1, 2, 3, …, except that a
slot which was given back is handed out again before a new one is begun, the one given back last first.
-/
namespace Sokoban
variable {K V : Type}

/-- The keys with their slots, and the slots which were given back, the last one first. -/
structure Slots (K : Type) where
  used : List (K × Nat)
  free : List Nat

namespace Slots

/-- What a call means for the slots: `put k` asks for a slot unless `k` has one, `drop k` gives the slot of `k` back. -/
inductive Act (K : Type) where
  | put (k : K)
  | drop (k : K)
  | keep

/-- At the beginning. -/
def empty : Slots K := ⟨[], []⟩

variable [DecidableEq K]

/-- The slot of `k`. -/
def find (σ : Slots K) (k : K) : Option Nat := (σ.used.find? (fun e => e.1 = k)).map Prod.snd

/-- The slot that is handed out next. -/
def fresh (σ : Slots K) : Nat := σ.free.headD (σ.used.length + 1)

/-- The slot that an insertion of `k` reports, if there are `cap` slots. -/
def place (cap : Nat) (σ : Slots K) (k : K) : Option Nat :=
  match σ.find k with
  | some i => some i
  | none => if σ.used.length = cap then none else some σ.fresh

/-- One call. -/
def step (cap : Nat) (σ : Slots K) : Act K → Slots K
  | .keep => σ
  | .put k =>
      if (σ.find k).isSome ∨ σ.used.length = cap then σ
      else ⟨(k, σ.fresh) :: σ.used, σ.free.tail⟩
  | .drop k =>
      match σ.find k with
      | none => σ
      | some i => ⟨σ.used.filter (fun e => e.1 ≠ k), i :: σ.free⟩

/-- A history. -/
def after (cap : Nat) (acts : List (Act K)) : Slots K := acts.foldl (step cap) empty

end Slots

/-- The slots of a queue, front first, and the slots which were given back, the last one first. -/
structure Line where
  used : List Nat
  free : List Nat

namespace Line
variable {T : Type}

/-- The slot that is handed out next. -/
def fresh (σ : Line) : Nat := σ.free.headD (σ.used.length + 1)

/-- One call. The values, and what the calls return, do not matter. -/
def step (σ : Line) : DequeSpec.Op T → Line
  | .pushBack _ => ⟨σ.used ++ [σ.fresh], σ.free.tail⟩
  | .pushFront _ => ⟨σ.fresh :: σ.used, σ.free.tail⟩
  | .popBack => ⟨σ.used.dropLast, σ.used.getLast?.toList ++ σ.free⟩
  | .popFront => ⟨σ.used.tail, σ.used.head?.toList ++ σ.free⟩
  | .iterMut _ => σ

/-- A history. -/
def after (ops : List (DequeSpec.Op T)) : Line := ops.foldl step ⟨[], []⟩

end Line

namespace MapSpec
open Slots

/-- What the calls of a map mean for the slots. The values, and what the calls return, do not matter. -/
def act : Op K V → Act K
  | .insert k _ => .put k
  | .remove k => .drop k
  | .getMut _ _ => .keep
  | .iterMut _ => .keep

end MapSpec

namespace RedBlackSpec
open Slots MapSpec

/-- The same with `remove_root`; here the key which was returned matters. -/
def act : TOp K V × TOut K V → Act K
  | (.map op, _) => MapSpec.act op
  | (.removeRoot, .root (some (k, _))) => .drop k
  | (.removeRoot, _) => .keep

end RedBlackSpec
end Sokoban
