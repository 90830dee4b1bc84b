import Verif.Spec.Map

/-
Every key of a map as a variable of its own, and calls that compete for the last free slot.
-/
namespace Sokoban.MapSpec
variable {K V : Type}

/-- The call concerns the key `k` (and no other). -/
def Op.On (k : K) : Op K V → Prop
  | .insert k' _ => k' = k
  | .remove k' => k' = k
  | .getMut k' _ => k' = k
  | .iterMut _ => False

instance [DecidableEq K] (k : K) (op : Op K V) : Decidable (op.On k) := by
  cases op <;> simp only [Op.On] <;> infer_instance

/-- The result of an `insert` that returned `None`. -/
def Out.refusal : Out K V → Bool
  | .inserted ok => !ok
  | _ => false

/-- The calls of a history that concern `k`, with their results, those refused left out. -/
def accepted [DecidableEq K] (k : K) (ops : List (Op K V)) (outs : List (Out K V)) : List (Op K V × Out K V) :=
  (ops.zip outs).filter fun p => decide (p.1.On k) && !p.2.refusal

/-- What a call does to an optional value: its result and the new value. -/
def cell (c : Option V) : Op K V → Out K V × Option V
  | .insert _ v => (.inserted true, some v)
  | .remove _ => (.removed c, none)
  | .getMut _ f => (.got c, c.map f)
  | .iterMut _ => (.seen [], c)

/-- Calls on a single optional value: their results and the last value. -/
def cellRun (c : Option V) : List (Op K V) → List (Out K V) × Option V
  | [] => ([], c)
  | op :: ops => let (os, c') := cellRun (cell c op).2 ops; ((cell c op).1 :: os, c')

/-- An `insert` of a key that `get` does not find. -/
def Brings (get : K → R (Option V)) (op : Op K V) : Prop := ∃ k v, op = .insert k v ∧ get k = .ok none

/-- A `remove` of a key that `get` finds. -/
def Drops (get : K → R (Option V)) (op : Op K V) : Prop := ∃ k v, op = .remove k ∧ get k = .ok (some v)

/-- An `insert`. -/
def IsInsert (op : Op K V) : Prop := ∃ k v, op = .insert k v

/-- Two calls of which one decides whether there is room for the other: two new keys and one free slot, or a new key
and a removal in a full map. -/
def Compete (get : K → R (Option V)) (len cap : Nat) (op op' : Op K V) : Prop :=
  (len + 1 = cap ∧ Brings get op ∧ Brings get op') ∨
  (len = cap ∧ (Brings get op ∧ Drops get op' ∨ Drops get op ∧ Brings get op'))

/-- The same in a `Critbit`, which when full refuses known keys too. -/
def CompeteAny (get : K → R (Option V)) (len cap : Nat) (op op' : Op K V) : Prop :=
  (len + 1 = cap ∧ (Brings get op ∧ IsInsert op' ∨ IsInsert op ∧ Brings get op')) ∨
  (len = cap ∧ (IsInsert op ∧ Drops get op' ∨ Drops get op ∧ IsInsert op'))

end Sokoban.MapSpec
