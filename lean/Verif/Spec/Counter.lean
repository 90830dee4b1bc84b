import Verif.Spec.InPlace

/-
Histories in which `sequence_number` of a deque reaches the end of its range.
-/
namespace Sokoban.Counter
open DequeSpec InPlace
variable {T : Type} {M : Nat}

/-- A call, or a write to the public field `sequence_number` (deque.rs:14). -/
inductive Act (T : Type) where
  | call (op : Op T)
  | setSeq (n : UInt64)

/-- On the deque; `bump` is the statement `self.sequence_number += 1`. -/
def act (bump : U (Deque T M) Unit) : Act T → U (Deque T M) (Out T)
  | .call op => Deq.callBy bump op
  | .setSeq n => do modify fun d => { d with sequenceNumber := n.toNat }; return .unit

/-- On a plain bounded queue and a counter, with overflow checks: a call that would push the counter beyond the greatest
`u64` is done, but it panics instead of returning. -/
def checked (maxSize : Nat) (s : List T × Nat) : Act T → (List T × Nat) × Except Panic (Out T)
  | .setSeq n => ((s.1, n.toNat), .ok .unit)
  | .call op =>
    match DequeSpec.step maxSize s.1 op with
    | none => (s, .error .bufferFull)
    | some (l, o) =>
      if s.2 + changed op o < 2 ^ 64 then ((l, s.2 + changed op o), .ok o) else ((l, s.2), .error .overflow)

/-- On a plain bounded queue and a counter, without overflow checks. -/
def wrapping (maxSize : Nat) (s : List T × Nat) : Act T → (List T × Nat) × Except Panic (Out T)
  | .setSeq n => ((s.1, n.toNat), .ok .unit)
  | .call op =>
    match DequeSpec.step maxSize s.1 op with
    | none => (s, .error .bufferFull)
    | some (l, o) => ((l, (s.2 + changed op o) % 2 ^ 64), .ok o)

end Sokoban.Counter
