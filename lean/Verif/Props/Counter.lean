import Verif.Proof.Counter

/-
Property theorem C86: `sequence_number` of a deque does not influence the queue, not even at the end of its range.
-/
namespace Sokoban.Props
open InPlace DequeSpec Counter
variable {T : Type} {M : Nat}

private theorem shows {d : Deque T M} {l : List (Nat × T)} (hr : Deque.DRep d l) :
    d.front = .ok (Deque.vals l).head? ∧ d.back = .ok (Deque.vals l).getLast? ∧ d.len = (Deque.vals l).length ∧
      d.isEmpty = (Deque.vals l).isEmpty ∧
      ∀ es, ∃ it' items, drive (Deque.Iter.next d) (Deque.Iter.nextBack d) d.iter es = .ok (it', items) ∧
        items.map (Option.map Prod.snd) = consume (Deque.vals l) es := by
  refine ⟨by rw [Deque.front_spec hr]; simp, by rw [Deque.back_spec hr]; simp, by rw [hr.len]; simp, ?_, fun es => ?_⟩
  · unfold Deque.isEmpty; rw [hr.len]; cases l <;> simp
  · obtain ⟨it', e'⟩ := Deque.drive_iter hr es
    exact ⟨it', _, e', (consume_map Prod.snd es l).symm⟩

/-- **C86**, with overflow checks: in every history of calls and of writes to the public field `sequence_number`, of any
length, a client that catches panics sees a plain bounded queue and a counter. A push or pop that finds the counter at
`u64::MAX` is carried out all the same, but panics instead of returning (`checked`): the element a pop has taken out is
lost. -/
theorem C86_deque_checked (hM : M + 1 < 2 ^ 32) (z : T) (ops : List (Act T)) :
    ∃ (d : Deque T M) (l : List T) (n : Nat) (outs : List (Except Panic (Out T))),
      runCaught (act Deq.bumpSeq) (Deque.new z) ops = (d, outs) ∧ specCaught (checked M) ([], 0) ops = ((l, n), outs) ∧
      d.sequenceNumber = n ∧ n < 2 ^ 64 ∧
      d.front = .ok l.head? ∧ d.back = .ok l.getLast? ∧ d.len = l.length ∧ d.isEmpty = l.isEmpty ∧
      ∀ es, ∃ it' items, drive (Deque.Iter.next d) (Deque.Iter.nextBack d) d.iter es = .ok (it', items) ∧
        items.map (Option.map Prod.snd) = consume l es := by
  obtain ⟨l2, hr, e, hs⟩ := run_checked hM ops (Deque.new_DRep z) (by show 0 < 2 ^ 64; omega)
  exact ⟨_, _, _, _, rfl, e, rfl, hs, shows hr⟩

/-- **C86**, without overflow checks: histories may be of any length, no call but a push into a full deque panics, and
`sequence_number` counts modulo 2^64. -/
theorem C86_deque_wrapping (hM : M + 1 < 2 ^ 32) (z : T) (ops : List (Act T)) :
    ∃ (d : Deque T M) (l : List T) (n : Nat) (outs : List (Except Panic (Out T))),
      runCaught (act Deq.bumpSeqWrap) (Deque.new z) ops = (d, outs) ∧
      specCaught (wrapping M) ([], 0) ops = ((l, n), outs) ∧
      d.sequenceNumber = n ∧ n < 2 ^ 64 ∧
      d.front = .ok l.head? ∧ d.back = .ok l.getLast? ∧ d.len = l.length ∧ d.isEmpty = l.isEmpty ∧
      ∀ es, ∃ it' items, drive (Deque.Iter.next d) (Deque.Iter.nextBack d) d.iter es = .ok (it', items) ∧
        items.map (Option.map Prod.snd) = consume l es := by
  obtain ⟨l2, hr, e, hs⟩ := run_wrapping hM ops (Deque.new_DRep z) (by show 0 < 2 ^ 64; omega)
  exact ⟨_, _, _, _, rfl, e, rfl, hs, shows hr⟩

/-- **C86**: the two builds differ only where the checked one panics with an overflow. A history during which that does
not happen gives the same memory and the same results in both. -/
theorem C86_builds_agree (hM : M + 1 < 2 ^ 32) (z : T) (ops : List (Act T))
    (hno : .error .overflow ∉ (runCaught (act Deq.bumpSeq) (Deque.new z : Deque T M) ops).2) :
    runCaught (act Deq.bumpSeqWrap) (Deque.new z : Deque T M) ops = runCaught (act Deq.bumpSeq) (Deque.new z) ops :=
  same_run hM ops (Deque.new_DRep z) (by show 0 < 2 ^ 64; omega) hno

/-! Cases: a capacity of 2 and a counter that a client has set to the greatest `u64`. -/

private instance {α : Type} [DecidableEq α] : DecidableEq (Except Panic α)
  | .ok a, .ok b => decidable_of_iff (a = b) ⟨congrArg _, Except.ok.inj⟩
  | .error a, .error b => decidable_of_iff (a = b) ⟨congrArg _, Except.error.inj⟩
  | .ok _, .error _ => .isFalse nofun
  | .error _, .ok _ => .isFalse nofun

private def hist : List (Act Nat) :=
  [.call (.pushBack 7), .setSeq (2 ^ 64 - 1), .call (.pushBack 8), .call (.pushFront 9), .call .popFront, .call .popBack,
    .call .popBack, .setSeq 5, .call (.pushFront 3), .call .popBack]

/-- checked: 8 is in the queue though its push panicked, 7 is lost, 8 is lost -/
example : (runCaught (act Deq.bumpSeq) (Deque.new 0 : Deque Nat 2) hist).2 =
    [.ok .unit, .ok .unit, .error .overflow, .error .bufferFull, .error .overflow, .error .overflow, .ok (.popped none),
      .ok .unit, .ok .unit, .ok (.popped (some 3))] ∧
    (runCaught (act Deq.bumpSeq) (Deque.new 0 : Deque Nat 2) hist).1.sequenceNumber = 7 := by decide +kernel

/-- wrapping -/
example : (runCaught (act Deq.bumpSeqWrap) (Deque.new 0 : Deque Nat 2) hist).2 =
    [.ok .unit, .ok .unit, .ok .unit, .error .bufferFull, .ok (.popped (some 7)), .ok (.popped (some 8)),
      .ok (.popped none), .ok .unit, .ok .unit, .ok (.popped (some 3))] ∧
    (runCaught (act Deq.bumpSeqWrap) (Deque.new 0 : Deque Nat 2) (hist.take 5)).1.sequenceNumber = 1 := by decide +kernel

/-- a history without overflow, on which both agree -/
example : .error .overflow ∉ (runCaught (act Deq.bumpSeq) (Deque.new 0 : Deque Nat 2)
    [.call (.pushBack 7), .call (.pushBack 8), .call (.pushBack 9), .setSeq (2 ^ 64 - 2), .call .popFront]).2 := by
  decide +kernel

end Sokoban.Props
