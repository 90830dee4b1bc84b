import Verif.Proof.Queues

/-
C99: several queues in the memory of one deque, by assignments to its public fields.
-/
namespace Sokoban.Props
open Queues
open Shared (Client)
variable {T : Type} {M n : Nat}

/-- **C99**: a client which keeps `head` and `tail` of `n` queues and assigns both before it calls has `n` queues in one
deque. Every call acts on the queue in place alone, whose capacity is what the others leave. If the plain queues allow the
history, it completes with the same results; each of the queues is then what its own calls made of it, `len` and
`is_empty` speak of all queues together, and `sequence_number` counts the changes of all of them. -/
theorem C99_deque_several (hM : M + 1 < 2 ^ 32) (z : T) (j0 : Fin n) (ops : List (Op n T)) (hlen : ops.length < 2 ^ 64)
    (x : Lists n T) (outs : List (Out T)) (hspec : specRun (step M) ⟨fun _ => [], j0⟩ ops = some (x, outs)) :
    ∃ c, run exec ⟨(Deque.new z : Deque T M), fun _ => (SENTINEL, SENTINEL), j0⟩ ops = .ok (c, outs) ∧ c.cur = x.cur ∧
      (∀ j, Shows (c.switch Deque.ends Deque.setEnds j).state (x.queues j)) ∧ Shows c.state (x.queues x.cur) ∧
      x.total ≤ M ∧ c.state.len = x.total ∧ c.state.isEmpty = decide (x.total = 0) ∧
      c.state.sequenceNumber = mutations ops outs := by
  obtain ⟨c, Ls, e, h, hq⟩ := (run_fam hM ops (Fam.start z j0) (by simpa [Deque.new] using hlen)).1 x outs hspec
  have hsh : ∀ j, Shows (view c j) (x.queues j) := fun j => by rw [h.lists]; exact (h.rep j).shows
  refine ⟨c, e, h.cur, hsh, ?_, h.room, h.len, ?_, by simpa [Deque.new] using hq⟩
  · have := hsh c.cur
    rw [view_cur] at this
    rw [← h.cur]; exact this
  · unfold Deque.isEmpty
    rw [h.len]

/-- **C99**: a history which the plain queues forbid (a push when all queues together fill the deque) panics "Buffer is
full", also if the queue in place is empty. -/
theorem C99_deque_several_full (hM : M + 1 < 2 ^ 32) (z : T) (j0 : Fin n) (ops : List (Op n T)) (hlen : ops.length < 2 ^ 64)
    (hspec : specRun (step M) ⟨fun _ => [], j0⟩ ops = none) :
    run exec ⟨(Deque.new z : Deque T M), fun _ => (SENTINEL, SENTINEL), j0⟩ ops = .error .bufferFull :=
  (run_fam hM ops (Fam.start z j0) (by simpa [Deque.new] using hlen)).2 hspec

/-- **C99**: a deque which was used and whose `head` and `tail` are then set to the sentinel is empty to the eye, but the
room stays taken: it is a queue of capacity `MAX_SIZE - len`. Nothing done to it reaches the old elements: with the old
`head` and `tail` they are all back. -/
theorem C99_deque_forget (hM : M + 1 < 2 ^ 32) (z : T) (ops : List (DequeSpec.Op T)) {d : Deque T M}
    {outs : List (DequeSpec.Out T)} (hrun : run DequeSpec.call (Deque.new z) ops = .ok (d, outs)) (ops' : List (DequeSpec.Op T))
    (hlen : ops.length + ops'.length < 2 ^ 64) :
    Shows (d.setEnds (SENTINEL, SENTINEL)) [] ∧ (d.setEnds (SENTINEL, SENTINEL)).len = d.len ∧
    (∀ l outs', specRun (DequeSpec.step (M - d.len)) [] ops' = some (l, outs') →
      ∃ d' l0, run DequeSpec.call (d.setEnds (SENTINEL, SENTINEL)) ops' = .ok (d', outs') ∧ Shows d' l ∧
        d'.len = d.len + l.length ∧ Shows d l0 ∧ l0.length = d.len ∧ Shows (d'.setEnds d.ends) l0) ∧
    (specRun (DequeSpec.step (M - d.len)) [] ops' = none →
      run DequeSpec.call (d.setEnds (SENTINEL, SENTINEL)) ops' = .error .bufferFull) := by
  obtain ⟨l, h, _, hq⟩ := Deque.run_new hM z (by omega) hrun
  have h0 : Deque.DRepL (Deque.ids l) (d.setEnds (SENTINEL, SENTINEL)) [] := by
    obtain ⟨free, hf⟩ := h.inv
    refine ⟨⟨free, by simpa [Deque.setEnds] using hf⟩, by simpa [Deque.setEnds] using h.clean, trivial, fun _ hc => (by cases hc), rfl, rfl⟩
  have hll : (Deque.ids l).length = d.len := by rw [h.len]; simp
  have hseq : (d.setEnds (SENTINEL, SENTINEL)).sequenceNumber + ops'.length < 2 ^ 64 := by
    have := Deque.mutations_le ops outs
    show d.sequenceNumber + _ < _
    omega
  obtain ⟨i1, i2⟩ := Deque.run_specL hM ops' h0 hseq
  rw [hll] at i1 i2
  refine ⟨h0.shows, rfl, fun l1 outs' e => ?_, i2⟩
  obtain ⟨d', l2, er, hr, hv, _, hk⟩ := i1 l1 outs' e
  refine ⟨d', Deque.vals l, er, hv ▸ hr.shows, ?_, h.shows, by rw [h.len]; simp, ?_⟩
  · rw [hr.lenL, hll, ← hv]; simp
  · obtain ⟨free, hf⟩ := hr.inv
    exact (h.shift (L' := Deque.ids l2) (d' := d'.setEnds d.ends) rfl hk ⟨free, hf.perm List.perm_append_comm⟩
      (hr.clean.perm List.perm_append_comm)).shows

/-! ### cases -/

/-- two queues in a deque of capacity three -/
private def two : List (Op 2 Nat) :=
  [.call (.pushBack 1), .call (.pushBack 2), .switch 1, .call (.pushFront 5), .switch 0, .call .popFront, .call (.pushBack 3),
    .switch 1, .call .popBack]

/-- `C99`: the history is allowed; the first queue holds 2, 3 and the second is empty. -/
example : ((specRun (step 3) ⟨fun _ => [], 0⟩ two).map fun p => (p.1.queues 0, p.1.queues 1, p.1.total, p.2)) =
      some ([2, 3], [], 2, [.did .unit, .did .unit, .switched, .did .unit, .switched, .did (.popped (some 1)), .did .unit,
        .switched, .did (.popped (some 5))]) ∧
    ((run exec ⟨(Deque.new 0 : Deque Nat 3), fun _ => (SENTINEL, SENTINEL), 0⟩ two).map fun p =>
      (p.1.state.len, p.1.state.sequenceNumber, p.1.saved 0)) = .ok (2, 6, (2, 1)) := by
  decide +kernel

/-- `C99_deque_several_full`: two more elements are one too many, although the queue in place is then empty. -/
example : (specRun (step 3) ⟨fun _ => [], 0⟩ (two ++ [.call (.pushBack 7), .switch 0, .call (.pushBack 8)])).isNone ∧
    (specRun (step 1) ⟨fun _ => [], 0⟩ [.call (.pushBack 7), .switch (1 : Fin 2), .call (.pushBack 8)]).isNone ∧
    ((run exec ⟨(Deque.new 0 : Deque Nat 1), fun _ => (SENTINEL, SENTINEL), 0⟩
      [.call (.pushBack 7), .switch (1 : Fin 2), .call (.pushBack 8)]).map fun p => p.1.state.len) = .error .bufferFull := by
  decide +kernel

/-- `C99_deque_forget`: two elements are forgotten, one more has room, and then the two are back. -/
example : (do
    let (d, _) ← run DequeSpec.call (Deque.new 0 : Deque Nat 3) [.pushBack 1, .pushBack 2]
    let (d', _) ← run DequeSpec.call (d.setEnds (SENTINEL, SENTINEL)) [.pushBack 9]
    let e := d'.setEnds d.ends
    return (← d'.front, d'.len, ← e.front, ← e.back)) = .ok (some 9, 3, some 1, some 2) := by
  decide +kernel

end Sokoban.Props
