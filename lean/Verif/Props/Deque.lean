import Verif.Proof.DequeHist

/-
Property theorems C09-C14 (Deque) and the deque part of C06.

A history is a list of calls `ops` made on a new deque; `run call (Deque.new z) ops`
(Spec/Run.lean) gives the final deque and the results of the calls. `DequeSpec.step` is the
plain bounded queue. `sequence_number` is a `u64`, so histories shorter than 2^64 calls.
-/
namespace Sokoban.Props
open DequeSpec
variable {T : Type} {M : Nat}

/-- C09: if a plain queue of capacity `MAX_SIZE` allows the history (no push while full), the
deque completes it with the same results, and afterwards `front`, `back`, `len`, `is_empty` and
the iterator agree with the plain queue. -/
theorem C09_deque_refines_queue (hM : M + 1 < 2 ^ 32) (z : T) (ops : List (Op T))
    (hlen : ops.length < 2 ^ 64) (l : List T) (outs : List (Out T))
    (hspec : specRun (step M) [] ops = some (l, outs)) :
    ∃ d : Deque T M, run call (Deque.new z) ops = .ok (d, outs) ∧
      d.front = .ok l.head? ∧ d.back = .ok l.getLast? ∧ d.len = l.length ∧
      d.isEmpty = l.isEmpty := by
  obtain ⟨d, l2, e, hr, hv, _⟩ :=
    (Deque.run_spec hM ops (Deque.new_DRep z) (by simpa [Deque.new] using hlen)).1 l outs hspec
  subst hv
  refine ⟨d, e, ?_, ?_, ?_, ?_⟩
  · rw [Deque.front_spec hr]; simp
  · rw [Deque.back_spec hr]; simp
  · rw [hr.len]; simp
  · unfold Deque.isEmpty; rw [hr.len]; cases l2 <;> simp

/-- C10: a history that a plain queue forbids (a push while full) panics "Buffer is full". -/
theorem C10_deque_overflow_panics (hM : M + 1 < 2 ^ 32) (z : T) (ops : List (Op T))
    (hlen : ops.length < 2 ^ 64) (hspec : specRun (step M) [] ops = none) :
    run call (Deque.new z : Deque T M) ops = .error .bufferFull :=
  (Deque.run_spec hM ops (Deque.new_DRep z) (by simpa [Deque.new] using hlen)).2 hspec

/-- C10: at the end of any history, the next call panics iff it is a push and
`len() == MAX_SIZE`; `front` and `back` never panic. -/
theorem C10_deque_panics_only_when_full (hM : M + 1 < 2 ^ 32) (z : T) (ops : List (Op T))
    (hlen : ops.length + 1 < 2 ^ 64) {d : Deque T M} {outs : List (Out T)}
    (h : run call (Deque.new z) ops = .ok (d, outs)) :
    (∀ v, d.len = M → d.pushBack v = .error .bufferFull ∧ d.pushFront v = .error .bufferFull) ∧
    (∀ op e, call d op = .error e → e = .bufferFull ∧ d.len = M ∧ ∃ v, op = .pushBack v ∨ op = .pushFront v) ∧
    (∃ x, d.front = .ok x) ∧ (∃ x, d.back = .ok x) := by
  obtain ⟨l, hr, hsp, hsq⟩ := Deque.run_new hM z (by omega) h
  have hs : d.sequenceNumber + 1 < 2 ^ 64 := by
    have := Deque.mutations_le ops outs; omega
  refine ⟨fun v hl => Deque.push_full hr hM (by rw [← hr.len]; exact hl) v, fun op e he => ?_,
    ⟨_, Deque.front_spec hr⟩, ⟨_, Deque.back_spec hr⟩⟩
  obtain ⟨c1, c2⟩ := Deque.call_spec hr hM hs op
  cases hst : step M (Deque.vals l) op with
  | some p =>
    obtain ⟨d', l2, e', _⟩ := c1 p.1 p.2 hst
    rw [e'] at he; cases he
  | none =>
    rw [c2 hst] at he; cases he
    refine ⟨rfl, ?_, ?_⟩
    · rw [hr.len]; cases op <;> simp [step] at hst <;> exact hst
    · cases op with
      | pushBack v => exact ⟨v, Or.inl rfl⟩
      | pushFront v => exact ⟨v, Or.inr rfl⟩
      | _ => simp [step] at hst

/-- C11: for any order of `next` / `next_back` calls, `iter()` yields what consuming the queue
from both ends yields: each element once, in order, then `None` for ever. -/
theorem C11_deque_iter (hM : M + 1 < 2 ^ 32) (z : T) (ops : List (Op T)) (hlen : ops.length < 2 ^ 64)
    (l : List T) (outs : List (Out T)) (hspec : specRun (step M) [] ops = some (l, outs))
    (es : List End) :
    ∃ (d : Deque T M) (it' : Deque.Iter) (items : List (Option (Nat × T))),
      run call (Deque.new z) ops = .ok (d, outs) ∧
      drive (Deque.Iter.next d) (Deque.Iter.nextBack d) d.iter es = .ok (it', items) ∧
      items.map (Option.map Prod.snd) = consume l es := by
  obtain ⟨d, l2, e, hr, hv, _⟩ :=
    (Deque.run_spec hM ops (Deque.new_DRep z) (by simpa [Deque.new] using hlen)).1 l outs hspec
  subst hv
  obtain ⟨it', e'⟩ := Deque.drive_iter hr es
  refine ⟨d, it', _, e, e', ?_⟩
  exact (consume_map Prod.snd es l2).symm

/-- C12: `iter_mut`, driven in any order `es` with writes through every reference obtained:
the slots handed out are pairwise distinct and in bounds, the values read are those of the queue
consumed from both ends; afterwards any iteration `es'` yields the same indices as before and the
queue in which exactly the visited elements were replaced; `len` is unchanged. -/
theorem C12_deque_iter_mut (hM : M + 1 < 2 ^ 32) (z : T) (ops : List (Op T))
    (hlen : ops.length < 2 ^ 64) (l : List T) (outs : List (Out T))
    (hspec : specRun (step M) [] ops = some (l, outs)) (es : List (End × (T → T))) :
    ∃ (d d' : Deque T M) (it : Deque.Iter) (items : List (Option (Nat × T))),
      run call (Deque.new z) ops = .ok (d, outs) ∧
      driveMut Deque.Iter.nextMut Deque.Iter.nextBackMut Deque.getNode Deque.writeSlot d d.iter es
        = .ok (d', it, items) ∧
      ((items.filterMap id).map Prod.fst).Nodup ∧
      (∀ x ∈ items.filterMap id, 1 ≤ x.1 ∧ x.1 ≤ M) ∧
      items.map (Option.map Prod.snd) = (consumeMut l es).1 ∧
      d'.len = d.len ∧
      ∀ es', ∃ it1 items1 it2 items2,
        drive (Deque.Iter.next d) (Deque.Iter.nextBack d) d.iter es' = .ok (it1, items1) ∧
        drive (Deque.Iter.next d') (Deque.Iter.nextBack d') d'.iter es' = .ok (it2, items2) ∧
        items2.map (Option.map Prod.fst) = items1.map (Option.map Prod.fst) ∧
        items2.map (Option.map Prod.snd) = consume (consumeMut l es).2 es' := by
  obtain ⟨d, l2, e, hr, hv, _⟩ :=
    (Deque.run_spec hM ops (Deque.new_DRep z) (by simpa [Deque.new] using hlen)).1 l outs hspec
  subst hv
  obtain ⟨d', it', e', hr', _⟩ := Deque.iterMut_spec hr es
  have hmap := consumeMut_map (Prod.snd : Nat × T → T) Deque.updVal (fun f => f) (fun _ _ => rfl) es l2
  have hfst := consumeMut_map (Prod.fst : Nat × T → Nat) Deque.updVal (fun _ i => i) (fun _ _ => rfl) es l2
  have hid := consumeMut_id_snd (l2.map Prod.fst) (es.map fun e => e.1)
  simp only [Prod.eta, List.map_id'] at hmap
  obtain ⟨rest, hsub⟩ := consumeMut_sub (es.map fun e => (e.1, Deque.updVal e.2)) l2
  refine ⟨d, d', it', _, e, e', ?_, ?_, hmap.1.symm, ?_, ?_⟩
  · have h1 := (hsub.map Prod.fst).nodup_iff.2 hr.nodup
    rw [List.map_append] at h1
    exact (List.nodup_append.1 h1).1
  · intro x hx
    apply hr.range
    exact List.mem_map_of_mem (hsub.mem_iff.1 (List.mem_append_left _ hx))
  · rw [hr.len, hr'.len, consumeMut_length]
  · intro es'
    obtain ⟨it1, e1⟩ := Deque.drive_iter hr es'
    obtain ⟨it2, e2⟩ := Deque.drive_iter hr' es'
    refine ⟨it1, _, it2, _, e1, e2, ?_, ?_⟩
    · rw [← consume_map, ← consume_map, ← hfst.2]
      rw [List.map_map] at hid
      exact congrArg (consume · es') hid
    · rw [← consume_map, hmap.2]

/-- C13: `sequence_number` is the number of pushes plus the number of pops that returned
something. -/
theorem C13_sequence_number (hM : M + 1 < 2 ^ 32) (z : T) (ops : List (Op T))
    (hlen : ops.length < 2 ^ 64) {d : Deque T M} {outs : List (Out T)}
    (h : run call (Deque.new z) ops = .ok (d, outs)) :
    d.sequenceNumber = mutations ops outs := by
  obtain ⟨l, hr, hsp, hsq⟩ := Deque.run_new hM z hlen h
  exact hsq

/-- C13: pops on an empty deque return `None` and leave the deque as it is. -/
theorem C13_pop_empty (hM : M + 1 < 2 ^ 32) (z : T) (ops : List (Op T))
    (hlen : ops.length + 1 < 2 ^ 64) {d : Deque T M} {outs : List (Out T)}
    (h : run call (Deque.new z) ops = .ok (d, outs)) (he : d.len = 0) :
    d.popFront = .ok (d, none) ∧ d.popBack = .ok (d, none) := by
  obtain ⟨l, hr, hsp, hsq⟩ := Deque.run_new hM z (by omega) h
  have hs : d.sequenceNumber + 1 < 2 ^ 64 := by
    have := Deque.mutations_le ops outs; omega
  have hl : l = [] := by rw [hr.len] at he; exact List.length_eq_zero_iff.1 he
  subst hl
  obtain ⟨d1, e1, _, h1, _⟩ := Deque.popFront_spec hr hs
  obtain ⟨d2, e2, _, h2, _⟩ := Deque.popBack_spec hr hs
  rw [h1 rfl] at e1; rw [h2 rfl] at e2
  exact ⟨e1, e2⟩

/-- C14: there is one list of indices, without repetitions and in `1..=MAX_SIZE`, such that `head`
and `tail` are its ends, `get_next` / `get_prev` step along it and end at `SENTINEL`, and iteration
reports exactly these indices in this order with the elements of the queue. -/
theorem C14_linked_list (hM : M + 1 < 2 ^ 32) (z : T) (ops : List (Op T))
    (hlen : ops.length < 2 ^ 64) (l : List T) (outs : List (Out T))
    (hspec : specRun (step M) [] ops = some (l, outs)) :
    ∃ (d : Deque T M) (is : List Nat), run call (Deque.new z) ops = .ok (d, outs) ∧
      is.length = l.length ∧ is.Nodup ∧ (∀ i ∈ is, 1 ≤ i ∧ i ≤ M) ∧
      d.head = is.headD SENTINEL ∧ d.tail = is.getLastD SENTINEL ∧
      (∀ k i, is[k]? = some i → d.getNext i = .ok (is[k + 1]?.getD SENTINEL)) ∧
      (∀ k i, is[k]? = some i →
        d.getPrev i = .ok (if k = 0 then SENTINEL else is[k - 1]?.getD SENTINEL)) ∧
      ∀ es, ∃ it', drive (Deque.Iter.next d) (Deque.Iter.nextBack d) d.iter es =
        .ok (it', consume (is.zip l) es) := by
  obtain ⟨d, l2, e, hr, hv, _⟩ :=
    (Deque.run_spec hM ops (Deque.new_DRep z) (by simpa [Deque.new] using hlen)).1 l outs hspec
  subst hv
  have hsplit : ∀ k i, (Deque.ids l2)[k]? = some i → ∃ l1 l3 v, l2 = l1 ++ (i, v) :: l3 ∧ l1.length = k := by
    intro k i hk
    simp only [Deque.ids, List.getElem?_map, Option.map_eq_some_iff] at hk
    obtain ⟨x, hx, rfl⟩ := hk
    obtain ⟨hlt, hx⟩ := List.getElem?_eq_some_iff.1 hx
    refine ⟨l2.take k, l2.drop (k + 1), x.2, ?_, by simp; omega⟩
    show l2 = l2.take k ++ x :: l2.drop (k + 1)
    rw [← hx, List.getElem_cons_drop, List.take_append_drop]
  refine ⟨d, Deque.ids l2, e, by simp, hr.nodup, fun i hi => hr.range hi, hr.head, hr.tail, ?_, ?_, ?_⟩
  · intro k i hk
    obtain ⟨l1, l3, v, rfl, rfl⟩ := hsplit k i hk
    have hi : i ∈ Deque.ids (l1 ++ (i, v) :: l3) := by simp
    unfold Deque.getNext Deque.NEXT
    rw [NodeAllocator.getRegister_ok _ (hr.range hi).2 (by omega), hr.neighbours.2]
    refine congrArg Except.ok ?_
    rw [show Deque.ids (l1 ++ (i, v) :: l3) = Deque.ids l1 ++ i :: Deque.ids l3 by simp]
    rw [List.getElem?_append_right (by simp)]
    cases l3 <;> simp [SENTINEL]
  · intro k i hk
    obtain ⟨l1, l3, v, rfl, rfl⟩ := hsplit k i hk
    have hi : i ∈ Deque.ids (l1 ++ (i, v) :: l3) := by simp
    unfold Deque.getPrev Deque.PREV
    rw [NodeAllocator.getRegister_ok _ (hr.range hi).2 (by omega), hr.neighbours.1]
    congr 1
    rcases List.eq_nil_or_concat l1 with rfl | ⟨m, x, rfl⟩
    · simp [SENTINEL]
    · simp [Deque.ids]
  · intro es
    obtain ⟨it', e'⟩ := Deque.drive_iter hr es
    refine ⟨it', ?_⟩
    rw [e']
    congr 3
    exact (List.zip_map_fst_snd' l2).symm

/-- C06 for the deque: `new_from_slice` on zeroed memory gives `Deque::new()`, and after any
history a second `initialize` panics. -/
theorem C06_deque_initialize (hM : M + 1 < 2 ^ 32) (z : T) :
    (Deque.zeroed z : Deque T M).initialise = .ok (Deque.new z) ∧
    ∀ (ops : List (Op T)) (d : Deque T M) (outs : List (Out T)), ops.length < 2 ^ 64 →
      run call (Deque.new z) ops = .ok (d, outs) → d.initialise = .error .reinit := by
  refine ⟨rfl, fun ops d outs hlen h => ?_⟩
  obtain ⟨l, hr, _⟩ := Deque.run_new hM z hlen h
  obtain ⟨free, hf⟩ := hr.inv
  unfold Deque.initialise
  rw [NodeAllocator.reinit_of_inv hf]; rfl

/-! ### non-vacuity -/

/-- A history allowed by the specification, with a full deque at one point, pops, and an
`iter_mut` (hypothesis `specRun .. = some ..` of C09, C11, C12, C14). -/
example : specRun (step 2) ([] : List Nat)
    [.pushBack 1, .pushFront 2, .popBack, .pushBack 5, .iterMut [(.back, (· + 10)), (.front, (· * 2))]] =
    some ([4, 15], [.unit, .unit, .popped (some 1), .unit, .seen [some 5, some 2]]) := rfl

/-- A history forbidden by the specification (C10). -/
example : specRun (step 1) ([] : List Nat) [.pushBack 1, .pushFront 2] = none := rfl

/-- A successful run of the model (hypothesis of the other theorems). -/
example : ∃ d, run call (Deque.new 0 : Deque Nat 2) [.pushBack 1, .pushFront 2, .popBack, .popBack] =
    .ok (d, [.unit, .unit, .popped (some 1), .popped (some 2)]) ∧ d.len = 0 := ⟨_, rfl, rfl⟩

end Sokoban.Props
