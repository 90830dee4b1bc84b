import Verif.Spec.Slots
import Verif.Proof.DequeHist
import Verif.Proof.PeakMap
import Verif.Proof.HashTableIter

/-
`Line` for the deque.
-/
namespace Sokoban.Deque
open DequeSpec NodeAllocator
variable {T : Type} {M : Nat} {d d' : Deque T M} {l : List (Nat × T)} {F : List Nat}

theorem popFront_free (h : DRep d l) (hs : d.sequenceNumber + 1 < 2 ^ 64) (hF : AInv d.allocator F (ids l)) :
    ∃ d', d.popFront = .ok (d', l.head?.map Prod.snd) ∧ DRep d' l.tail ∧
      AInv d'.allocator ((ids l).head?.toList ++ F) (ids l.tail) := by
  unfold popFront SENTINEL
  cases l with
  | nil => exact ⟨d, by rw [if_pos (h.head_zero.2 rfl)]; rfl, h, hF⟩
  | cons x l =>
    rw [if_neg (fun hc => by simpa using h.head_zero.1 hc)]
    have hh : d.head = x.1 := by rw [h.head]; rfl
    obtain ⟨d', e, hr, _, hf⟩ := remove'_free (l1 := []) (i := x.1) (v := x.2) h hs (Or.inl rfl)
    exact ⟨d', by rw [hh, e]; rfl, hr, hf F hF⟩

theorem popBack_free (h : DRep d l) (hs : d.sequenceNumber + 1 < 2 ^ 64) (hF : AInv d.allocator F (ids l)) :
    ∃ d', d.popBack = .ok (d', l.getLast?.map Prod.snd) ∧ DRep d' l.dropLast ∧
      AInv d'.allocator ((ids l).getLast?.toList ++ F) (ids l.dropLast) := by
  unfold popBack SENTINEL
  rcases List.eq_nil_or_concat l with rfl | ⟨m, x, rfl⟩
  · exact ⟨d, by rw [if_pos (h.tail_zero.2 rfl)]; rfl, h, hF⟩
  · simp only [List.concat_eq_append] at *
    rw [if_neg (fun hc => by simpa using h.tail_zero.1 hc)]
    have hh : d.tail = x.1 := by rw [h.tail]; simp
    obtain ⟨d', e, hr, _, hf⟩ := remove'_free (l1 := m) (i := x.1) (v := x.2) (l2 := []) h hs (Or.inr rfl)
    exact ⟨d', by rw [hh, e]; simp, by simpa using hr, by simpa using hf F hF⟩

theorem writeSlot_free {i : Nat} {v : T} (e : d.writeSlot i v = .ok d') :
    (d'.allocator.size, d'.allocator.bumpIndex, d'.allocator.freeListHead, d'.allocator.reg) =
      (d.allocator.size, d.allocator.bumpIndex, d.allocator.freeListHead, d.allocator.reg) := by
  unfold writeSlot at e
  by_cases hi : 1 ≤ i ∧ i ≤ M
  · rw [setValue_ok _ v hi.1 hi.2] at e
    cases e
    have : (d.allocator.setVal i v).reg = d.allocator.reg := by funext k s; simp
    simp [this]
  · exfalso
    have hg : ∃ p, d.allocator.setValue i v = .error p := by
      unfold NodeAllocator.setValue NodeAllocator.get
      rw [dif_neg (fun hc => hi ⟨hc.1, by omega⟩)]
      exact ⟨_, rfl⟩
    obtain ⟨p, hp⟩ := hg
    rw [hp] at e; cases e

/-- one call -/
theorem call_free (h : DRep d l) (hF : AInv d.allocator F (ids l)) (hM : M + 1 < 2 ^ 32)
    (hs : d.sequenceNumber + 1 < 2 ^ 64) {op : Op T} {o : Out T} (e : call d op = .ok (d', o)) :
    ∃ l', DRep d' l' ∧ ids l' = (Line.step ⟨ids l, F⟩ op).used ∧ AInv d'.allocator (Line.step ⟨ids l, F⟩ op).free (ids l') := by
  have hle := h.le
  cases op with
  | pushBack v =>
    by_cases hf : l.length = M
    · simp only [call, (push_full h hM hf v).1] at e; cases e
    · obtain ⟨d1, i, e1, hr, _, hf⟩ := pushBack_free h hM hs (by omega) v
      simp only [call, e1] at e; cases e
      obtain ⟨rfl, hA⟩ := hf F hF
      exact ⟨_, hr, by simp [Line.step, Line.fresh], hA⟩
  | pushFront v =>
    by_cases hf : l.length = M
    · simp only [call, (push_full h hM hf v).2] at e; cases e
    · obtain ⟨d1, i, e1, hr, _, hf⟩ := pushFront_free h hM hs (by omega) v
      simp only [call, e1] at e; cases e
      obtain ⟨rfl, hA⟩ := hf F hF
      exact ⟨_, hr, by simp [Line.step, Line.fresh], hA⟩
  | popBack =>
    obtain ⟨d1, e1, hr, hA⟩ := popBack_free h hs hF
    simp only [call, e1] at e; cases e
    exact ⟨_, hr, by simp [Line.step], hA⟩
  | popFront =>
    obtain ⟨d1, e1, hr, hA⟩ := popFront_free h hs hF
    simp only [call, e1] at e; cases e
    exact ⟨_, hr, by simp [Line.step], hA⟩
  | iterMut es =>
    obtain ⟨d1, it', e1, hr, _⟩ := iterMut_spec h es
    have hfr := driveMut_frame (fun s : Deque T M => (s.allocator.size, s.allocator.bumpIndex, s.allocator.freeListHead,
      s.allocator.reg)) (fun s i v s' e => writeSlot_free e) es d d.iter e1
    simp only [call, e1] at e; cases e
    have hids : ids (consumeMut l (es.map fun e => (e.1, updVal e.2))).2 = ids l :=
      consumeMut_snd_map Prod.fst _ l (by
        intro e he x
        obtain ⟨e', _, rfl⟩ := List.mem_map.1 he
        rfl)
    refine ⟨_, hr, hids, ?_⟩
    simp only [Prod.mk.injEq] at hfr
    obtain ⟨f1, f2, f3, f4⟩ := hfr
    rw [hids]
    exact ⟨by rw [f3]; exact FreeChain.frame f2 (fun i _ => by rw [f4]) hF.chain, hF.nodup,
      by rw [f2]; exact hF.mem, by rw [f1]; exact hF.size, by rw [f2]; exact hF.bump_pos, by rw [f2]; exact hF.bump_le⟩

theorem run_free (hM : M + 1 < 2 ^ 32) : ∀ (ops : List (Op T)) {d d' : Deque T M} {l : List (Nat × T)} {F : List Nat}
    {os : List (Out T)}, DRep d l → AInv d.allocator F (ids l) → d.sequenceNumber + ops.length < 2 ^ 64 →
    run call d ops = .ok (d', os) →
    ∃ l', DRep d' l' ∧ ids l' = (ops.foldl Line.step ⟨ids l, F⟩).used
  | [], d, d', l, F, os, h, _, _, e => by cases e; exact ⟨l, h, rfl⟩
  | op :: ops, d, d', l, F, os, h, hF, hs, e => by
    simp only [List.length_cons] at hs
    simp only [run] at e
    cases e1 : call d op with
    | error _ => rw [e1] at e; cases e
    | ok p =>
      obtain ⟨d1, o⟩ := p
      simp only [e1, except_bind_ok] at e
      cases e2 : run call d1 ops with
      | error _ => rw [e2] at e; cases e
      | ok q =>
        rw [e2] at e
        have : q.1 = d' := by cases e; rfl
        obtain ⟨l1, h1, hi, hA⟩ := call_free h hF hM (by omega) e1
        have hq : d1.sequenceNumber ≤ d.sequenceNumber + 1 := by
          obtain ⟨c1, c2⟩ := call_spec h hM (by omega) op
          cases hst : step M (vals l) op with
          | none => rw [c2 hst] at e1; cases e1
          | some r =>
            obtain ⟨d2, l2, e3, _, _, hsq⟩ := c1 r.1 r.2 hst
            rw [e3] at e1; cases e1
            have := changed_le op r.2
            omega
        obtain ⟨q1, q2⟩ := q
        dsimp only at this
        subst this
        obtain ⟨l2, h2, hi2⟩ := run_free hM ops h1 hA (by omega) e2
        refine ⟨l2, h2, ?_⟩
        rw [hi2, hi]
        rfl

/-- the references of a mutable iterator -/
theorem slots_run (hM : M + 1 < 2 ^ 32) (z : T) {ops : List (Op T)} (hs : ops.length < 2 ^ 64) {os : List (Out T)}
    (e : run call (new z : Deque T M) ops = .ok (d, os)) (es : List (End × (T → T))) :
    ∃ d' it items, iterMut d es = .ok (d', it, items) ∧
      items.map (Option.map Prod.fst) = (consumeMut (Line.after ops).used (es.map fun e => (e.1, id))).1 := by
  obtain ⟨l, h, hi⟩ := run_free hM ops (F := []) (new_DRep z) (new_AInv _) (by simpa [new] using hs) e
  obtain ⟨d', it', e1, _⟩ := iterMut_spec h es
  refine ⟨d', it', _, e1, ?_⟩
  have hmap := consumeMut_map (Prod.fst : Nat × T → Nat) updVal (fun _ => id) (fun _ _ => rfl) es l
  rw [show (Line.after ops).used = ids l from hi.symm]
  exact hmap.1.symm

end Sokoban.Deque
