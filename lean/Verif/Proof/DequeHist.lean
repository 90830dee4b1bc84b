import Verif.Proof.Deque

namespace Sokoban.Deque
open DequeSpec
variable {T : Type} {M : Nat}

/-- values of a list of (index, value) pairs -/
abbrev vals (l : List (Nat × T)) : List T := l.map Prod.snd

theorem call_spec {d : Deque T M} {l : List (Nat × T)} (h : DRep d l) (hM : M + 1 < 2 ^ 32)
    (hs : d.sequenceNumber + 1 < 2 ^ 64) (op : Op T) :
    (∀ l' o, step M (vals l) op = some (l', o) →
      ∃ d' l2, call d op = .ok (d', o) ∧ DRep d' l2 ∧ vals l2 = l' ∧
        d'.sequenceNumber = d.sequenceNumber + changed op o) ∧
    (step M (vals l) op = none → call d op = .error .bufferFull) := by
  have hle := h.le
  cases op with
  | pushBack v =>
    by_cases hf : l.length = M
    · refine ⟨fun l' o he => by simp [step, hf] at he, fun _ => ?_⟩
      simp [call, (push_full h hM hf v).1]
    · refine ⟨fun l' o he => ?_, fun he => by simp [step, hf] at he⟩
      simp [step, hf] at he
      obtain ⟨rfl, rfl⟩ := he
      obtain ⟨d', i, e, hr, hsq⟩ := pushBack_spec h hM hs (by omega) v
      exact ⟨d', _, by simp [call, e], hr, by simp, by simp [changed, hsq]⟩
  | pushFront v =>
    by_cases hf : l.length = M
    · refine ⟨fun l' o he => by simp [step, hf] at he, fun _ => ?_⟩
      simp [call, (push_full h hM hf v).2]
    · refine ⟨fun l' o he => ?_, fun he => by simp [step, hf] at he⟩
      simp [step, hf] at he
      obtain ⟨rfl, rfl⟩ := he
      obtain ⟨d', i, e, hr, hsq⟩ := pushFront_spec h hM hs (by omega) v
      exact ⟨d', _, by simp [call, e], hr, by simp, by simp [changed, hsq]⟩
  | popBack =>
    refine ⟨fun l' o he => ?_, fun he => by simp [step] at he⟩
    simp [step] at he
    obtain ⟨rfl, rfl⟩ := he
    obtain ⟨d', e, hr, _, hsq⟩ := popBack_spec h hs
    refine ⟨d', _, by simp [call, e], hr, by simp, ?_⟩
    rw [hsq]
    rcases List.eq_nil_or_concat l with rfl | ⟨m, x, rfl⟩ <;> simp [changed]
  | popFront =>
    refine ⟨fun l' o he => ?_, fun he => by simp [step] at he⟩
    simp [step] at he
    obtain ⟨rfl, rfl⟩ := he
    obtain ⟨d', e, hr, _, hsq⟩ := popFront_spec h hs
    refine ⟨d', _, by simp [call, e], hr, by simp, ?_⟩
    rw [hsq]
    cases l <;> simp [changed]
  | iterMut es =>
    refine ⟨fun l' o he => ?_, fun he => by simp [step] at he⟩
    simp [step] at he
    obtain ⟨rfl, rfl⟩ := he
    obtain ⟨d', it', e, hr, hsq⟩ := iterMut_spec h es
    have hmap := consumeMut_map (Prod.snd : Nat × T → T) updVal (fun f => f) (fun _ _ => rfl) es l
    simp only [Prod.eta, List.map_id'] at hmap
    refine ⟨d', _, ?_, hr, hmap.2.symm, ?_⟩
    · simp only [call, e, except_bind_ok, except_pure, hmap.1]
    · simp [changed, hsq]

theorem changed_le (op : Op T) (o : Out T) : changed op o ≤ 1 := by
  unfold changed; split <;> omega

theorem mutations_le : ∀ (ops : List (Op T)) (os : List (Out T)), mutations ops os ≤ ops.length
  | [], os => by cases os <;> simp [mutations]
  | op :: ops, [] => by simp [mutations]
  | op :: ops, o :: os => by
    have := mutations_le ops os
    have := changed_le op o
    simp [mutations]; omega

theorem run_spec (hM : M + 1 < 2 ^ 32) : ∀ (ops : List (Op T)) {d : Deque T M} {l : List (Nat × T)},
    DRep d l → d.sequenceNumber + ops.length < 2 ^ 64 →
    (∀ l' os, specRun (step M) (vals l) ops = some (l', os) →
      ∃ d' l2, run call d ops = .ok (d', os) ∧ DRep d' l2 ∧ vals l2 = l' ∧
        d'.sequenceNumber = d.sequenceNumber + mutations ops os) ∧
    (specRun (step M) (vals l) ops = none → run call d ops = .error .bufferFull)
  | [], d, l, h, _ => by
    refine ⟨fun l' os he => ?_, fun he => by simp [specRun] at he⟩
    simp [specRun] at he
    obtain ⟨rfl, rfl⟩ := he
    exact ⟨d, l, rfl, h, rfl, by simp [mutations]⟩
  | op :: ops, d, l, h, hs => by
    simp at hs
    obtain ⟨c1, c2⟩ := call_spec h hM (by omega) op
    cases hst : step M (vals l) op with
    | none =>
      refine ⟨fun l' os he => by simp [specRun, hst] at he, fun _ => ?_⟩
      simp [run, c2 hst]
    | some p =>
      obtain ⟨l1, o⟩ := p
      obtain ⟨d1, l2, e, hr, hv, hsq⟩ := c1 l1 o hst
      have h1 : changed op o ≤ 1 := changed_le op o
      subst hv
      obtain ⟨i1, i2⟩ := run_spec hM ops hr (by omega)
      refine ⟨fun l' os he => ?_, fun he => ?_⟩
      · simp only [specRun, hst, Option.bind_eq_bind, Option.bind_some] at he
        cases hsp : specRun (step M) (vals l2) ops with
        | none => rw [hsp] at he; simp at he
        | some q =>
          rw [hsp] at he
          simp at he
          obtain ⟨rfl, rfl⟩ := he
          obtain ⟨d', l3, e3, hr3, hv3, hsq3⟩ := i1 _ _ hsp
          refine ⟨d', l3, by simp [run, e, e3], hr3, hv3, ?_⟩
          rw [hsq3, hsq, mutations]; omega
      · simp only [specRun, hst, Option.bind_eq_bind, Option.bind_some] at he
        cases hsp : specRun (step M) (vals l2) ops with
        | none => simp [run, e, i2 hsp]
        | some q => rw [hsp] at he; simp at he

/-- every successful history is one the specification allows -/
theorem run_new (hM : M + 1 < 2 ^ 32) (z : T) {ops : List (Op T)} (hs : ops.length < 2 ^ 64)
    {d : Deque T M} {os : List (Out T)} (h : run call (new z) ops = .ok (d, os)) :
    ∃ l, DRep d l ∧ specRun (step M) [] ops = some (vals l, os) ∧
      d.sequenceNumber = mutations ops os := by
  obtain ⟨i1, i2⟩ := run_spec hM ops (new_DRep z) (by simpa [new] using hs)
  cases hsp : specRun (step M) (vals []) ops with
  | none => rw [i2 hsp] at h; cases h
  | some q =>
    obtain ⟨d', l2, e, hr, hv, hsq⟩ := i1 q.1 q.2 hsp
    rw [e] at h; cases h
    exact ⟨l2, hr, by rw [hv]; exact hsp, by simpa [new] using hsq⟩

end Sokoban.Deque
