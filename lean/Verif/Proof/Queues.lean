import Verif.Proof.DequeHist
import Verif.Spec.Queues
import Mathlib.Data.List.FinRange

/-
Several queues in the memory of one deque: each is described as if the slots of the others were in use elsewhere.
-/
namespace Sokoban.Deque
open DequeSpec
variable {T : Type} {M : Nat}

theorem call_specL {L : List Nat} {d : Deque T M} {l : List (Nat × T)} (h : DRepL L d l) (hM : M + 1 < 2 ^ 32)
    (hs : d.sequenceNumber + 1 < 2 ^ 64) (op : Op T) :
    (∀ l' o, step (M - L.length) (vals l) op = some (l', o) →
      ∃ d' l2, call d op = .ok (d', o) ∧ DRepL L d' l2 ∧ vals l2 = l' ∧
        d'.sequenceNumber = d.sequenceNumber + changed op o ∧ Keeps L d d') ∧
    (step (M - L.length) (vals l) op = none → call d op = .error .bufferFull) := by
  have hle := h.leL
  cases op with
  | pushBack v =>
    by_cases hf : l.length = M - L.length
    · refine ⟨fun l' o he => by simp [step, hf] at he, fun _ => ?_⟩
      simp [call, (push_fullL h hM (by omega) v).1]
    · refine ⟨fun l' o he => ?_, fun he => by simp [step, hf] at he⟩
      simp [step, hf] at he
      obtain ⟨rfl, rfl⟩ := he
      obtain ⟨d', i, e, hr, hsq, hk, _⟩ := pushBack_freeL h hM hs (by omega) v
      exact ⟨d', _, by simp [call, e], hr, by simp, by simp [changed, hsq], hk⟩
  | pushFront v =>
    by_cases hf : l.length = M - L.length
    · refine ⟨fun l' o he => by simp [step, hf] at he, fun _ => ?_⟩
      simp [call, (push_fullL h hM (by omega) v).2]
    · refine ⟨fun l' o he => ?_, fun he => by simp [step, hf] at he⟩
      simp [step, hf] at he
      obtain ⟨rfl, rfl⟩ := he
      obtain ⟨d', i, e, hr, hsq, hk, _⟩ := pushFront_freeL h hM hs (by omega) v
      exact ⟨d', _, by simp [call, e], hr, by simp, by simp [changed, hsq], hk⟩
  | popBack =>
    refine ⟨fun l' o he => ?_, fun he => by simp [step] at he⟩
    simp [step] at he
    obtain ⟨rfl, rfl⟩ := he
    obtain ⟨d', e, hr, _, hk, hsq⟩ := popBack_specL h hs
    refine ⟨d', _, by simp [call, e], hr, by simp, ?_, hk⟩
    rw [hsq]
    rcases List.eq_nil_or_concat l with rfl | ⟨m, x, rfl⟩ <;> simp [changed]
  | popFront =>
    refine ⟨fun l' o he => ?_, fun he => by simp [step] at he⟩
    simp [step] at he
    obtain ⟨rfl, rfl⟩ := he
    obtain ⟨d', e, hr, _, hk, hsq⟩ := popFront_specL h hs
    refine ⟨d', _, by simp [call, e], hr, by simp, ?_, hk⟩
    rw [hsq]
    cases l <;> simp [changed]
  | iterMut es =>
    refine ⟨fun l' o he => ?_, fun he => by simp [step] at he⟩
    simp [step] at he
    obtain ⟨rfl, rfl⟩ := he
    obtain ⟨d', it', e, hr, hsq, hk⟩ := iterMut_specL h es
    have hmap := consumeMut_map (Prod.snd : Nat × T → T) updVal (fun f => f) (fun _ _ => rfl) es l
    simp only [Prod.eta, List.map_id'] at hmap
    refine ⟨d', _, ?_, hr, hmap.2.symm, ?_, hk⟩
    · simp only [call, e, except_bind_ok, except_pure, hmap.1]
    · simp [changed, hsq]

theorem run_specL (hM : M + 1 < 2 ^ 32) : ∀ (ops : List (Op T)) {L : List Nat} {d : Deque T M} {l : List (Nat × T)},
    DRepL L d l → d.sequenceNumber + ops.length < 2 ^ 64 →
    (∀ l' os, specRun (step (M - L.length)) (vals l) ops = some (l', os) →
      ∃ d' l2, run call d ops = .ok (d', os) ∧ DRepL L d' l2 ∧ vals l2 = l' ∧
        d'.sequenceNumber = d.sequenceNumber + mutations ops os ∧ Keeps L d d') ∧
    (specRun (step (M - L.length)) (vals l) ops = none → run call d ops = .error .bufferFull)
  | [], L, d, l, h, _ => by
    refine ⟨fun l' os he => ?_, fun he => by simp [specRun] at he⟩
    simp [specRun] at he
    obtain ⟨rfl, rfl⟩ := he
    exact ⟨d, l, rfl, h, rfl, by simp [mutations], .refl _ _⟩
  | op :: ops, L, d, l, h, hs => by
    simp at hs
    obtain ⟨c1, c2⟩ := call_specL h hM (by omega) op
    cases hst : step (M - L.length) (vals l) op with
    | none =>
      refine ⟨fun l' os he => by simp [specRun, hst] at he, fun _ => ?_⟩
      simp [run, c2 hst]
    | some p =>
      obtain ⟨l1, o⟩ := p
      obtain ⟨d1, l2, e, hr, hv, hsq, hk⟩ := c1 l1 o hst
      have h1 : changed op o ≤ 1 := changed_le op o
      subst hv
      obtain ⟨i1, i2⟩ := run_specL hM ops hr (by omega)
      refine ⟨fun l' os he => ?_, fun he => ?_⟩
      · simp only [specRun, hst, Option.bind_eq_bind, Option.bind_some] at he
        cases hsp : specRun (step (M - L.length)) (vals l2) ops with
        | none => rw [hsp] at he; simp at he
        | some q =>
          rw [hsp] at he
          simp at he
          obtain ⟨rfl, rfl⟩ := he
          obtain ⟨d', l3, e3, hr3, hv3, hsq3, hk3⟩ := i1 _ _ hsp
          refine ⟨d', l3, by simp [run, e, e3], hr3, hv3, ?_, hk.trans hk3⟩
          rw [hsq3, hsq, mutations]; omega
      · simp only [specRun, hst, Option.bind_eq_bind, Option.bind_some] at he
        cases hsp : specRun (step (M - L.length)) (vals l2) ops with
        | none => simp [run, e, i2 hsp]
        | some q => rw [hsp] at he; simp at he

/-- another deque with the same ends in whose memory the elements are the same -/
theorem DRepL.shift {L L' : List Nat} {d d' : Deque T M} {l : List (Nat × T)} (h : DRepL L d l) (he : d'.ends = d.ends)
    (hk : Keeps (ids l) d d') (hi : ∃ free, NodeAllocator.AInv d'.allocator free (L' ++ ids l))
    (hc : NodeAllocator.Clean d'.allocator (fun r => r < 2) (L' ++ ids l)) : DRepL L' d' l where
  inv := hi
  clean := hc
  seg := DSeg.frame (fun i hi => ⟨(hk i hi).1 0, (hk i hi).1 1⟩) h.seg
  vals e he := ((hk e.1 (List.mem_map_of_mem he)).2).trans (h.vals e he)
  head := (congrArg Prod.fst he).trans h.head
  tail := (congrArg Prod.snd he).trans h.tail

theorem DRepL.shows {L : List Nat} {d : Deque T M} {l : List (Nat × T)} (h : DRepL L d l) : Queues.Shows d (Deque.vals l) := by
  refine ⟨?_, ?_, fun es => ?_⟩
  · rw [front_spec h]; simp
  · rw [back_spec h]; simp
  · obtain ⟨it', e⟩ := drive_iter h es
    exact ⟨it', _, e, (consume_map Prod.snd es l).symm⟩

end Sokoban.Deque

namespace Sokoban.Queues
open Shared (Client)
open Deque (DRepL ids vals Keeps)
variable {n M : Nat} {T : Type}

/-- the slots of all queues -/
def slots (Ls : Fin n → List (Nat × T)) (J : List (Fin n)) : List Nat := J.flatMap fun j => ids (Ls j)

/-- the slots of the queues other than `j` -/
def foreign (Ls : Fin n → List (Nat × T)) (j : Fin n) : List Nat := slots Ls ((List.finRange n).filter (· ≠ j))

theorem mem_foreign {Ls : Fin n → List (Nat × T)} {j : Fin n} {i : Nat} :
    i ∈ foreign Ls j ↔ ∃ l, l ≠ j ∧ i ∈ ids (Ls l) := by
  unfold foreign slots
  simp only [List.mem_flatMap, List.mem_filter, List.mem_finRange, true_and, decide_eq_true_eq]

theorem foreign_perm (Ls : Fin n → List (Nat × T)) (j : Fin n) :
    (foreign Ls j ++ ids (Ls j)).Perm (slots Ls (List.finRange n)) := by
  have h1 : (slots Ls ((List.finRange n).filter (· ≠ j) ++ [j])).Perm (slots Ls (List.finRange n)) := by
    unfold slots
    refine List.Perm.flatMap_right _ ?_
    rw [List.perm_ext_iff_of_nodup]
    · intro a
      simp only [List.mem_append, List.mem_filter, List.mem_finRange, true_and, List.mem_singleton, decide_eq_true_eq, iff_true]
      by_cases h : a = j
      · exact Or.inr h
      · exact Or.inl h
    · rw [List.nodup_append]
      refine ⟨(List.nodup_finRange n).filter _, by simp, ?_⟩
      intro a ha b hb hab
      simp only [List.mem_filter, decide_eq_true_eq, List.mem_singleton] at ha hb
      exact ha.2 (hab.trans hb)
    · exact List.nodup_finRange n
  simpa [slots, foreign, List.flatMap_append] using h1

theorem foreign_congr {Ls Ls' : Fin n → List (Nat × T)} {j : Fin n} (h : ∀ l, l ≠ j → Ls' l = Ls l) :
    foreign Ls' j = foreign Ls j := by
  unfold foreign slots
  apply List.flatMap_congr
  intro l hl
  rw [h l (by simpa using (List.mem_filter.1 hl).2)]

/-- the deque with queue `j` in place -/
def view (c : Client n (Deque T M) (Nat × Nat)) (j : Fin n) : Deque T M := c.state.setEnds (c.aside Deque.ends j)

/-- the client holds the queues `x` -/
structure Fam (c : Client n (Deque T M) (Nat × Nat)) (x : Lists n T) (Ls : Fin n → List (Nat × T)) : Prop where
  rep : ∀ j, DRepL (foreign Ls j) (view c j) (Ls j)
  lists : ∀ j, x.queues j = vals (Ls j)
  cur : c.cur = x.cur

variable {c : Client n (Deque T M) (Nat × Nat)} {x : Lists n T} {Ls : Fin n → List (Nat × T)}

theorem Fam.total (h : Fam c x Ls) : x.total = (slots Ls (List.finRange n)).length := by
  unfold Lists.total slots
  rw [List.length_flatMap]
  congr 1
  apply List.map_congr_left
  intro j _
  rw [h.lists j]; simp

theorem Fam.others (h : Fam c x Ls) : x.others = (foreign Ls x.cur).length := by
  have h1 := (foreign_perm Ls x.cur).length_eq
  have h3 := h.total
  have h2 : (x.queues x.cur).length = (Ls x.cur).length := by rw [h.lists]; simp
  simp only [List.length_append, List.length_map] at h1
  unfold Lists.others
  omega

theorem view_cur (c : Client n (Deque T M) (Nat × Nat)) : view c c.cur = c.state := by
  unfold view Client.aside; rw [if_pos rfl]; rfl

theorem Fam.switch (h : Fam c x Ls) (j : Fin n) : Fam (c.switch Deque.ends Deque.setEnds j) ⟨x.queues, j⟩ Ls where
  rep l := by
    have e : view (c.switch Deque.ends Deque.setEnds j) l = view c l := by
      have : (c.switch Deque.ends Deque.setEnds j).aside Deque.ends l = c.aside Deque.ends l := by
        show (if l = j then _ else _) = _
        by_cases hl : l = j
        · subst hl; rw [if_pos rfl]; rfl
        · rw [if_neg hl]; rfl
      unfold view
      rw [this]; rfl
    rw [e]; exact h.rep l
  lists := h.lists
  cur := rfl

theorem Fam.act (hM : M + 1 < 2 ^ 32) (h : Fam c x Ls) (hs : c.state.sequenceNumber + 1 < 2 ^ 64) (op : DequeSpec.Op T) :
    (∀ y o, step M x (.call op) = some (y, o) → ∃ c' Ls', exec c (.call op) = .ok (c', o) ∧ Fam c' y Ls' ∧
      c'.state.sequenceNumber = c.state.sequenceNumber + changed (.call op : Op n T) o) ∧
    (step M x (.call op) = none → exec c (.call op) = .error .bufferFull) := by
  have hcur := h.rep c.cur
  rw [view_cur] at hcur
  obtain ⟨c1, c2⟩ := Deque.call_specL hcur hM hs op
  rw [show (foreign Ls c.cur).length = x.others by rw [h.others, h.cur], ← h.lists, h.cur] at c1 c2
  constructor
  · intro y o e
    simp only [step, Option.map_eq_some_iff] at e
    obtain ⟨⟨l', o'⟩, e, e'⟩ := e
    cases e'
    obtain ⟨d', l2, ed, hr, hv, hq, hk⟩ := c1 l' o' e
    rw [← h.cur] at hr hk
    refine ⟨{ c with state := d' }, fun l => if l = c.cur then l2 else Ls l, by simp only [exec, ed]; rfl, ?_, hq⟩
    obtain ⟨free, hf⟩ := hr.inv
    have hsame : foreign (fun l => if l = c.cur then l2 else Ls l) c.cur = foreign Ls c.cur :=
      foreign_congr fun l hl => if_neg hl
    have hall := foreign_perm (fun l => if l = c.cur then l2 else Ls l) c.cur
    simp only [if_true] at hall
    rw [hsame] at hall
    refine ⟨fun j => ?_, fun j => ?_, h.cur⟩
    · by_cases hj : j = c.cur
      · subst hj
        have hv : view { c with state := d' } c.cur = d' := view_cur { c with state := d' }
        rw [hv, hsame, if_pos rfl]; exact hr
      · have hp := foreign_perm (fun l => if l = c.cur then l2 else Ls l) j
        simp only [if_neg hj] at hp ⊢
        have hp' := hall.trans hp.symm
        refine (h.rep j).shift ?_ ?_ ⟨free, ?_⟩ ?_
        · simp only [view, Client.aside, if_neg hj]; rfl
        · exact fun i hi => hk i (mem_foreign.2 ⟨j, hj, hi⟩)
        · exact hf.perm hp'
        · exact hr.clean.perm hp'
    · show (if j = x.cur then l' else x.queues j) = _
      rw [← h.cur]
      by_cases hj : j = c.cur
      · simp only [if_pos hj]; exact hv.symm
      · simp only [if_neg hj]; exact h.lists j
  · intro e
    simp only [step, Option.map_eq_none_iff] at e
    simp only [exec, c2 e]; rfl

theorem changed_le (op : Op n T) (o : Out T) : changed op o ≤ 1 := by
  unfold changed; split
  · exact Deque.changed_le _ _
  · omega

theorem run_fam (hM : M + 1 < 2 ^ 32) : ∀ (ops : List (Op n T)) {c : Client n (Deque T M) (Nat × Nat)} {x : Lists n T}
    {Ls : Fin n → List (Nat × T)}, Fam c x Ls → c.state.sequenceNumber + ops.length < 2 ^ 64 →
    (∀ y os, specRun (step M) x ops = some (y, os) → ∃ c' Ls', run exec c ops = .ok (c', os) ∧ Fam c' y Ls' ∧
      c'.state.sequenceNumber = c.state.sequenceNumber + mutations ops os) ∧
    (specRun (step M) x ops = none → run exec c ops = .error .bufferFull)
  | [], c, x, Ls, h, _ => by
    refine ⟨fun y os he => ?_, fun he => by simp [specRun] at he⟩
    simp [specRun] at he
    obtain ⟨rfl, rfl⟩ := he
    exact ⟨c, Ls, rfl, h, by simp [mutations]⟩
  | op :: ops, c, x, Ls, h, hs => by
    simp only [List.length_cons] at hs
    have hact : (∀ y o, step M x op = some (y, o) → ∃ c' Ls', exec c op = .ok (c', o) ∧ Fam c' y Ls' ∧
        c'.state.sequenceNumber = c.state.sequenceNumber + changed op o) ∧
        (step M x op = none → exec c op = .error .bufferFull) := by
      cases op with
      | call op => exact Fam.act hM h (by omega) op
      | switch j =>
        refine ⟨fun y o e => ?_, fun e => by cases e⟩
        cases e
        exact ⟨_, Ls, rfl, h.switch j, rfl⟩
    cases hst : step M x op with
    | none =>
      refine ⟨fun y os he => by simp [specRun, hst] at he, fun _ => ?_⟩
      simp [run, hact.2 hst]
    | some p =>
      obtain ⟨x1, o⟩ := p
      obtain ⟨d1, L1, e, hr, hsq⟩ := hact.1 x1 o hst
      have h1 := changed_le op o
      obtain ⟨i1, i2⟩ := run_fam hM ops hr (by omega)
      refine ⟨fun y os he => ?_, fun he => ?_⟩
      · simp only [specRun, hst, Option.bind_eq_bind, Option.bind_some] at he
        cases hsp : specRun (step M) x1 ops with
        | none => rw [hsp] at he; simp at he
        | some q =>
          rw [hsp] at he
          simp at he
          obtain ⟨rfl, rfl⟩ := he
          obtain ⟨d', l3, e3, hr3, hsq3⟩ := i1 _ _ hsp
          refine ⟨d', l3, by simp [run, e, e3], hr3, ?_⟩
          rw [hsq3, hsq, mutations]; omega
      · simp only [specRun, hst, Option.bind_eq_bind, Option.bind_some] at he
        cases hsp : specRun (step M) x1 ops with
        | none => simp [run, e, i2 hsp]
        | some q => rw [hsp] at he; simp at he

theorem Fam.start (z : T) (j0 : Fin n) :
    Fam ⟨(Deque.new z : Deque T M), fun _ => (SENTINEL, SENTINEL), j0⟩ ⟨fun _ => [], j0⟩ (fun _ => []) where
  rep j := by
    have e : view (⟨(Deque.new z : Deque T M), fun _ => (SENTINEL, SENTINEL), j0⟩ : Client n _ _) j = Deque.new z := by
      unfold view Client.aside
      split <;> rfl
    have e2 : foreign (fun _ => ([] : List (Nat × T))) j = [] := by simp [foreign, slots]
    rw [e, e2]; exact Deque.new_DRep z
  lists _ := rfl
  cur := rfl

theorem Fam.len (h : Fam c x Ls) : c.state.len = x.total := by
  have h1 := h.rep c.cur
  rw [view_cur] at h1
  have := (foreign_perm Ls c.cur).length_eq
  rw [h1.lenL, h.total, ← this]; simp

theorem Fam.room (h : Fam c x Ls) : x.total ≤ M := by
  have h1 := h.rep c.cur
  rw [view_cur] at h1
  have := (foreign_perm Ls c.cur).length_eq
  have h2 := h1.leL
  rw [h.total, ← this]; simpa using h2

end Sokoban.Queues
