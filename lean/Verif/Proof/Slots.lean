import Verif.Spec.Slots
import Verif.Proof.Api
import Verif.Proof.Known
import Verif.Proof.Alloc

/-
From one call to histories for `Slots`.
-/
namespace Sokoban
open MapSpec Ents NodeAllocator
variable {K V : Type}

namespace Ents

/-- the keys with their slots -/
def sl (E : Ents K V) : List (K × Nat) := E.map fun e => (e.2.1, e.1)

theorem mem_sl {E : Ents K V} {k : K} {i : Nat} : (k, i) ∈ sl E ↔ ∃ v, (i, k, v) ∈ E := by
  unfold sl
  rw [List.mem_map]
  constructor
  · rintro ⟨⟨i', k', v⟩, h, e⟩
    cases e; exact ⟨v, h⟩
  · rintro ⟨v, h⟩; exact ⟨_, h, rfl⟩

theorem sl_keys (E : Ents K V) : (sl E).map Prod.fst = E.map fun e => e.2.1 := by
  simp [sl]

theorem sl_slots (E : Ents K V) : (sl E).map Prod.snd = E.map Prod.fst := by
  simp [sl]

end Ents

namespace Slots

/-- what one call does to the free list and the entries -/
inductive Moves (M : Nat) : Act K → List Nat → Ents K V → List Nat → Ents K V → Prop where
  | keep {F E E'} : (sl E').Perm (sl E) → Moves M .keep F E F E'
  | old {k F E E'} : ¬ Absent E k → (sl E').Perm (sl E) → Moves M (.put k) F E F E'
  | full {k F E} : Absent E k → E.length = M → Moves M (.put k) F E F E
  | new {k i F E E'} : Absent E k → E.length ≠ M → (sl E').Perm ((k, i) :: sl E) → Moves M (.put k) F E F.tail E'
  | gone {k i F E E'} : (sl E).Perm ((k, i) :: sl E') → Moves M (.drop k) F E (i :: F) E'
  | none {k F E} : Absent E k → Moves M (.drop k) F E F E

/-- the machine describes the free list and the entries -/
structure Fits (σ : Slots K) (F : List Nat) (E : Ents K V) : Prop where
  free : σ.free = F
  used : σ.used.Perm (sl E)

/-- all slots begun so far are used or free -/
structure Whole (F : List Nat) (E : Ents K V) : Prop where
  slots : (F ++ E.map Prod.fst).Perm (List.range' 1 (F.length + E.length))
  keys : (E.map fun e => e.2.1).Nodup

theorem Whole.slots_nodup {F : List Nat} {E : Ents K V} (w : Whole F E) : (E.map Prod.fst).Nodup :=
  (List.nodup_append.1 (w.slots.nodup_iff.2 List.nodup_range')).2.1

theorem Whole.sl_nodup {F : List Nat} {E : Ents K V} (w : Whole F E) : (sl E).Nodup := by
  have := w.keys
  rw [← sl_keys] at this
  exact List.Pairwise.of_map _ (fun a b h hc => h (by rw [hc])) this

theorem whole_of {T : Type} {M N : Nat} {a : NodeAllocator T M N} {F : List Nat} {E : Ents K V}
    (h : AInv a F (E.map Prod.fst)) (hk : (E.map fun e => e.2.1).Nodup) : Whole F E := by
  refine ⟨?_, hk⟩
  have hl := h.length_eq
  rw [List.length_map] at hl
  rw [List.perm_ext_iff_of_nodup h.nodup List.nodup_range']
  intro i
  rw [h.mem i, List.mem_range'_1]
  have := h.bump_pos
  omega

variable {σ : Slots K} {F F' : List Nat} {E E' : Ents K V} {k : K} {i M : Nat}

theorem Fits.length (h : Fits σ F E) : σ.used.length = E.length := by
  rw [h.used.length_eq]; simp [sl]

variable [DecidableEq K]

theorem Fits.find_none (h : Fits σ F E) (ha : Absent E k) : σ.find k = none := by
  unfold find
  rw [Option.map_eq_none_iff, List.find?_eq_none]
  rintro ⟨k', i⟩ he hk
  obtain ⟨v, hv⟩ := mem_sl.1 (h.used.mem_iff.1 he)
  exact ha _ hv (by simpa using hk)

theorem Fits.find_some (h : Fits σ F E) (w : (E.map fun e => e.2.1).Nodup) {v : V} (he : (i, k, v) ∈ E) :
    σ.find k = some i := by
  unfold find
  have hn : (σ.used.map Prod.fst).Nodup := by
    rw [(h.used.map _).nodup_iff, sl_keys]; exact w
  have hm : (k, i) ∈ σ.used := h.used.mem_iff.2 (mem_sl.2 ⟨v, he⟩)
  obtain ⟨A, B, e⟩ := List.append_of_mem hm
  rw [e] at hn ⊢
  simp only [List.map_append, List.map_cons] at hn
  rw [List.find?_append, List.find?_eq_none.2, Option.none_or, List.find?_cons_of_pos (by simp)]
  · rfl
  · intro x hx hk
    have := (List.nodup_append.1 hn).2.2 x.1 (List.mem_map_of_mem hx) k (by simp)
    exact this (by simpa using hk)

theorem Fits.find_old (h : Fits σ F E) (ha : ¬ Absent E k) : (σ.find k).isSome := by
  rcases Ents.cases E k with h' | ⟨L1, i, v, L2, e⟩
  · exact absurd h' ha
  · unfold find
    rw [Option.isSome_map, List.find?_isSome]
    exact ⟨(k, i), h.used.mem_iff.2 (mem_sl.2 ⟨v, by rw [e]; simp⟩), by simp⟩

omit [DecidableEq K] in
/-- the slot of a new entry -/
theorem fresh_eq [DecidableEq K] (h : Fits σ F E) (w : Whole F E) (w' : Whole F.tail E') (hp : (sl E').Perm ((k, i) :: sl E)) :
    i = σ.fresh := by
  have hp1 : (E'.map Prod.fst).Perm (i :: E.map Prod.fst) := by
    have := hp.map Prod.snd
    rwa [List.map_cons, sl_slots, sl_slots] at this
  have hl : E'.length = E.length + 1 := by simpa using hp1.length_eq
  have h2 : (i :: (F.tail ++ E.map Prod.fst)).Perm (List.range' 1 (F.tail.length + (E.length + 1))) := by
    refine List.Perm.trans ?_ (hl ▸ w'.slots)
    exact (List.perm_middle.symm).trans (hp1.symm.append_left _)
  unfold fresh
  rw [h.free, h.length]
  have fin : ∀ (a : Nat) (L : List Nat), (i :: L).Perm (a :: L) → i = a := by
    intro a L hP
    have := (List.perm_append_right_iff (l₁ := [i]) (l₂ := [a]) L).1 hP
    simpa using this
  cases F with
  | nil =>
    simp only [List.tail_nil, List.nil_append, List.length_nil, Nat.zero_add, List.headD_nil] at h2 ⊢
    have h1 := w.slots
    simp only [List.nil_append, List.length_nil, Nat.zero_add] at h1
    rw [List.range'_concat] at h2
    refine fin _ (E.map Prod.fst) (h2.trans (List.perm_append_comm.trans ?_))
    simp only [List.singleton_append, Nat.one_mul, Nat.add_comm 1]
    exact h1.symm.cons _
  | cons a F =>
    simp only [List.tail_cons, List.headD_cons] at h2 ⊢
    refine fin a _ (h2.trans ?_)
    have h1 := w.slots
    simp only [List.length_cons] at h1
    rw [show F.length + 1 + E.length = F.length + (E.length + 1) by omega] at h1
    exact h1.symm

/-- one step of the machine -/
theorem Moves.step {a : Act K} (hm : Moves M a F E F' E') (h : Fits σ F E) (w : Whole F E) (w' : Whole F' E') :
    Fits (σ.step M a) F' E' := by
  cases hm with
  | keep hp => exact ⟨h.free, h.used.trans hp.symm⟩
  | old ha hp =>
    have : (σ.find _).isSome := h.find_old ha
    simp only [Slots.step, this, true_or, if_true]
    exact ⟨h.free, h.used.trans hp.symm⟩
  | full ha hl =>
    simp only [Slots.step, h.length, hl, or_true, if_true]
    exact h
  | new ha hl hp =>
    have hi := fresh_eq h w w' hp
    simp only [Slots.step, h.find_none ha, h.length, hl, Option.isSome_none, Bool.false_eq_true, or_self, if_false]
    exact ⟨by simp [h.free], by rw [← hi]; exact (h.used.cons _).trans hp.symm⟩
  | @gone k i _ _ _ hp =>
    obtain ⟨v, hv⟩ := mem_sl.1 (hp.mem_iff.2 (List.mem_cons_self))
    simp only [Slots.step, h.find_some w.keys hv]
    refine ⟨by simp [h.free], ?_⟩
    have h1 := (h.used.trans hp).filter (fun e => decide (e.1 ≠ k))
    refine h1.trans (List.Perm.of_eq ?_)
    have hn := w.keys
    rw [← sl_keys, (hp.map _).nodup_iff, List.map_cons, List.nodup_cons] at hn
    rw [List.filter_cons_of_neg (by simp), List.filter_eq_self]
    intro e he
    have : e.1 ≠ k := fun hc => hn.1 (List.mem_map.2 ⟨e, he, hc⟩)
    simpa using this
  | none ha =>
    simp only [Slots.step, h.find_none ha]
    exact h

theorem place_eq (M : Nat) (σ : Slots K) (k : K) : σ.place M k = (σ.step M (.put k)).find k := by
  unfold place
  cases hf : σ.find k with
  | some i => simp [Slots.step, hf]
  | none =>
    by_cases hl : σ.used.length = M
    · simp [Slots.step, hf, hl]
    · simp only [Slots.step, hf, hl, Option.isSome_none, Bool.false_eq_true, or_self, if_false]
      simp [find]

/-- a history -/
theorem run_fits {S O Out : Type} {call : S → O → R (S × Out)} {act : O → Out → Act K}
    {Rep : List Nat → S → Ents K V → Prop} (hw : ∀ {F s E}, Rep F s E → Whole F E)
    (h1 : ∀ F s E op, Rep F s E → ∃ s' o F' E', call s op = .ok (s', o) ∧ Rep F' s' E' ∧ Moves M (act op o) F E F' E')
    (ops : List O) : ∀ (σ : Slots K) (F : List Nat) (s : S) (E : Ents K V), Rep F s E → Fits σ F E →
    ∃ s' outs F' E', run call s ops = .ok (s', outs) ∧ Rep F' s' E' ∧ outs.length = ops.length ∧
      Fits ((ops.zipWith act outs).foldl (Slots.step M) σ) F' E' := by
  induction ops with
  | nil => intro σ F s E h hf; exact ⟨s, [], F, E, rfl, h, rfl, hf⟩
  | cons op ops ih =>
    intro σ F s E h hf
    obtain ⟨s1, o, F1, E1, e1, h1', m1⟩ := h1 F s E op h
    obtain ⟨s2, os, F2, E2, e2, h2, hl, f2⟩ := ih _ F1 s1 E1 h1' (m1.step hf (hw h) (hw h1'))
    exact ⟨s2, o :: os, F2, E2, by simp only [run, e1, except_bind_ok, e2]; rfl, h2, by simp [hl], f2⟩

omit [DecidableEq K] in
theorem fits_empty : Fits (empty : Slots K) [] ([] : Ents K V) := ⟨rfl, List.Perm.refl _⟩

/-- the report of an insertion -/
theorem place_of (hm : Moves M (.put k) F E F' E') (h : Fits σ F E) (w : Whole F E) (w' : Whole F' E') {r : Option Nat}
    (hr : (r = none ∧ Absent E' k) ∨ ∃ i v, r = some i ∧ (i, k, v) ∈ E') : r = σ.place M k := by
  rw [place_eq]
  have h' := hm.step h w w'
  rcases hr with ⟨rfl, ha⟩ | ⟨i, v, rfl, hv⟩
  · rw [h'.find_none ha]
  · rw [h'.find_some w'.keys hv]

/-- lookups -/
theorem find_of (h : Fits σ F E) (w : Whole F E) {k : K} {r : R Nat}
    (hr : (Absent E k ∧ r = .ok 0) ∨ ∃ i v, (i, k, v) ∈ E ∧ r = .ok i) : r = .ok ((σ.find k).getD 0) := by
  rcases hr with ⟨ha, e⟩ | ⟨i, v, hv, e⟩
  · rw [e, h.find_none ha]; rfl
  · rw [e, h.find_some w.keys hv]; rfl

/-! ### moves of the maps -/

omit [DecidableEq K] in
theorem sl_mid (L1 L2 : Ents K V) (i : Nat) (k : K) (v : V) : (sl (L1 ++ (i, k, v) :: L2)).Perm ((k, i) :: sl (L1 ++ L2)) := by
  simp only [sl, List.map_append, List.map_cons]
  exact List.perm_middle

theorem moves_del {v : V} (h : Del E k v E') (hi : (i, k, v) ∈ E) (hk : (E.map fun e => e.2.1).Nodup) :
    Moves M (.drop k) F E (i :: F) E' := by
  obtain ⟨L1, j, L2, rfl, rfl⟩ := h
  have hm := FMap.lists_ofList (L := (L1 ++ (j, k, v) :: L2).map Prod.snd) (by rw [List.map_map]; exact hk)
  obtain rfl := (slot_unique hm hi (show (j, k, v) ∈ _ by simp)).1
  exact .gone (sl_mid ..)

omit [DecidableEq K] in
theorem moves_ins {v : V} (h : Ins E k v i E') (hn : ¬ (Absent E k ∧ E.length = M)) :
    ∃ F', F' = (if i ∈ E.map Prod.fst then F else F.tail) ∧ Moves M (.put k) F E F' E' := by
  refine ⟨_, rfl, ?_⟩
  rcases h with ⟨L1, v0, L2, rfl, rfl⟩ | ⟨ha, hi, L1, L2, rfl, rfl⟩
  · rw [if_pos (by simp)]
    exact .old (fun hc => hc (i, k, v0) (by simp) rfl) ((sl_mid ..).trans (sl_mid ..).symm)
  · rw [if_neg hi]
    exact .new ha (fun hc => hn ⟨ha, hc⟩) (sl_mid ..)

end Slots
end Sokoban
