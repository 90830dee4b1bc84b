import Verif.Spec.Map
import Verif.Proof.Run

namespace Sokoban
namespace FMap
variable {K V : Type}

theorem ext' {m m' : FMap K V} (h1 : ∀ k, m.get k = m'.get k) (h2 : m.len = m'.len) : m = m' := by
  cases m; cases m'; simp at *; exact ⟨funext h1, h2⟩

namespace Lists
variable {m : FMap K V} {L : List (K × V)}

theorem unique {m' : FMap K V} (h : m.Lists L) (h' : m'.Lists L) : m = m' := by
  refine ext' (fun k => ?_) (h.len.trans h'.len.symm)
  cases hk : m.get k with
  | some v => exact ((h'.mem k v).1 ((h.mem k v).2 hk)).symm
  | none =>
    cases hk' : m'.get k with
    | none => rfl
    | some v => rw [(h.mem k v).1 ((h'.mem k v).2 hk')] at hk; cases hk

theorem perm {L' : List (K × V)} (h : m.Lists L) (hp : L.Perm L') : m.Lists L' where
  nodup := (hp.map _).nodup_iff.1 h.nodup
  mem k v := by rw [← hp.mem_iff]; exact h.mem k v
  len := by rw [h.len, hp.length_eq]

theorem get_none (h : m.Lists L) {k : K} : m.get k = none ↔ ∀ v, (k, v) ∉ L := by
  constructor
  · intro hk v hv
    rw [(h.mem k v).1 hv] at hk; cases hk
  · intro hk
    cases hg : m.get k with
    | none => rfl
    | some v => exact absurd ((h.mem k v).2 hg) (hk v)

theorem get_none' (h : m.Lists L) {k : K} : m.get k = none ↔ k ∉ L.map Prod.fst := by
  rw [h.get_none]
  simp

theorem of_perm_perm {L' : List (K × V)} (h : m.Lists L) (h' : m.Lists L') : L.Perm L' := by
  have hn : ∀ {L : List (K × V)}, (L.map Prod.fst).Nodup → L.Nodup := by
    intro L hL
    induction L with
    | nil => simp
    | cons x L ih =>
      simp only [List.map_cons, List.nodup_cons] at hL ⊢
      exact ⟨fun hc => hL.1 (List.mem_map_of_mem hc), ih hL.2⟩
  refine (List.perm_ext_iff_of_nodup (hn h.nodup) (hn h'.nodup)).2 (fun e => ?_)
  rw [show e = (e.1, e.2) from rfl, h.mem, h'.mem]

end Lists

theorem lists_empty : (empty : FMap K V).Lists [] where
  nodup := by simp
  mem := by simp [empty]
  len := rfl

variable [DecidableEq K] {m : FMap K V}

theorem Lists.insert_new {L : List (K × V)} (h : m.Lists L) {k : K} (v : V) (hk : m.get k = none) :
    (m.insert k v).Lists ((k, v) :: L) where
  nodup := by
    simp only [List.map_cons, List.nodup_cons]
    exact ⟨h.get_none'.1 hk, h.nodup⟩
  mem k' v' := by
    simp only [List.mem_cons, Prod.mk.injEq, insert]
    by_cases hkk : k' = k
    · subst hkk
      simp only [true_and, if_true, Option.some.injEq]
      constructor
      · rintro (rfl | hc)
        · rfl
        · exact absurd hc (h.get_none.1 hk v')
      · rintro rfl; exact Or.inl rfl
    · simp only [hkk, false_and, false_or, if_false]
      exact h.mem k' v'
  len := by simp [insert, hk, h.len]

omit [DecidableEq K] in
theorem Lists.split {L1 L2 : List (K × V)} {k : K} {v : V} (h : m.Lists (L1 ++ (k, v) :: L2)) :
    m.get k = some v ∧ (∀ v', (k, v') ∉ L1) ∧ (∀ v', (k, v') ∉ L2) := by
  have hn := h.nodup
  simp only [List.map_append, List.map_cons] at hn
  obtain ⟨_, hn2, hn3⟩ := List.nodup_append.1 hn
  refine ⟨(h.mem k v).1 (by simp), fun v' hc => ?_, fun v' hc => ?_⟩
  · exact hn3 k (List.mem_map_of_mem (f := Prod.fst) hc) k (by simp) rfl
  · exact (List.nodup_cons.1 hn2).1 (List.mem_map_of_mem (f := Prod.fst) hc)

theorem Lists.insert_old {L1 L2 : List (K × V)} {k : K} {v0 : V}
    (h : m.Lists (L1 ++ (k, v0) :: L2)) (v : V) :
    (m.insert k v).Lists (L1 ++ (k, v) :: L2) where
  nodup := by have := h.nodup; simpa using this
  mem k' v' := by
    obtain ⟨h1, h2, h3⟩ := h.split
    have hm := h.mem k' v'
    simp only [List.mem_append, List.mem_cons, Prod.mk.injEq, insert] at hm ⊢
    by_cases hkk : k' = k
    · subst hkk
      simp only [true_and, if_true, Option.some.injEq]
      constructor
      · rintro (hc | rfl | hc)
        · exact absurd hc (h2 v')
        · rfl
        · exact absurd hc (h3 v')
      · rintro rfl; exact Or.inr (Or.inl rfl)
    · simp only [hkk, false_and, false_or, if_false] at hm ⊢
      exact hm
  len := by
    obtain ⟨h1, _⟩ := h.split
    have := h.len
    simp [insert, h1] at this ⊢; exact this

theorem Lists.erase {L1 L2 : List (K × V)} {k : K} {v0 : V}
    (h : m.Lists (L1 ++ (k, v0) :: L2)) : (m.erase k).Lists (L1 ++ L2) where
  nodup := by
    have hn := h.nodup
    simp only [List.map_append, List.map_cons] at hn ⊢
    obtain ⟨a, b, c⟩ := List.nodup_append.1 hn
    exact List.nodup_append.2 ⟨a, (List.nodup_cons.1 b).2, fun x hx y hy => c x hx y (by simp [hy])⟩
  mem k' v' := by
    obtain ⟨h1, h2, h3⟩ := h.split
    have hm := h.mem k' v'
    simp only [List.mem_append, List.mem_cons, Prod.mk.injEq, FMap.erase] at hm ⊢
    by_cases hkk : k' = k
    · subst hkk
      simp [h2, h3]
    · simp only [hkk, false_and, false_or, if_false] at hm ⊢
      exact hm
  len := by
    obtain ⟨h1, _⟩ := h.split
    have := h.len
    simp [FMap.erase, h1] at this ⊢; omega

theorem erase_none {k : K} (hk : m.get k = none) : m.erase k = m := by
  refine ext' (fun k' => ?_) (by simp [erase, hk])
  simp only [erase]
  split
  · next h => rw [h, hk]
  · rfl

theorem modify_none {k : K} (f : V → V) (hk : m.get k = none) : m.modify k f = m := by
  refine ext' (fun k' => ?_) rfl
  simp only [modify]
  split
  · next h => rw [h, hk]; rfl
  · rfl

theorem modify_some {k : K} {v : V} (f : V → V) (hk : m.get k = some v) :
    m.modify k f = m.insert k (f v) := by
  refine ext' (fun k' => ?_) (by simp [modify, insert, hk])
  simp only [modify, insert, hk]
  split <;> simp

omit [DecidableEq K] in
theorem Lists.split_of_get {L : List (K × V)} (h : m.Lists L) {k : K} {v : V} (hk : m.get k = some v) :
    ∃ L1 L2, L = L1 ++ (k, v) :: L2 := List.append_of_mem ((h.mem k v).2 hk)

/-- the map listed by a list with distinct keys -/
def ofList (L : List (K × V)) : FMap K V :=
  ⟨fun k => (L.find? (fun e => e.1 = k)).map Prod.snd, L.length⟩

theorem lists_ofList {L : List (K × V)} (hn : (L.map Prod.fst).Nodup) : (ofList L).Lists L := by
  refine ⟨hn, fun k v => ?_, rfl⟩
  unfold ofList
  induction L with
  | nil => simp
  | cons x L ih =>
    simp only [List.map_cons, List.nodup_cons] at hn
    simp only [List.mem_cons, List.find?_cons]
    by_cases hx : x.1 = k
    · subst hx
      simp only [decide_true, Option.map_some, Option.some.injEq]
      constructor
      · rintro (h | h)
        · rw [← h]
        · exact absurd (List.mem_map_of_mem (f := Prod.fst) h) hn.1
      · rintro rfl; exact Or.inl rfl
    · simp only [hx, decide_false]
      rw [← ih hn.2]
      constructor
      · rintro (h | h)
        · exact absurd (by rw [← h]) hx
        · exact h
      · exact Or.inr

end FMap

namespace MapSpec
variable {K V : Type}

theorem all_of_ids {E E' : List (Nat × K × V)}
    (hE : E'.map (fun e => (e.1, e.2.1)) = E.map (fun e => (e.1, e.2.1))) {i : Nat} {k : K} {v : V}
    (he : (i, k, v) ∈ E) : ∃ v', (i, k, v') ∈ E' := by
  have : (i, k) ∈ E'.map (fun e => (e.1, e.2.1)) := by
    rw [hE]; exact List.mem_map_of_mem (f := fun e : Nat × K × V => (e.1, e.2.1)) he
  obtain ⟨⟨i', k', v'⟩, he', hx⟩ := List.mem_map.1 this
  simp at hx
  exact ⟨v', by rw [← hx.1, ← hx.2]; exact he'⟩


/-- `E'` keeps every entry of `E` at its address, except possibly one with key removed by `op` -/
def Kept (op : Op K V) (E E' : List (Nat × K × V)) : Prop :=
  ∀ i k v, (i, k, v) ∈ E → (∀ k', op = .remove k' → k' ≠ k) → ∃ v', (i, k, v') ∈ E'

/-- generic induction over histories -/
theorem run_trace {S Op Out : Type} {step : FMap K V → Op → Out → FMap K V → Prop}
    {call : S → Op → Sokoban.R (S × Out)} {Rep : S → List (Nat × K × V) → Prop}
    {gone : Op → Out → K → Prop}
    (hcall : ∀ s E m op, Rep s E → m.Lists (E.map Prod.snd) →
      ∃ s' o E' m', call s op = .ok (s', o) ∧ Rep s' E' ∧ m'.Lists (E'.map Prod.snd) ∧
        step m op o m' ∧
        ∀ i k v, (i, k, v) ∈ E → ¬ gone op o k → ∃ v', (i, k, v') ∈ E') :
    ∀ (ops : List Op) (s : S) (E : List (Nat × K × V)) (m : FMap K V), Rep s E →
      m.Lists (E.map Prod.snd) →
      ∃ s' os E' m', run call s ops = .ok (s', os) ∧ Rep s' E' ∧ m'.Lists (E'.map Prod.snd) ∧
        Trace step m ops os m' ∧
        ∀ i k v, (i, k, v) ∈ E → (∀ p ∈ ops.zip os, ¬ gone p.1 p.2 k) → ∃ v', (i, k, v') ∈ E'
  | [], s, E, m, h, hm => ⟨s, [], E, m, rfl, h, hm, rfl, fun i k v he _ => ⟨v, he⟩⟩
  | op :: ops, s, E, m, h, hm => by
    obtain ⟨s1, o, E1, m1, e1, h1, hm1, hs1, hk1⟩ := hcall s E m op h hm
    obtain ⟨s2, os, E2, m2, e2, h2, hm2, hs2, hk2⟩ := run_trace hcall ops s1 E1 m1 h1 hm1
    refine ⟨s2, o :: os, E2, m2, by simp [run, e1, e2], h2, hm2, ⟨m1, hs1, hs2⟩, ?_⟩
    intro i k v he hno
    obtain ⟨v1, he1⟩ := hk1 i k v he (hno (op, o) (by simp))
    exact hk2 i k v1 he1 (fun p hp => hno p (by simp [hp]))

theorem mem_zip_left {α β : Type} : ∀ {l : List α} {l' : List β} {p : α × β}, p ∈ l.zip l' → p.1 ∈ l
  | _ :: _, _ :: _, p, h => by
    rw [List.zip_cons_cons, List.mem_cons] at h
    rcases h with rfl | h
    · simp
    · exact List.mem_cons_of_mem _ (mem_zip_left h)
  | [], _, _, h => by simp at h
  | _ :: _, [], _, h => by simp at h

/-- the same for histories of map calls -/
theorem run_steps {S : Type} [DecidableEq K] {R : Rules K V} {call : S → Op K V → Sokoban.R (S × Out K V)}
    {Rep : S → List (Nat × K × V) → Prop}
    (hcall : ∀ s E m op, Rep s E → m.Lists (E.map Prod.snd) →
      ∃ s' o E' m', call s op = .ok (s', o) ∧ Rep s' E' ∧ m'.Lists (E'.map Prod.snd) ∧
        Step R m op o m' ∧ Kept op E E')
    (ops : List (Op K V)) (s : S) (E : List (Nat × K × V)) (m : FMap K V) (h : Rep s E)
    (hm : m.Lists (E.map Prod.snd)) :
      ∃ s' os E' m', run call s ops = .ok (s', os) ∧ Rep s' E' ∧ m'.Lists (E'.map Prod.snd) ∧
        Steps R m ops os m' ∧
        ∀ i k v, (i, k, v) ∈ E → (∀ op ∈ ops, ∀ k', op = .remove k' → k' ≠ k) →
          ∃ v', (i, k, v') ∈ E' := by
  obtain ⟨s', os, E', m', e, h1, h2, h3, h4⟩ := run_trace (Rep := Rep) (step := Step R)
    (gone := fun op _ k => op = .remove k) (fun s E m op h hm => by
      obtain ⟨s', o, E', m', e, h1, h2, h3, h4⟩ := hcall s E m op h hm
      refine ⟨s', o, E', m', e, h1, h2, h3, fun i k v he hg => h4 i k v he ?_⟩
      rintro k' rfl rfl
      exact hg rfl) ops s E m h hm
  exact ⟨s', os, E', m', e, h1, h2, h3, fun i k v he hno => h4 i k v he
    (fun p hp hg => hno p.1 (mem_zip_left hp) k hg rfl)⟩

end MapSpec
end Sokoban
