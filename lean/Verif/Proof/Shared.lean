import Verif.Spec.Shared
import Verif.Proof.Api
import Verif.Proof.Intact
import Mathlib.Data.List.FinRange

/-
Several maps in the memory of one structure: each is described as if the slots of the others were lost to it.
-/
namespace Sokoban.Shared
open MapSpec NodeAllocator
variable {n : Nat} {S W K V T : Type} {M N : Nat}

/-- the registers and values of the slots `L` as they are in `a` -/
@[reducible] def snap (a : NodeAllocator T M N) (L : List Nat) : Known := ⟨none, L, a.reg, fun i => (a.val? i).map (Sigma.mk T)⟩

theorem snap_intact (a : NodeAllocator T M N) (L : List Nat) : (snap a L).Intact a := fun _ _ => ⟨fun _ => rfl, rfl⟩

/-- what has to be known about a structure -/
structure Theory [DecidableEq K] (M N : Nat) (al : S → NodeAllocator T M N) (field : S → W) (assign : S → W → S)
    (call : S → MapSpec.Op K V → R (S × MapSpec.Out K V)) (rules : Nat → Rules K V) (Rep : Known → S → Ents K V → Prop)
    (Rg : Nat → Prop) (P : (Nat → Nat) → Prop) : Prop where
  al_assign : ∀ s w, al (assign s w) = al s
  field_assign : ∀ s w, field (assign s w) = w
  assign_assign : ∀ s w w', assign (assign s w) w' = assign s w'
  assign_field : ∀ s, assign s (field s) = s
  base : ∀ {kn s E}, Rep kn s E → (∃ free, AInv (al s) free (kn.lost ++ E.map Prod.fst)) ∧
    Clean (al s) Rg (kn.lost ++ E.map Prod.fst) ∧ kn.Intact (al s)
  tag : ∀ {kn s E}, Rep kn s E → ∀ i ∈ E.map Prod.fst, P ((al s).reg i)
  shift : ∀ {kn s E}, Rep kn s E → ∀ {kn' s'}, kn'.list = none → field s' = field s →
    (∀ i ∈ E.map Prod.fst, ∀ r, (al s').reg i r = (al s).reg i r) →
    (∀ i ∈ E.map Prod.fst, (al s').val? i = (al s).val? i) →
    (∃ free, AInv (al s') free (kn'.lost ++ E.map Prod.fst)) → Clean (al s') Rg (kn'.lost ++ E.map Prod.fst) →
    kn'.Intact (al s') → Rep kn' s' E
  one : ∀ {kn s E}, kn.list = none → (∀ i ∈ kn.lost, P (kn.reg i)) → Rep kn s E → ∀ {m : FMap K V}, m.Lists (E.map Prod.snd) →
    ∀ op, (∃ s' o E' m', call s op = .ok (s', o) ∧ Rep kn s' E' ∧ m'.Lists (E'.map Prod.snd) ∧
        MapSpec.Step (rules (M - kn.lost.length)) m op o m') ∨
      (∃ k v, op = .insert k v ∧ E = [] ∧ kn.lost.length = M ∧ call s op = .error .bufferFull)

/-- the slots of all maps -/
def slots (Es : Fin n → Ents K V) (L : List (Fin n)) : List Nat := L.flatMap fun j => (Es j).map Prod.fst

/-- the slots of the maps other than `j` -/
def foreign (Es : Fin n → Ents K V) (j : Fin n) : List Nat := slots Es ((List.finRange n).filter (· ≠ j))

theorem mem_foreign {Es : Fin n → Ents K V} {j : Fin n} {i : Nat} :
    i ∈ foreign Es j ↔ ∃ l, l ≠ j ∧ i ∈ (Es l).map Prod.fst := by
  unfold foreign slots
  simp only [List.mem_flatMap, List.mem_filter, List.mem_finRange, true_and, decide_eq_true_eq]

theorem foreign_perm (Es : Fin n → Ents K V) (j : Fin n) :
    (foreign Es j ++ (Es j).map Prod.fst).Perm (slots Es (List.finRange n)) := by
  have h1 : (slots Es ((List.finRange n).filter (· ≠ j) ++ [j])).Perm (slots Es (List.finRange n)) := by
    unfold slots
    refine List.Perm.flatMap_right _ ?_
    rw [List.perm_ext_iff_of_nodup]
    · intro a
      simp only [List.mem_append, List.mem_filter, List.mem_finRange, true_and, List.mem_singleton, decide_eq_true_eq, iff_true]
      by_cases h : a = j
      · exact Or.inr h
      · exact Or.inl h
    · rw [List.nodup_append]
      refine ⟨(List.nodup_finRange n).filter _, by simp, ?_⟩
      intro a ha b hb hab
      simp only [List.mem_filter, decide_eq_true_eq, List.mem_singleton] at ha hb
      exact ha.2 (hab.trans hb)
    · exact List.nodup_finRange n
  simpa [slots, foreign, List.flatMap_append] using h1

/-- replacing the map `j` does not change what is foreign to it -/
theorem foreign_congr {Es Es' : Fin n → Ents K V} {j : Fin n} (h : ∀ l, l ≠ j → Es' l = Es l) : foreign Es' j = foreign Es j := by
  unfold foreign slots
  apply List.flatMap_congr
  intro l hl
  rw [h l (by simpa using (List.mem_filter.1 hl).2)]

section
variable [DecidableEq K] {al : S → NodeAllocator T M N} {field : S → W} {assign : S → W → S}
  {call : S → MapSpec.Op K V → R (S × MapSpec.Out K V)} {rules : Nat → Rules K V} {Rep : Known → S → Ents K V → Prop}
  {Rg : Nat → Prop} {P : (Nat → Nat) → Prop}

/-- the structure with map `j` in place -/
def Client.view (field : S → W) (assign : S → W → S) (c : Client n S W) (j : Fin n) : S := assign c.state (c.aside field j)

/-- the client holds the maps `x` -/
structure Fam (al : S → NodeAllocator T M N) (field : S → W) (assign : S → W → S) (Rep : Known → S → Ents K V → Prop)
    (c : Client n S W) (x : Maps n K V) (Es : Fin n → Ents K V) : Prop where
  rep : ∀ j, Rep (snap (al c.state) (foreign Es j)) (c.view field assign j) (Es j)
  lists : ∀ j, (x.maps j).Lists ((Es j).map Prod.snd)
  cur : c.cur = x.cur

omit [DecidableEq K] in
theorem Fam.total {c : Client n S W} {x : Maps n K V} {Es : Fin n → Ents K V} (h : Fam al field assign Rep c x Es) :
    x.total = (slots Es (List.finRange n)).length := by
  unfold Maps.total slots
  rw [List.length_flatMap]
  congr 1
  apply List.map_congr_left
  intro j _
  rw [(h.lists j).len]; simp

omit [DecidableEq K] in
theorem Fam.others {c : Client n S W} {x : Maps n K V} {Es : Fin n → Ents K V} (h : Fam al field assign Rep c x Es) :
    x.others = (foreign Es x.cur).length ∧ x.total = (foreign Es x.cur).length + (Es x.cur).length := by
  have h1 := (foreign_perm Es x.cur).length_eq
  have h2 := (h.lists x.cur).len
  have h3 := h.total
  simp only [List.length_append, List.length_map] at h1 h2
  unfold Maps.others
  omega

variable (H : Theory M N al field assign call rules Rep Rg P)
include H

theorem Fam.switch {c : Client n S W} {x : Maps n K V} {Es : Fin n → Ents K V} (h : Fam al field assign Rep c x Es) (j : Fin n) :
    Fam al field assign Rep (c.switch field assign j) ⟨x.maps, j⟩ Es where
  rep l := by
    have e : (c.switch field assign j).view field assign l = c.view field assign l := by
      unfold Client.view Client.switch Client.aside
      rw [H.assign_assign]
      congr 1
      by_cases hl : l = j
      · subst hl; simp only [if_true, H.field_assign]
      · simp only [if_neg hl]
    rw [e]
    have e2 : al (c.switch field assign j).state = al c.state := H.al_assign _ _
    rw [e2]
    exact h.rep l
  lists := h.lists
  cur := rfl

theorem Fam.tags {c : Client n S W} {x : Maps n K V} {Es : Fin n → Ents K V} (h : Fam al field assign Rep c x Es) (j : Fin n) :
    ∀ i ∈ foreign Es j, P ((al c.state).reg i) := by
  intro i hi
  obtain ⟨l, _, hl⟩ := mem_foreign.1 hi
  have := H.tag (h.rep l) i hl
  rwa [Client.view, H.al_assign] at this

theorem Fam.act {c : Client n S W} {x : Maps n K V} {Es : Fin n → Ents K V} (h : Fam al field assign Rep c x Es)
    (op : MapSpec.Op K V) :
    (∃ s' o Es' y, call c.state op = .ok (s', o) ∧ Fam al field assign Rep { c with state := s' } y Es' ∧
      Step rules M x (.call op) (.did o) y) ∨
    (∃ k v, op = .insert k v ∧ (x.maps x.cur).len = 0 ∧ x.total = M ∧ call c.state op = .error .bufferFull) := by
  have hview : c.view field assign c.cur = c.state := by
    unfold Client.view Client.aside; rw [if_pos rfl, H.assign_field]
  have hcur := h.rep c.cur
  rw [hview] at hcur
  have htag := Fam.tags H h c.cur
  obtain ⟨ho, ht⟩ := h.others
  rcases H.one (kn := snap (al c.state) (foreign Es c.cur)) rfl htag hcur (h.lists c.cur) op with ⟨s', o, E', m', e, hR, hm', hst⟩ | ⟨k, v, rfl, hE, hl, e⟩
  · left
    refine ⟨s', o, fun l => if l = c.cur then E' else Es l, ⟨fun l => if l = x.cur then m' else x.maps l, x.cur⟩, e, ?_,
      m', ?_, rfl⟩
    · obtain ⟨⟨free, hf⟩, hc, hi⟩ := H.base hR
      have hsame : foreign (fun l => if l = c.cur then E' else Es l) c.cur = foreign Es c.cur :=
        foreign_congr fun l hl => if_neg hl
      have hall := foreign_perm (fun l => if l = c.cur then E' else Es l) c.cur
      simp only [if_true] at hall
      rw [hsame] at hall
      refine ⟨fun j => ?_, fun j => ?_, h.cur⟩
      · by_cases hj : j = c.cur
        · subst hj
          have hv : Client.view field assign { c with state := s' } c.cur = s' := by
            unfold Client.view Client.aside; rw [if_pos rfl, H.assign_field]
          rw [hv, hsame, if_pos rfl]
          exact H.shift hR rfl rfl (fun _ _ _ => rfl) (fun _ _ => rfl) ⟨free, hf⟩ hc (snap_intact _ _)
        · have hp := foreign_perm (fun l => if l = c.cur then E' else Es l) j
          simp only [if_neg hj] at hp ⊢
          have hp' := hall.trans hp.symm
          have hal : al (Client.view field assign { c with state := s' } j) = al s' := H.al_assign _ _
          have hal0 : al (c.view field assign j) = al c.state := H.al_assign _ _
          have hin : ∀ i ∈ (Es j).map Prod.fst, i ∈ foreign Es c.cur := fun i hi => mem_foreign.2 ⟨j, hj, hi⟩
          refine H.shift (h.rep j) rfl ?_ ?_ ?_ ?_ ?_ ?_
          · simp only [Client.view, Client.aside, H.field_assign, if_neg hj]
          · intro i hi' r
            rw [hal, hal0]
            exact (hi i (hin i hi')).1 r
          · intro i hi'
            rw [hal, hal0]
            have := (hi i (hin i hi')).2
            refine Option.map_injective (f := Sigma.mk T) ?_ this
            intro a b hab
            simpa using hab
          · rw [hal]; exact ⟨free, hf.perm hp'⟩
          · rw [hal]; exact hc.perm hp'
          · rw [hal]; exact snap_intact _ _
      · rw [← h.cur]
        by_cases hj : j = c.cur
        · simp only [if_pos hj]; exact hm'
        · simp only [if_neg hj]; exact h.lists j
    · rw [ho, ← h.cur]
      exact hst
  · right
    rw [← h.cur] at ht ho
    refine ⟨k, v, rfl, ?_, ?_, e⟩
    · rw [← h.cur, (h.lists _).len, hE]; rfl
    · rw [ht, hE]; exact hl

theorem run_fam : ∀ (ops : List (Op n K V)) (c : Client n S W) (x : Maps n K V) (Es : Fin n → Ents K V),
    Fam al field assign Rep c x Es →
    (∃ c' os x' Es', run (exec field assign call) c ops = .ok (c', os) ∧ Trace (Step rules M) x ops os x' ∧
      Fam al field assign Rep c' x' Es') ∨
    (∃ pre k v post c' os x' Es', ops = pre ++ .call (.insert k v) :: post ∧
      run (exec field assign call) c pre = .ok (c', os) ∧ Trace (Step rules M) x pre os x' ∧
      Fam al field assign Rep c' x' Es' ∧ (x'.maps x'.cur).len = 0 ∧ x'.total = M ∧
      call c'.state (.insert k v) = .error .bufferFull ∧ run (exec field assign call) c ops = .error .bufferFull)
  | [], c, x, Es, h => Or.inl ⟨c, [], x, Es, rfl, rfl, h⟩
  | .switch j :: ops, c, x, Es, h => by
    have e : exec field assign call c (.switch j) = .ok (c.switch field assign j, .switched) := rfl
    rcases run_fam ops _ _ _ (Fam.switch H h j) with ⟨c', os, x', Es', er, ht, hf⟩ |
      ⟨pre, k, v, post, c', os, x', Es', rfl, er, ht, hf, h0, h1, hc, hr⟩
    · exact Or.inl ⟨c', .switched :: os, x', Es', by simp only [run, e, except_bind_ok, er]; rfl, ⟨_, rfl, ht⟩, hf⟩
    · exact Or.inr ⟨.switch j :: pre, k, v, post, c', .switched :: os, x', Es', rfl,
        by simp only [run, e, except_bind_ok, er]; rfl, ⟨_, rfl, ht⟩, hf, h0, h1, hc,
        by simp only [run, e, except_bind_ok, hr]; rfl⟩
  | .call op :: ops, c, x, Es, h => by
    rcases Fam.act H h op with ⟨s', o, Es1, y, e0, hf1, hst⟩ | ⟨k, v, rfl, h0, h1, e0⟩
    · have e : exec field assign call c (.call op) = .ok ({ c with state := s' }, .did o) := by
        simp only [exec, e0, except_bind_ok]; rfl
      rcases run_fam ops _ _ _ hf1 with ⟨c', os, x', Es', er, ht, hf⟩ |
        ⟨pre, k, v, post, c', os, x', Es', rfl, er, ht, hf, h0, h1, hc, hr⟩
      · exact Or.inl ⟨c', .did o :: os, x', Es', by simp only [run, e, except_bind_ok, er]; rfl, ⟨_, hst, ht⟩, hf⟩
      · exact Or.inr ⟨.call op :: pre, k, v, post, c', .did o :: os, x', Es', rfl,
          by simp only [run, e, except_bind_ok, er]; rfl, ⟨_, hst, ht⟩, hf, h0, h1, hc,
          by simp only [run, e, except_bind_ok, hr]; rfl⟩
    · refine Or.inr ⟨[], k, v, ops, c, [], x, Es, rfl, rfl, rfl, h, h0, h1, e0, ?_⟩
      simp only [run, exec, e0]; rfl

/-- a client of a new structure -/
theorem Fam.start {s : S} {w0 : W} (h0 : field s = w0) (hs : Rep (snap (al s) []) s []) (j0 : Fin n) :
    Fam al field assign Rep ⟨s, fun _ => w0, j0⟩ ⟨fun _ => FMap.empty, j0⟩ (fun _ => []) where
  rep j := by
    have e : Client.view field assign (⟨s, fun _ => w0, j0⟩ : Client n S W) j = s := by
      unfold Client.view Client.aside
      rw [← h0, ite_self, H.assign_field]
    have e2 : foreign (fun _ => ([] : Ents K V)) j = [] := by simp [foreign, slots]
    rw [e, e2]; exact hs
  lists _ := FMap.lists_empty
  cur := rfl

theorem Fam.size {c : Client n S W} {x : Maps n K V} {Es : Fin n → Ents K V} (h : Fam al field assign Rep c x Es) :
    (al c.state).size = x.total := by
  obtain ⟨⟨free, hf⟩, _⟩ := H.base (h.rep c.cur)
  have := hf.size
  rw [Client.view, H.al_assign] at this
  rw [this, h.total]; exact (foreign_perm Es c.cur).length_eq

/-- the calls on one map while the slots of others are in use -/
theorem run_one {kn : Known} (hk : kn.list = none) (hP : ∀ i ∈ kn.lost, P (kn.reg i)) :
    ∀ (ops : List (MapSpec.Op K V)) (s : S) (E : Ents K V) (m : FMap K V), Rep kn s E → m.Lists (E.map Prod.snd) →
    (∃ s' os E' m', run call s ops = .ok (s', os) ∧ Rep kn s' E' ∧ m'.Lists (E'.map Prod.snd) ∧
      Steps (rules (M - kn.lost.length)) m ops os m') ∨
    (∃ pre k v post s' os E' m', ops = pre ++ .insert k v :: post ∧ run call s pre = .ok (s', os) ∧ Rep kn s' E' ∧
      Steps (rules (M - kn.lost.length)) m pre os m' ∧ m'.len = 0 ∧ kn.lost.length = M ∧
      call s' (.insert k v) = .error .bufferFull ∧ run call s ops = .error .bufferFull)
  | [], s, E, m, h, hm => Or.inl ⟨s, [], E, m, rfl, h, hm, rfl⟩
  | op :: ops, s, E, m, h, hm => by
    rcases H.one hk hP h hm op with ⟨s1, o, E1, m1, e, h1, hm1, hst⟩ | ⟨k, v, rfl, rfl, hl, e⟩
    · rcases run_one hk hP ops s1 E1 m1 h1 hm1 with ⟨s', os, E', m', er, h', hm', hs⟩ |
        ⟨pre, k, v, post, s', os, E', m', rfl, er, h', hs, h0, hl, hc, hr⟩
      · exact Or.inl ⟨s', o :: os, E', m', by simp only [run, e, except_bind_ok, er]; rfl, h', hm', ⟨_, hst, hs⟩⟩
      · exact Or.inr ⟨op :: pre, k, v, post, s', o :: os, E', m', rfl, by simp only [run, e, except_bind_ok, er]; rfl, h',
          ⟨_, hst, hs⟩, h0, hl, hc, by simp only [run, e, except_bind_ok, hr]; rfl⟩
    · refine Or.inr ⟨[], k, v, ops, s, [], [], m, rfl, rfl, h, rfl, by rw [hm.len]; rfl, hl, e, ?_⟩
      simp only [run, e]; rfl

/-- with the field of an empty structure: empty, everything that was there is in use elsewhere -/
theorem Theory.forget {kn0 kn1 : Known} {s0 s : S} {E : Ents K V} (h0 : Rep kn0 s0 []) (h : Rep kn1 s E) (hl : kn1.lost = []) :
    Rep (snap (al s) (E.map Prod.fst)) (assign s (field s0)) [] := by
  obtain ⟨⟨free, hf⟩, hc, _⟩ := H.base h
  rw [hl] at hf hc
  have e : al (assign s (field s0)) = al s := H.al_assign _ _
  refine H.shift h0 rfl (H.field_assign _ _) (fun i hi => nomatch hi) (fun i hi => nomatch hi) ?_ ?_ ?_
  · rw [e]; exact ⟨free, by rw [List.map_nil, List.append_nil]; exact hf⟩
  · rw [e, List.map_nil, List.append_nil]; exact hc
  · rw [e]; exact snap_intact _ _

/-- with the old field: everything is back -/
theorem Theory.restore {kn1 : Known} {s s' : S} {E E' : Ents K V} (h : Rep kn1 s E)
    (h' : Rep (snap (al s) (E.map Prod.fst)) s' E') : Rep (snap (al s') (E'.map Prod.fst)) (assign s' (field s)) E := by
  obtain ⟨⟨free, hf⟩, hc, hi⟩ := H.base h'
  have e : al (assign s' (field s)) = al s' := H.al_assign _ _
  refine H.shift h rfl (H.field_assign _ _) ?_ ?_ ?_ ?_ ?_
  · intro i hi' r
    rw [e]; exact (hi i hi').1 r
  · intro i hi'
    rw [e]
    refine Option.map_injective (f := Sigma.mk T) ?_ (hi i hi').2
    intro a b hab
    simpa using hab
  · rw [e]; exact ⟨free, hf.perm List.perm_append_comm⟩
  · rw [e]; exact hc.perm List.perm_append_comm
  · rw [e]; exact snap_intact _ _

end
end Sokoban.Shared
