import Verif.Proof.BytesTypes

namespace Sokoban.Bytes
open Layout Fields

theorem accepted_iff {T : Type} {A : Rep T} (hA : A.Lawful) (M N : Nat) :
    (params A M N).assertProperAlignment 0 = .ok () ↔ A.Accepted N := by
  constructor
  · intro h
    have f := Params.facts (p := params A M N) ⟨hA.align, hA.dvd⟩ h
    obtain ⟨_, _, h3, _⟩ := (Params.assert_iff 0).1 h
    refine ⟨?_, f.t16, f.regs⟩
    rcases h3 with h3 | h3
    · exact Or.inl h3
    · exact Or.inr (Nat.le_trans (Nat.le_max_left _ _) h3)
  · rintro ⟨h1, h2, h3⟩
    have hn : (params A M N).nodesOff = 16 := by
      show roundUp 16 (max 4 A.align) = 16
      apply roundUp_eq (by omega)
      rcases Nat.le_total 4 A.align with h | h
      · rw [Nat.max_eq_right h]; exact h2
      · rw [Nat.max_eq_left h]; exact ⟨4, rfl⟩
    refine (Params.assert_iff 0).2 ⟨Nat.zero_mod _, Nat.mod_eq_zero_of_dvd hA.dvd, ?_, by rw [hn], ?_, ?_⟩
    · rcases h1 with h1 | h1
      · exact Or.inl h1
      · refine Or.inr ?_
        have := Nat.le_of_dvd (by omega) hA.dvd
        show max 8 (max 4 A.align) ≤ A.size
        omega
    · rw [hn, Nat.zero_add]
      exact Nat.mod_eq_zero_of_dvd (Nat.dvd_add h2 h3)
    · rw [hn, Nat.zero_add]
      exact Nat.mod_eq_zero_of_dvd (Nat.dvd_add (Nat.dvd_add (Nat.dvd_add h2 h3) hA.dvd) h3)

theorem layout_cases {T : Type} {A : Rep T} (hA : A.Lawful) (M N : Nat) :
    (A.Accepted N ∧ (params A M N).assertProperAlignment 0 = .ok ()) ∨
    (¬ A.Accepted N ∧ (params A M N).assertProperAlignment 0 = .error .assertion) := by
  rcases Params.assert_cases (p := params A M N) 0 with h | h
  · exact Or.inl ⟨(accepted_iff hA M N).1 h, h⟩
  · refine Or.inr ⟨fun ha => ?_, h⟩
    rw [(accepted_iff hA M N).2 ha] at h; cases h

section Generic
variable {S : Type} {A : Rep S}

theorem store_frame (hA : A.Lawful) (s : Slice) (t : S) (k : Nat) (hk : A.size ≤ k) : (store A s t).mem k = s.mem k :=
  hA.frame t s.mem k hk

theorem makesNew_of (hA : A.Lawful) {init : Nat → S → R S} {new : S} {accepted : Prop} {s : Slice}
    (hbad : A.align ∣ s.addr → ¬ accepted → init s.addr (A.read zeroMem) = .error .assertion)
    (hgood : A.align ∣ s.addr → accepted → init s.addr (A.read zeroMem) = .ok new) (hv : A.Valid new) :
    MakesNew A accepted new s (newFromSlice A init s) where
  short h := newFromSlice_short init h
  misaligned h ha := newFromSlice_misaligned init h ha
  refused hf hz h := by rw [newFromSlice_fits init hf, read_zero hA hz, hbad hf.2 h]; rfl
  new hf hz h := by
    rw [newFromSlice_fits init hf, read_zero hA hz, hgood hf.2 h]
    exact ⟨_, rfl, load_store hA hf hv, rfl, rfl, fun k hk => store_frame hA s new k hk⟩

/-- `newFromSlice` panics when `initialize` does. -/
theorem newFromSlice_error {init : Nat → S → R S} {s : Slice} {t : S} (h : load A s = .ok (some t)) {e : Panic}
    (hi : A.align ∣ s.addr → init s.addr t = .error e) : newFromSlice A init s = .error e := by
  obtain ⟨hf, hr⟩ := fits_of_load h
  rw [newFromSlice_fits init hf, hr, hi hf.2]; rfl

end Generic

end Sokoban.Bytes
