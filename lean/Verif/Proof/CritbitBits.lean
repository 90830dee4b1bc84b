import Verif.Model.Critbit
import Verif.Proof.Alloc
import Mathlib.Data.Nat.Bitwise

/-
Bits of `u128` keys, counted from the most significant one.
-/
namespace Sokoban.Critbit

/-- the first `p` bits are the same -/
def Agree (p : Nat) (a b : BitVec 128) : Prop := ∀ j, j < p → a.getMsbD j = b.getMsbD j

theorem Agree.refl (p : Nat) (a : BitVec 128) : Agree p a a := fun _ _ => rfl
theorem Agree.symm {p : Nat} {a b : BitVec 128} (h : Agree p a b) : Agree p b a := fun j hj => (h j hj).symm
theorem Agree.trans {p : Nat} {a b c : BitVec 128} (h : Agree p a b) (h' : Agree p b c) : Agree p a c :=
  fun j hj => (h j hj).trans (h' j hj)
theorem Agree.mono {p q : Nat} {a b : BitVec 128} (h : Agree p a b) (hq : q ≤ p) : Agree q a b :=
  fun j hj => h j (by omega)

theorem Agree.eq {a b : BitVec 128} (h : Agree 128 a b) : a = b := by
  apply BitVec.eq_of_getMsbD_eq
  intro i hi
  exact h i hi

theorem xor_bit (a b : BitVec 128) (j : Nat) :
    (a ^^^ b).getMsbD j = (a.getMsbD j != b.getMsbD j) := by
  rw [BitVec.getMsbD_xor]

theorem leadingZeros_le (x : BitVec 128) : leadingZeros x ≤ 128 := by
  have := List.findIdx_le_length (xs := List.range 128) (p := fun j => x.getMsbD j)
  simpa [leadingZeros] using this

theorem leadingZeros_before {x : BitVec 128} {j : Nat} (h : j < leadingZeros x) : x.getMsbD j = false := by
  have hj : j < 128 := Nat.lt_of_lt_of_le h (leadingZeros_le x)
  have := List.not_of_lt_findIdx (xs := List.range 128) (p := fun j => x.getMsbD j) (i := j) h
  simpa using this

theorem leadingZeros_at {x : BitVec 128} (h : leadingZeros x < 128) : x.getMsbD (leadingZeros x) = true := by
  have := List.findIdx_getElem (xs := List.range 128) (p := fun j => x.getMsbD j) (w := by simpa [leadingZeros] using h)
  simpa [leadingZeros] using this

theorem le_leadingZeros {a b : BitVec 128} {p : Nat} (hp : p ≤ 128) :
    p ≤ leadingZeros (a ^^^ b) ↔ Agree p a b := by
  constructor
  · intro h j hj
    have := leadingZeros_before (x := a ^^^ b) (j := j) (by omega)
    rw [xor_bit] at this
    simpa using this
  · intro h
    refine Classical.byContradiction fun hc => ?_
    have := leadingZeros_at (x := a ^^^ b) (by omega)
    rw [xor_bit, h _ (by omega)] at this
    simp at this

theorem lt_leadingZeros {a b : BitVec 128} {q : Nat} (hq : leadingZeros (a ^^^ b) = q) (hlt : q < 128) :
    Agree q a b ∧ a.getMsbD q ≠ b.getMsbD q := by
  subst hq
  refine ⟨(le_leadingZeros (by omega)).1 (Nat.le_refl _), ?_⟩
  have := leadingZeros_at hlt
  rw [xor_bit] at this
  simpa using this

theorem critBitMask_ok {p : Nat} (hp : p < 128) : critBitMask p = .ok (((1#128) <<< 127) >>> p) := by
  unfold critBitMask; rw [if_neg (by omega)]

theorem mask_iff {p : Nat} (hp : p < 128) (k : BitVec 128) :
    k &&& (((1#128) <<< 127) >>> p) ≠ 0 ↔ k.getMsbD p = true := by
  have hm : ∀ i, ((((1#128) <<< 127) >>> p) : BitVec 128).getLsbD i = decide (i = 127 - p) := by
    intro i
    simp only [BitVec.getLsbD_ushiftRight, BitVec.getLsbD_shiftLeft, BitVec.getLsbD_one]
    by_cases h : i = 127 - p
    · subst h
      have : p + (127 - p) = 127 := by omega
      simp [this]
    · by_cases h2 : p + i < 128
      · have : p + i - 127 = 0 → p + i < 127 := by omega
        have : p + i < 127 := by omega
        simp [h, this]
      · simp [h, h2]
  rw [BitVec.getMsbD_eq_getLsbD]
  simp only [hp, decide_true, Bool.true_and]
  constructor
  · intro h
    refine Classical.byContradiction fun hc => h ?_
    apply BitVec.eq_of_getLsbD_eq
    intro i hi
    rw [BitVec.getLsbD_and, hm]
    by_cases h : i = 127 - p
    · subst h
      have : k.getLsbD (127 - p) = false := by simpa using hc
      simp [this]
    · simp [h]
  · intro h hc
    have := congrArg (fun x => BitVec.getLsbD x (127 - p)) hc
    simp only [BitVec.getLsbD_and, hm] at this
    have h' : k.getLsbD (127 - p) = true := h
    rw [h'] at this; simp at this

theorem lt_of_bits {a b : BitVec 128} {p : Nat} (hp : p < 128) (h : Agree p a b) (ha : a.getMsbD p = false)
    (hb : b.getMsbD p = true) : a < b := by
  rw [BitVec.lt_def]
  rw [BitVec.getMsbD_eq_getLsbD] at ha hb
  simp only [hp, decide_true, Bool.true_and] at ha hb
  refine Nat.lt_of_testBit (128 - 1 - p) ha hb ?_
  intro j hj
  show a.getLsbD j = b.getLsbD j
  by_cases hj' : j < 128
  · have := h (127 - j) (by omega)
    rw [BitVec.getMsbD_eq_getLsbD, BitVec.getMsbD_eq_getLsbD] at this
    have e : 128 - 1 - (127 - j) = j := by omega
    rw [e] at this
    simpa [show 127 - j < 128 by omega] using this
  · rw [BitVec.getLsbD_of_ge _ _ (by omega), BitVec.getLsbD_of_ge _ _ (by omega)]

end Sokoban.Critbit
