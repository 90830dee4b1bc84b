import Verif.Model.Layout
import Verif.Proof.Alloc

namespace Sokoban.Layout

theorem roundUp_eq {x a : Nat} (ha : 0 < a) (h : a ∣ x) : roundUp x a = x := by
  obtain ⟨c, rfl⟩ := h
  unfold roundUp
  have : a * c + a - 1 = (a - 1) + a * c := by omega
  rw [this, Nat.add_mul_div_left _ _ ha, Nat.div_eq_of_lt (by omega)]
  simp [Nat.mul_comm]

theorem dvd_roundUp (x a : Nat) : a ∣ roundUp x a := Nat.dvd_mul_left _ _

theorem le_roundUp {x a : Nat} (ha : 0 < a) : x ≤ roundUp x a := by
  unfold roundUp
  have h1 := Nat.div_add_mod (x + a - 1) a
  have h2 := Nat.mod_lt (x + a - 1) ha
  rw [Nat.mul_comm] at h1
  omega

theorem roundUp_lt {x a : Nat} (ha : 0 < a) : roundUp x a < x + a := by
  unfold roundUp
  have h1 := Nat.div_mul_le_self (x + a - 1) a
  omega

theorem pow_dvd_max {k : Nat} (j : Nat) : 2 ^ k ∣ max (2 ^ j) (2 ^ k) ∧ 2 ^ j ∣ max (2 ^ j) (2 ^ k) := by
  rcases Nat.le_total j k with h | h
  · rw [Nat.max_eq_right (Nat.pow_le_pow_right (by omega) h)]
    exact ⟨Nat.dvd_refl _, Nat.pow_dvd_pow _ h⟩
  · rw [Nat.max_eq_left (Nat.pow_le_pow_right (by omega) h)]
    exact ⟨Nat.pow_dvd_pow _ h, Nat.dvd_refl _⟩

namespace Params
variable {p : Params}

theorem assert_iff (base : Nat) : p.assertProperAlignment base = .ok () ↔
    base % p.selfAlign = 0 ∧ p.tSize % p.tAlign = 0 ∧ (p.tSize = 0 ∨ p.tSize ≥ p.selfAlign) ∧
    base + p.nodesOff = base + 16 ∧ (base + p.nodesOff + 4 * p.numRegs) % p.tAlign = 0 ∧
    (base + p.nodesOff + 4 * p.numRegs + p.tSize + 4 * p.numRegs) % p.tAlign = 0 := by
  unfold assertProperAlignment
  constructor
  · intro h
    simp only [rassert] at h
    by_cases h1 : base % p.selfAlign = 0 <;> simp [h1] at h
    by_cases h2 : p.tSize % p.tAlign = 0 <;> simp [h2] at h
    by_cases h3 : p.tSize = 0 ∨ p.selfAlign ≤ p.tSize <;> simp [h3] at h
    by_cases h4 : p.nodesOff = 16 <;> simp [h4] at h
    by_cases h5 : (base + 16 + 4 * p.numRegs) % p.tAlign = 0 <;> simp [h5] at h
    refine ⟨h1, h2, h3, by omega, by rw [h4]; exact h5, by rw [h4]; exact h⟩
  · rintro ⟨h1, h2, h3, h4, h5, h6⟩
    simp only [rassert, h1, h2, h4]
    simp only [h4] at h5 h6
    have h3' : p.tSize = 0 ∨ p.selfAlign ≤ p.tSize := h3
    simp [h5, h6, h3']

theorem okOrAssert_bind {x y : R Unit} (hx : x = .ok () ∨ x = .error .assertion)
    (hy : y = .ok () ∨ y = .error .assertion) :
    (x >>= fun _ => y) = .ok () ∨ (x >>= fun _ => y) = .error .assertion := by
  rcases hx with hx | hx <;> rw [hx] <;> simp [hy]

theorem okOrAssert_rassert (b : Bool) : rassert b = .ok () ∨ rassert b = .error .assertion := by
  cases b <;> simp [rassert]

theorem assert_cases (base : Nat) :
    p.assertProperAlignment base = .ok () ∨ p.assertProperAlignment base = .error .assertion := by
  unfold assertProperAlignment
  iterate 5 refine okOrAssert_bind (okOrAssert_rassert _) ?_
  exact okOrAssert_rassert _

structure Facts (p : Params) (base : Nat) : Prop where
  tpos : 0 < p.tAlign
  regs : p.tAlign ∣ 4 * p.numRegs
  tsize : p.tAlign ∣ p.tSize
  base_t : p.tAlign ∣ base
  node_t : p.tAlign ∣ p.nodeAlign
  nodesOff : p.nodesOff = 16
  t16 : p.tAlign ∣ 16
  valOff : p.valOff = 4 * p.numRegs

theorem facts (hr : p.Rustic) {base : Nat} (h : p.assertProperAlignment base = .ok ()) :
    Facts p base := by
  obtain ⟨⟨k, hk⟩, hts⟩ := hr
  obtain ⟨h1, _, _, h4, h5, h6⟩ := (assert_iff base).1 h
  have hpos : 0 < p.tAlign := by rw [hk]; exact Nat.pow_pos (by omega)
  have hnode : p.tAlign ∣ p.nodeAlign := by
    unfold nodeAlign; rw [hk]; exact (pow_dvd_max (k := k) 2).1
  have hself : p.tAlign ∣ p.selfAlign := by
    unfold selfAlign nodeAlign
    rw [hk, ← Nat.max_assoc]; exact (pow_dvd_max (k := k) 3).1
  have hb : p.tAlign ∣ base := Nat.dvd_trans hself (Nat.dvd_of_mod_eq_zero h1)
  have hno : p.nodesOff = 16 := by omega
  rw [hno] at h5 h6
  have d5 := Nat.dvd_of_mod_eq_zero h5
  have d6 := Nat.dvd_of_mod_eq_zero h6
  have dreg : p.tAlign ∣ 4 * p.numRegs := by
    have := Nat.dvd_add d5 hts
    exact (Nat.dvd_add_right this).1 d6
  have d16 : p.tAlign ∣ 16 := by
    have : p.tAlign ∣ base + 16 := (Nat.dvd_add_left dreg).1 d5
    exact (Nat.dvd_add_right hb).1 this
  exact ⟨hpos, dreg, hts, hb, hnode, hno, d16, roundUp_eq hpos dreg⟩

end Params
end Sokoban.Layout
