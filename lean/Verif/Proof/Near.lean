import Verif.Proof.Alloc

/-
Which nodes a call of the allocator touches. Nothing is assumed about the state.
-/
namespace Sokoban

theorem ok_bind {α β : Type} {x : R α} {f : α → R β} {y : β} (h : x >>= f = .ok y) : ∃ a, x = .ok a ∧ f a = .ok y := by
  cases x with
  | error p => cases h
  | ok a => exact ⟨a, rfl, h⟩

namespace NodeAllocator
variable {T : Type} {M N : Nat} {Q : Nat → Prop} {S S' : List Nat} {a b c : NodeAllocator T M N}

/-- outside `S` the values and those registers that `Q` selects are the same -/
def Same (Q : Nat → Prop) (S : List Nat) (a b : NodeAllocator T M N) : Prop :=
  ∀ i, i ∉ S → (∀ q, Q q → b.reg i q = a.reg i q) ∧ b.val? i = a.val? i

theorem Same.refl : Same Q S a a := fun _ _ => ⟨fun _ _ => rfl, rfl⟩

theorem Same.mono (h : Same Q S a b) (hS : ∀ i ∈ S, i ∈ S') : Same Q S' a b := fun i hi => h i (fun hc => hi (hS i hc))

theorem Same.trans (h : Same Q S a b) (h' : Same Q S' b c) : Same Q (S ++ S') a c := by
  intro i hi
  simp only [List.mem_append, not_or] at hi
  obtain ⟨h1, h2⟩ := h i hi.1
  obtain ⟨k1, k2⟩ := h' i hi.2
  exact ⟨fun q hq => (k1 q hq).trans (h1 q hq), k2.trans h2⟩

theorem Same.setReg {i r v : Nat} : Same Q [i] a (a.setReg i r v) := by
  intro j hj
  simp only [List.mem_singleton] at hj
  refine ⟨fun q _ => ?_, by simp⟩
  rw [reg_setReg, if_neg (fun h => hj h.1.1)]

theorem Same.setReg_other {i r v : Nat} (hr : ¬ Q r) : Same Q [] a (a.setReg i r v) := by
  intro j _
  refine ⟨fun q hq => ?_, by simp⟩
  rw [reg_setReg]
  split
  · rename_i h; exact absurd (h.1.2 ▸ hq) hr
  · rfl

theorem Same.setVal {i : Nat} {v : T} : Same Q [i] a (a.setVal i v) := by
  intro j hj
  simp only [List.mem_singleton] at hj
  refine ⟨fun q _ => by simp, ?_⟩
  rw [val?_setVal, if_neg (fun h => hj h.1)]

/-- writing a node with unchanged value -/
theorem put_inv {i r v : Nat} (h : (do a.put i (← (← a.get i).setRegister r v) : R _) = .ok b) : b = a.setReg i r v := by
  by_cases hi : 1 ≤ i ∧ i ≤ M
  · by_cases hr : r < N
    · rw [putReg_ok a hi.1 hi.2 hr] at h
      cases h; rfl
    · simp only [get_ok a hi.1 hi.2, except_bind_ok, Node.setRegister, dif_neg hr] at h
      cases h
  · unfold get at h
    rw [dif_neg (by omega)] at h
    cases h

theorem setRegister_inv {i r v : Nat} (h : a.setRegister i v r = .ok b) : b = a.setReg i r v := by
  unfold setRegister at h
  split at h
  · exact put_inv h
  · rename_i hi
    simp only [ne_eq, Decidable.not_not, SENTINEL] at hi
    subst hi
    rw [setReg_zero]; cases h; rfl

theorem clearRegister_inv {i r : Nat} (h : a.clearRegister i r = .ok b) : b = a.setReg i r 0 := by
  unfold clearRegister at h
  split at h
  · exact put_inv h
  · rename_i hi
    simp only [ne_eq, Decidable.not_not, SENTINEL] at hi
    subst hi
    rw [setReg_zero]; cases h; rfl

theorem connect_inv {i j r s : Nat} (h : a.connect i j r s = .ok b) : b = (a.setReg i r j).setReg j s i := by
  unfold connect at h
  obtain ⟨a1, h1, h2⟩ := ok_bind h
  have e1 : a1 = a.setReg i r j := by
    split at h1
    · exact put_inv h1
    · rename_i hi
      simp only [ne_eq, Decidable.not_not, SENTINEL] at hi
      subst hi
      rw [setReg_zero]; cases h1; rfl
  subst e1
  split at h2
  · exact put_inv h2
  · rename_i hi
    simp only [ne_eq, Decidable.not_not, SENTINEL] at hi
    subst hi
    rw [setReg_zero]; cases h2; rfl

theorem Same.setRegister {i r v : Nat} (h : a.setRegister i v r = .ok b) : Same Q [i] a b :=
  setRegister_inv h ▸ Same.setReg
theorem Same.setRegister_other {i r v : Nat} (hr : ¬ Q r) (h : a.setRegister i v r = .ok b) : Same Q [] a b :=
  setRegister_inv h ▸ Same.setReg_other hr
theorem Same.clearRegister {i r : Nat} (h : a.clearRegister i r = .ok b) : Same Q [i] a b :=
  clearRegister_inv h ▸ Same.setReg
theorem Same.connect {i j r s : Nat} (h : a.connect i j r s = .ok b) : Same Q [i, j] a b :=
  connect_inv h ▸ Same.setReg.trans Same.setReg

theorem Same.disconnect {i j r s : Nat} (h : a.disconnect i j r s = .ok b) : Same Q [i, j] a b := by
  unfold NodeAllocator.disconnect at h
  obtain ⟨a1, h1, h2⟩ := ok_bind h
  have e1 : Same Q [i] a a1 := by
    split at h1
    · exact Same.clearRegister h1
    · cases h1; exact Same.refl
  have e2 : Same Q [j] a1 b := by
    split at h2
    · exact Same.clearRegister h2
    · cases h2; exact Same.refl
  exact e1.trans e2

theorem reg_header {s h k : Nat} (i q : Nat) : (⟨s, k, h, a.nodes⟩ : NodeAllocator T M N).reg i q = a.reg i q := rfl
theorem val?_header {s h k : Nat} (i : Nat) : (⟨s, k, h, a.nodes⟩ : NodeAllocator T M N).val? i = a.val? i := rfl

/-- changing a header -/
theorem Same.header {s h k : Nat} : Same Q S a ⟨s, k, h, a.nodes⟩ := fun _ _ => ⟨fun _ _ => rfl, rfl⟩

theorem Same.put {i : Nat} {n : Node T N} (h : a.put i n = .ok b) : Same Q [i] a b := by
  unfold NodeAllocator.put at h
  split at h
  · rename_i hi
    cases h
    intro j hj
    simp only [List.mem_singleton] at hj
    refine ⟨fun q _ => ?_, ?_⟩
    · unfold reg
      split
      · rename_i hj2
        have : i - 1 ≠ j - 1 := by omega
        simp [this]
      · rfl
    · unfold val?
      split
      · rename_i hj2
        have : i - 1 ≠ j - 1 := by omega
        simp [this]
      · rfl
  · cases h

theorem Same.setValue {i : Nat} {v : T} (h : a.setValue i v = .ok b) : Same Q [i] a b := by
  unfold NodeAllocator.setValue at h
  obtain ⟨n, _, h⟩ := ok_bind h
  exact Same.put h

theorem Same.addNode {v : T} {i : Nat} (h : a.addNode v = .ok (b, i)) : Same Q [i] a b := by
  unfold NodeAllocator.addNode at h
  dsimp only at h
  obtain ⟨a1, h1, h⟩ := ok_bind h
  obtain ⟨n, h2, h⟩ := ok_bind h
  obtain ⟨a2, h3, h⟩ := ok_bind h
  have e3 : ∀ i', i' = a.freeListHead → Same Q [i'] a a2 := by
    rintro _ rfl
    refine Same.mono (S := [a.freeListHead] ++ [a.freeListHead]) (Same.trans ?_ (Same.put h3)) (by simp)
    split at h1
    · split at h1
      · cases h1
      split at h1
      · cases h1
      cases h1; exact Same.header
    · obtain ⟨n1, g1, h1⟩ := ok_bind h1
      obtain ⟨n2, g2, h1⟩ := ok_bind h1
      obtain ⟨n3, g3, h1⟩ := ok_bind h1
      obtain ⟨n4, g4, h1⟩ := ok_bind h1
      exact Same.trans (S := []) Same.header (Same.put h1)
  split at h
  · cases h
  · simp only [except_pure, Except.ok.injEq, Prod.mk.injEq] at h
    obtain ⟨rfl, rfl⟩ := h
    exact Same.mono (S := [a.freeListHead] ++ []) ((e3 _ rfl).trans Same.header) (by simp)

theorem Same.removeNode {i : Nat} {o : Option T} (h : a.removeNode i = .ok (b, o)) : Same Q [i] a b := by
  unfold NodeAllocator.removeNode at h
  split at h
  · cases h; exact Same.refl
  obtain ⟨n, h1, h⟩ := ok_bind h
  obtain ⟨n1, h2, h⟩ := ok_bind h
  obtain ⟨a1, h3, h⟩ := ok_bind h
  dsimp only at h
  split at h
  · cases h
  obtain ⟨n2, h4, h⟩ := ok_bind h
  cases h
  exact Same.mono (S := [i] ++ []) ((Same.put h3).trans Same.header) (by simp)

theorem Same.getRegister (h : Same Q S a b) {i q : Nat} (hi : i ∉ S) (hq : Q q) : b.getRegister i q = a.getRegister i q := by
  by_cases hM : i ≤ M
  · by_cases hN : q < N
    · rw [getRegister_ok _ hM hN, getRegister_ok _ hM hN, (h i hi).1 q hq]
    · unfold NodeAllocator.getRegister
      by_cases h0 : i = 0
      · subst h0; simp [SENTINEL]
      · simp only [SENTINEL, h0, ne_eq, not_false_iff, if_true, get_ok _ (show 1 ≤ i by omega) hM, except_bind_ok,
          Node.getRegister, dif_neg hN]
  · unfold NodeAllocator.getRegister NodeAllocator.get
    simp only [dif_neg (show ¬ (1 ≤ i ∧ i - 1 < M) by omega)]

theorem Same.getValue (h : Same Q S a b) {i : Nat} (hi : i ∉ S) : b.getValue i = a.getValue i := by
  by_cases hM : 1 ≤ i ∧ i ≤ M
  · obtain ⟨x, hx⟩ := a.val?_isSome hM.1 hM.2
    rw [getValue_ok a hx, getValue_ok b ((h i hi).2.trans hx)]
  · unfold NodeAllocator.getValue NodeAllocator.get
    simp only [dif_neg (show ¬ (1 ≤ i ∧ i - 1 < M) by omega)]

end NodeAllocator
end Sokoban
