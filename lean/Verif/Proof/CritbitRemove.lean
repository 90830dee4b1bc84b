import Verif.Proof.CritbitInsert

/-
`remove` on a `Critbit`.
-/
namespace Sokoban
open NodeAllocator
variable {V : Type} {N M : Nat}

namespace Critbit
open CT Ents
variable {s s' : Critbit V N M} {t l r : CT V} {live ls : List Nat}

theorem rassert_true {b : Bool} (h : b = true) : rassert b = .ok () := by rw [h]; rfl

/-- `remove_leaf` below an inner node -/
theorem removeLeaf_spec {nf lf : List Nat} {i y j d : Nat} {k : BitVec 128} {v : V}
    (hna : AInv s.nodeAllocator nf live) (hcl : Clean s.nodeAllocator Sr live) (hlv : AInv s.leaves lf ls)
    (hy : Sh s i (.leaf y j k v)) (hyl : y ∈ live) (hil : i ∈ live) (hiy : i ≠ y) (hjl : j ∈ ls)
    (hd : (d = 0 ∧ s.nodeAllocator.reg i 0 = y) ∨
      (d = 1 ∧ s.nodeAllocator.reg i 0 ≠ y ∧ s.nodeAllocator.reg i 1 = y)) :
    ∃ s1, s.removeLeaf y = .ok (s1, v) ∧ s1.root = s.root ∧
      AInv s1.nodeAllocator (y :: nf) (live.erase y) ∧ Clean s1.nodeAllocator Sr (live.erase y) ∧
      AInv s1.leaves (j :: lf) (ls.erase j) ∧
      (∀ x q, x ≠ y → ¬ (x = i ∧ q = d) → s1.nodeAllocator.reg x q = s.nodeAllocator.reg x q) ∧
      (∀ x, s1.nodeAllocator.val? x = s.nodeAllocator.val? x) ∧ (∀ x, s1.leaves.val? x = s.leaves.val? x) := by
  obtain ⟨g1, g2, g3, g4, g5, g6⟩ := hy.leaf
  obtain ⟨e0, e1, e2, e3, e4, e5⟩ := hy
  have hy1 := hna.live_range hyl
  have hi1 := hna.live_range hil
  have hd4 : d < 4 := by omega
  have hd2 : d ≠ 2 := by omega
  have ha1 : AInv (((s.nodeAllocator.setReg y 3 0).setReg y 2 0).setReg i d 0) nf live :=
    ((hna.setReg _ _ (Or.inl hyl)).setReg _ _ (Or.inl hyl)).setReg _ _ (Or.inl hil)
  have hc1 : Clean (((s.nodeAllocator.setReg y 3 0).setReg y 2 0).setReg i d 0) Sr live :=
    ((hcl.setReg _ _ (Or.inl hyl)).setReg _ _ (Or.inl hyl)).setReg _ _ (Or.inl hil)
  obtain ⟨na', x, er, -, hai, hac, -, har, -, hav⟩ := removeNode_clean ha1 hc1 (by decide) hyl (by
    intro q hq hq0
    simp only [reg_setReg' _ (show y ≠ 0 by omega) hi1.2 hd4, reg_setReg' _ (show y ≠ 0 by omega) hy1.2 (show 2 < 4 by decide),
      reg_setReg' _ (show y ≠ 0 by omega) hy1.2 (show 3 < 4 by decide), hiy.symm, false_and, if_false, true_and]
    by_cases h3 : q = 3
    · simp [h3]
    · by_cases h1 : q = 1
      · subst h1; simp [e1]
      · have hq2 : q ≠ 2 := hq
        rw [if_neg hq2, if_neg h3]
        unfold NodeAllocator.reg
        rw [dif_neg (by omega)])
  obtain ⟨lv', x', er2, -, hli, -, hlv'⟩ := removeNode_spec hlv (by decide) hjl
  refine ⟨{ s with nodeAllocator := na', leaves := lv' }, ?_, rfl, hai, hac, hli, ?_, ?_, ?_⟩
  · have hp : (s.nodeAllocator.setReg y 3 0).reg y 2 = i := by
      rw [reg_setReg, if_neg (by simp)]; exact e2
    have hr3 : (s.nodeAllocator.setReg y 3 0).reg y 3 = 0 := by
      rw [reg_setReg, if_pos (by simp [hy1])]
    have hi0 : ∀ q, (s.nodeAllocator.setReg y 3 0).reg i q = s.nodeAllocator.reg i q := by
      intro q; rw [reg_setReg, if_neg (by simp [hiy])]
    unfold removeLeaf
    simp only [g3, g4, except_bind_ok]
    rw [s.nodeAllocator.clearRegister_ok hy1.2 (show VALUE < 4 by decide)]
    simp only [except_bind_ok]
    rw [getLeafIndex_ok hy1.2, getParent_ok hy1.2]
    simp only [VALUE, except_bind_ok, hr3, hp]
    rw [rassert_true (by simp [SENTINEL]), except_bind_ok, getLeft_ok hi1.2, getRight_ok hi1.2]
    simp only [except_bind_ok, hi0]
    have hdis : ∀ q, q < 4 → (s.nodeAllocator.setReg y 3 0).disconnect y i PARENT q =
        .ok (((s.nodeAllocator.setReg y 3 0).setReg y 2 0).setReg i q 0) :=
      fun q hq => disconnect_ok _ hy1.2 hi1.2 (by decide) hq
    rcases hd with ⟨rfl, hd⟩ | ⟨rfl, hd, hd'⟩
    · rw [if_pos hd.symm, LEFT, hdis 0 (by decide)]
      simp only [except_bind_ok, er2, er]
      rfl
    · rw [if_neg (fun hc => hd hc.symm), if_pos hd'.symm, RIGHT, hdis 1 (by decide)]
      simp only [except_bind_ok, er2, er]
      rfl
  · intro x q hx hxi
    show na'.reg x q = _
    rw [har x q hx, reg_setReg, if_neg (fun hc => hxi hc.1), reg_setReg, if_neg (by simp [hx]), reg_setReg, if_neg (by simp [hx])]
  · intro x
    show na'.val? x = _
    rw [hav]; simp
  · intro x; exact hlv' x

/-- `remove_leaf` of the only node -/
theorem removeLeaf_root {nf lf : List Nat} {y j : Nat} {k : BitVec 128} {v : V}
    (hna : AInv s.nodeAllocator nf live) (hcl : Clean s.nodeAllocator Sr live) (hlv : AInv s.leaves lf ls)
    (hy : Sh s 0 (.leaf y j k v)) (hyl : y ∈ live) (hjl : j ∈ ls) :
    ∃ s1, s.removeLeaf y = .ok (s1, v) ∧ s1.root = s.root ∧
      AInv s1.nodeAllocator (y :: nf) (live.erase y) ∧ Clean s1.nodeAllocator Sr (live.erase y) ∧
      AInv s1.leaves (j :: lf) (ls.erase j) ∧ s1.nodeAllocator.reg y 2 = 0 ∧
      ∀ x, s1.nodeAllocator.val? x = s.nodeAllocator.val? x := by
  obtain ⟨g1, g2, g3, g4, g5, g6⟩ := hy.leaf
  obtain ⟨e0, e1, e2, e3, e4, e5⟩ := hy
  have hy1 := hna.live_range hyl
  have ha1 : AInv (s.nodeAllocator.setReg y 3 0) nf live := hna.setReg _ _ (Or.inl hyl)
  have hc1 : Clean (s.nodeAllocator.setReg y 3 0) Sr live := hcl.setReg _ _ (Or.inl hyl)
  obtain ⟨na', x, er, -, hai, hac, -, har, har0, hav⟩ := removeNode_clean ha1 hc1 (by decide) hyl (by
    intro q hq hq0
    simp only [reg_setReg' _ (show y ≠ 0 by omega) hy1.2 (show 3 < 4 by decide), true_and]
    by_cases h3 : q = 3
    · simp [h3]
    · by_cases h1 : q = 1
      · subst h1; simp [e1]
      · have hq2 : q ≠ 2 := hq
        rw [if_neg h3]
        unfold NodeAllocator.reg
        rw [dif_neg (by omega)])
  obtain ⟨lv', x', er2, -, hli, -, hlv'⟩ := removeNode_spec hlv (by decide) hjl
  refine ⟨{ s with nodeAllocator := na', leaves := lv' }, ?_, rfl, hai, hac, hli, ?_, fun x => ?_⟩
  · have hp : (s.nodeAllocator.setReg y 3 0).reg y 2 = 0 := by
      rw [reg_setReg, if_neg (by simp)]; exact e2
    have hr3 : (s.nodeAllocator.setReg y 3 0).reg y 3 = 0 := by
      rw [reg_setReg, if_pos (by simp [hy1])]
    unfold removeLeaf
    simp only [g3, g4, except_bind_ok]
    rw [s.nodeAllocator.clearRegister_ok hy1.2 (show VALUE < 4 by decide)]
    simp only [except_bind_ok]
    rw [getLeafIndex_ok hy1.2, getParent_ok hy1.2]
    simp only [VALUE, except_bind_ok, hr3, hp]
    rw [rassert_true (by simp [SENTINEL]), except_bind_ok, getLeft_ok (Nat.zero_le _), getRight_ok (Nat.zero_le _)]
    simp only [except_bind_ok, reg_zero]
    rw [if_neg (by omega), if_neg (by omega), if_neg (by simp [SENTINEL])]
    simp only [except_pure, except_bind_ok, er2, er]
  · show na'.reg y 2 = 0
    rw [har0 y 2 (by simp), reg_setReg, if_neg (by simp)]; exact e2
  · show na'.val? x = _
    rw [hav]; simp

/-- `migrate` of the subtree `t` into the node `i` above it -/
theorem migrate_spec {nf : List Nat} {i par : Nat} (h : Sh s par t) (hnd : t.ids.Nodup) (hi : i ∈ live) (hit : i ∉ t.ids)
    (hsub : ∀ x ∈ t.ids, x ∈ live) (hi3 : s.nodeAllocator.reg i 3 = 0)
    (hna : AInv s.nodeAllocator nf live) (hcl : Clean s.nodeAllocator Sr live) :
    ∃ s', s.migrate t.root i = .ok s' ∧ s'.root = s.root ∧ s'.leaves = s.leaves ∧
      AInv s'.nodeAllocator (t.root :: nf) (live.erase t.root) ∧ Clean s'.nodeAllocator Sr (live.erase t.root) ∧
      Sh s' (s.nodeAllocator.reg i 2) (t.reroot i) ∧
      (∀ x, x ≠ i → x ∉ t.ids → ∀ q, s'.nodeAllocator.reg x q = s.nodeAllocator.reg x q) ∧
      (∀ x, x ≠ i → x ∉ t.ids → s'.nodeAllocator.val? x = s.nodeAllocator.val? x) := by
  have hz := h.range t.root_mem
  have hi1 := hna.live_range hi
  have hiz : i ≠ t.root := fun hc => hit (hc ▸ t.root_mem)
  have hzl := hsub _ t.root_mem
  obtain ⟨n, hn⟩ := s.nodeAllocator.val?_isSome hz.1 hz.2
  have hch : ∀ x, (x = s.nodeAllocator.reg t.root 0 ∨ x = s.nodeAllocator.reg t.root 1) →
      x = 0 ∨ (x ∈ t.ids ∧ x ≠ t.root) := by
    intro x hx
    cases t with
    | leaf => simp only [root_leaf, h.1, h.2.1, or_self] at hx; exact Or.inl hx
    | inner i p k l r =>
      simp only [root_inner, h.1, h.2.1] at hx
      simp only [ids_inner, List.nodup_cons, List.mem_append, not_or] at hnd
      right
      rcases hx with rfl | rfl
      · exact ⟨by simp [root_mem], fun hc => hnd.1.1 (by rw [← show l.root = i from hc]; exact root_mem _)⟩
      · exact ⟨by simp [root_mem], fun hc => hnd.1.2 (by rw [← show r.root = i from hc]; exact root_mem _)⟩
  -- the value register
  obtain ⟨na2, em, hai2, hac2, ri3, rz3, rr2, vv2⟩ : ∃ na2,
      ({ s with nodeAllocator := s.nodeAllocator.setVal i n } : Critbit V N M).migrateLeaf t.root i =
        .ok { s with nodeAllocator := na2 } ∧
      AInv na2 nf live ∧ Clean na2 Sr live ∧ na2.reg i 3 = s.nodeAllocator.reg t.root 3 ∧ na2.reg t.root 3 = 0 ∧
      (∀ x q, ¬ (q = 3 ∧ (x = i ∨ x = t.root)) → na2.reg x q = s.nodeAllocator.reg x q) ∧
      (∀ x, na2.val? x = if x = i then some n else s.nodeAllocator.val? x) := by
    cases t with
    | leaf y j k v =>
      obtain ⟨e0, e1, e2, e3, e4, e5⟩ := h
      have hj := s.leaves.val?_range e5
      simp only [root_leaf] at *
      refine ⟨((s.nodeAllocator.setVal i n).setReg y 3 0).setReg i 3 j, ?_, ?_, ?_, ?_, ?_, ?_, ?_⟩
      · unfold migrateLeaf
        rw [isInnerNode_ok hz.2, except_bind_ok]
        simp only [reg_setVal, e3]
        rw [if_pos (by simp; omega), getLeft_ok hz.2, getRight_ok hz.2, getLeafIndex_ok hz.2]
        simp only [except_bind_ok, reg_setVal, e0, e1, e3]
        rw [rassert_true (by simp [SENTINEL]), except_bind_ok, except_bind_ok, VALUE, clearRegister_ok _ hz.2 (by decide), except_bind_ok,
          setRegister_ok _ hi1.2 (by decide)]
        rfl
      · exact ((hna.setVal _ _).setReg _ _ (Or.inl hzl)).setReg _ _ (Or.inl hi)
      · exact ((hcl.setVal _ _).setReg _ _ (Or.inl hzl)).setReg _ _ (Or.inl hi)
      · simp [reg_setReg, hi1, e3]
      · simp [reg_setReg, hiz.symm, hz]
      · intro x q hx
        rw [reg_setReg, if_neg, reg_setReg, if_neg, reg_setVal]
        · rintro ⟨⟨h, h'⟩, _⟩; exact hx ⟨h', Or.inr h⟩
        · rintro ⟨⟨h, h'⟩, _⟩; exact hx ⟨h', Or.inl h⟩
      · intro x
        simp only [val?_setReg, val?_setVal]
        by_cases hk : x = i
        · subst hk; simp [hi1]
        · simp [hk]
    | inner z p k l r =>
      obtain ⟨e0, e1, e2, e3, e4, e5⟩ := h
      simp only [root_inner] at *
      refine ⟨s.nodeAllocator.setVal i n, ?_, hna.setVal _ _, hcl.setVal _ _, ?_, ?_, ?_, ?_⟩
      · unfold migrateLeaf
        rw [isInnerNode_ok hz.2, except_bind_ok]
        simp only [reg_setVal, e3]
        rfl
      · rw [reg_setVal, hi3, e3]
      · rw [reg_setVal, e3]
      · intro x q _; rw [reg_setVal]
      · intro x
        simp only [val?_setVal]
        by_cases hk : x = i
        · subst hk; simp [hi1]
        · simp [hk]
  have hz0 : na2.reg t.root 0 = s.nodeAllocator.reg t.root 0 := rr2 _ 0 (by simp)
  have hz1 : na2.reg t.root 1 = s.nodeAllocator.reg t.root 1 := rr2 _ 1 (by simp)
  generalize hl0 : s.nodeAllocator.reg t.root 0 = l0 at *
  generalize hr0 : s.nodeAllocator.reg t.root 1 = r0 at *
  have hcl0 := hch l0 (Or.inl rfl)
  have hcr0 := hch r0 (Or.inr rfl)
  have hlN : ∀ x, x = 0 ∨ (x ∈ t.ids ∧ x ≠ t.root) → x ≤ N := by
    rintro x (rfl | hx)
    · omega
    · exact (h.range hx.1).2
  have hlive : ∀ x, x = 0 ∨ (x ∈ t.ids ∧ x ≠ t.root) → x ∈ live ∨ x = 0 := by
    rintro x (hx | hx)
    · exact Or.inr hx
    · exact Or.inl (hsub x hx.1)
  have hlz : ∀ x, x = 0 ∨ (x ∈ t.ids ∧ x ≠ t.root) → x ≠ t.root := by
    rintro x (rfl | hx)
    · omega
    · exact hx.2
  have hli : ∀ x, x = 0 ∨ (x ∈ t.ids ∧ x ≠ t.root) → x ≠ i := by
    rintro x (rfl | hx)
    · omega
    · exact fun hc => hit (hc ▸ hx.1)
  have hai3 : AInv ((((((na2.setReg i 0 l0).setReg l0 2 i).setReg i 1 r0).setReg r0 2 i).setReg t.root 0 0).setReg t.root 1 0) nf live :=
    (((((hai2.setReg _ _ (Or.inl hi)).setReg _ _ (hlive _ hcl0)).setReg _ _ (Or.inl hi)).setReg _ _ (hlive _ hcr0)).setReg _ _ (Or.inl hzl)).setReg _ _ (Or.inl hzl)
  have hac3 : Clean ((((((na2.setReg i 0 l0).setReg l0 2 i).setReg i 1 r0).setReg r0 2 i).setReg t.root 0 0).setReg t.root 1 0) Sr live :=
    (((((hac2.setReg _ _ (Or.inl hi)).setReg _ _ (hlive _ hcl0)).setReg _ _ (Or.inl hi)).setReg _ _ (hlive _ hcr0)).setReg _ _ (Or.inl hzl)).setReg _ _ (Or.inl hzl)
  -- registers after all the writes
  have hregs : ∀ x q, x ≠ 0 → ((((((na2.setReg i 0 l0).setReg l0 2 i).setReg i 1 r0).setReg r0 2 i).setReg t.root 0 0).setReg t.root 1 0).reg x q =
      if x = t.root ∧ q = 1 then 0 else if x = t.root ∧ q = 0 then 0 else if x = r0 ∧ q = 2 then i
      else if x = i ∧ q = 1 then r0 else if x = l0 ∧ q = 2 then i else if x = i ∧ q = 0 then l0 else na2.reg x q := by
    intro x q hx
    rw [reg_setReg' _ hx hz.2 (by decide), reg_setReg' _ hx hz.2 (by decide), reg_setReg' _ hx (hlN _ hcr0) (by decide),
      reg_setReg' _ hx hi1.2 (by decide), reg_setReg' _ hx (hlN _ hcl0) (by decide), reg_setReg' _ hx hi1.2 (by decide)]
  obtain ⟨na', x, er, -, hai', hac', -, har, har0, hav⟩ := removeNode_clean hai3 hac3 (by decide) hzl (by
    intro q hq hq0
    have hq2 : q ≠ 2 := hq
    rw [hregs _ q (by omega)]
    by_cases h1 : q = 1
    · simp [h1]
    · by_cases h3 : q = 3
      · subst h3
        simp [rz3]
      · rw [if_neg (by simp [h1]), if_neg (by simp [hq0]), if_neg (by simp [hq2]), if_neg (by simp [h1]),
          if_neg (by simp [hq2]), if_neg (by simp [hq0])]
        unfold NodeAllocator.reg
        rw [dif_neg (by omega)])
  refine ⟨{ s with nodeAllocator := na' }, ?_, rfl, rfl, hai', hac', ?_, ?_, ?_⟩
  · unfold migrate
    rw [show s.getNode t.root = .ok n from s.nodeAllocator.getValue_ok hn, except_bind_ok,
      s.nodeAllocator.setValue_ok n hi1.1 hi1.2, except_bind_ok]
    simp only [em, except_bind_ok]
    rw [getLeafIndex_ok hz.2, except_bind_ok]
    simp only [rz3]
    rw [rassert_true (by simp [SENTINEL]), except_bind_ok, getLeft_ok hz.2, except_bind_ok]
    simp only [hz0, LEFT, RIGHT, PARENT]
    rw [connect_ok _ hi1.2 (hlN _ hcl0) (by decide) (by decide), except_bind_ok]
    rw [getRight_ok hz.2, except_bind_ok]
    simp only []
    have h1 : ((na2.setReg i 0 l0).setReg l0 2 i).reg t.root 1 = r0 := by
      rw [reg_setReg, if_neg (by simp), reg_setReg, if_neg (by simp), hz1]
    rw [h1, connect_ok _ hi1.2 (hlN _ hcr0) (by decide) (by decide), except_bind_ok,
      clearRegister_ok _ hz.2 (by decide), except_bind_ok, clearRegister_ok _ hz.2 (by decide), except_bind_ok, er]
    rfl
  · have hii : ∀ q, na'.reg i q = if q = 1 then r0 else if q = 0 then l0 else na2.reg i q := by
      intro q
      rw [har i q hiz, hregs i q (by omega)]
      have h1 := hli _ hcl0
      have h2 := hli _ hcr0
      simp [hiz, h1.symm, h2.symm]
    refine h.reroot hnd ?_ ?_ ?_ ?_ ?_ ?_ ?_ ?_ ?_
    · rw [hl0]; simp [hii]
    · rw [hr0]; simp [hii]
    · simp [hii]; exact rr2 i 2 (by simp)
    · simp [hii, ri3]
    · show na'.val? i = _
      rw [hav, hn]; simp [vv2]
    · intro x hx hxz q hq
      have hxi : x ≠ i := fun hc => hit (hc ▸ hx)
      have hx0 : x ≠ 0 := by have := h.range hx; omega
      rw [hl0, hr0] at hq
      show na'.reg x q = _
      rw [har x q hxz, hregs x q hx0, if_neg (by simp [hxz]), if_neg (by simp [hxz]), if_neg (fun hc => hq ⟨hc.2, Or.inr hc.1⟩),
        if_neg (by simp [hxi]), if_neg (fun hc => hq ⟨hc.2, Or.inl hc.1⟩), if_neg (by simp [hxi])]
      exact rr2 x q (by simp [hxi, hxz])
    · intro x hx hxz hq
      have hxi : x ≠ i := fun hc => hit (hc ▸ hx)
      have hx0 : x ≠ 0 := by have := h.range hx; omega
      rw [hl0, hr0] at hq
      show na'.reg x 2 = _
      rw [har x 2 hxz, hregs x 2 hx0, if_neg (by simp [hxz]), if_neg (by simp [hxz])]
      rcases hq with hq | hq
      · simp [hq]
      · simp [hq]
    · intro x hx hxz
      have hxi : x ≠ i := fun hc => hit (hc ▸ hx)
      show na'.val? x = _
      rw [hav]; simp [vv2, hxi]
    · intro x _; rfl
  · intro x hxi hx q
    show na'.reg x q = _
    by_cases hx0 : x = 0
    · subst hx0; simp
    have hxz : x ≠ t.root := fun hc => hx (hc ▸ t.root_mem)
    have hxc : ∀ y, y = 0 ∨ (y ∈ t.ids ∧ y ≠ t.root) → x ≠ y := by
      rintro y (rfl | hy) hc
      · exact hx0 hc
      · exact hx (hc ▸ hy.1)
    have h1 := hxc _ hcl0
    have h2 := hxc _ hcr0
    rw [har x q hxz, hregs x q hx0]
    simp only [hxz, hxi, h1, h2, false_and, if_false]
    exact rr2 x q (by simp [hxi, hxz])
  · intro x hxi _
    show na'.val? x = _
    rw [hav]; simp [vv2, hxi]

/-- `t'` is `t` with one leaf cut off, its sibling taking the place of their parent -/
inductive Pruned (key : BitVec 128) : CT V → CT V → Prop where
  | left {i p y j : Nat} {k : BitVec 128} {v : V} {r : CT V} : Pruned key (.inner i p k (.leaf y j key v) r) (r.reroot i)
  | right {i p y j : Nat} {k : BitVec 128} {v : V} {l : CT V} : Pruned key (.inner i p k l (.leaf y j key v)) (l.reroot i)
  | inl {i p : Nat} {k : BitVec 128} {l l' r : CT V} : Pruned key l l' → Pruned key (.inner i p k l r) (.inner i p k l' r)
  | inr {i p : Nat} {k : BitVec 128} {l r r' : CT V} : Pruned key r r' → Pruned key (.inner i p k l r) (.inner i p k l r')

/-- what a removal in the subtree `t` does -/
structure Shrunk (s s' : Critbit V N M) (live ls : List Nat) (par : Nat) (t t' : CT V) (key : BitVec 128) (v : V)
    (y z j : Nat) : Prop where
  root : s'.root = s.root
  gi : GI s' ((live.erase y).erase z) (ls.erase j)
  sh : Sh s' par t'
  rad : Rad t'
  troot : t'.root = t.root
  ids : t.ids.Perm (y :: z :: t'.ids)
  ents : ∃ L1 L2, t.ents = L1 ++ (j, key, v) :: L2 ∧ t'.ents = L1 ++ L2
  reg : ∀ x, x ∉ t.ids → ∀ q, s'.nodeAllocator.reg x q = s.nodeAllocator.reg x q
  val : ∀ x, x ∉ t.ids → s'.nodeAllocator.val? x = s.nodeAllocator.val? x
  lv : ∀ x, s'.leaves.val? x = s.leaves.val? x
  bump : s'.nodeAllocator.bumpIndex = s.nodeAllocator.bumpIndex
  lfree : ∀ lf, AInv s.leaves lf ls → AInv s'.leaves (j :: lf) (ls.erase j)
  shape : Pruned key t t'

theorem removeAt_left {par i p y j : Nat} {k key : BitVec 128} {v : V}
    (h : Sh s par (.inner i p k (.leaf y j key v) r)) (hr : Rad (.inner i p k (.leaf y j key v) r))
    (hnd : (CT.inner i p k (.leaf y j key v) r).ids.Nodup)
    (hsub : ∀ x ∈ (CT.inner i p k (.leaf y j key v) r).ids, x ∈ live) (hj : j ∈ ls) (hg : GI s live ls) :
    ∃ s', s.removeAt i y false = .ok (s', v) ∧
      Shrunk s s' live ls par (.inner i p k (.leaf y j key v) r) (r.reroot i) key v y r.root j := by
  obtain ⟨nf, lf, hna, hcl, hlv⟩ := hg
  obtain ⟨r1, r2, r3, r4, r5⟩ := hr
  obtain ⟨g1, g2, g3, g4, g5, g6⟩ := h.inner r1
  obtain ⟨e0, e1, e2, e3, e4, e5, e6⟩ := h
  simp only [ids_inner, ids_leaf, List.cons_append, List.nil_append, List.nodup_cons, List.mem_cons, not_or] at hnd hsub
  obtain ⟨⟨hiy, hir⟩, hyr, hnr⟩ := hnd
  have hyl := hsub y (by simp)
  have hil := hsub i (by simp)
  obtain ⟨s1, er, k0, k1, k2, k3, rr, vv, ll⟩ := removeLeaf_spec hna hcl hlv e5 hyl hil hiy hj (Or.inl ⟨rfl, e0⟩)
  have hri : ∀ q, q ≠ 0 → s1.nodeAllocator.reg i q = s.nodeAllocator.reg i q :=
    fun q hq => rr i q hiy (by simp [hq])
  have hrx : ∀ x, x ∈ r.ids → x ≠ y ∧ x ≠ i := fun x hx => ⟨fun hc => hyr (hc ▸ hx), fun hc => hir (hc ▸ hx)⟩
  have hs1 : Sh s1 i r := e6.same hnr (fun x hx q => rr x q (hrx x hx).1 (by simp [(hrx x hx).2]))
    (fun x _ => vv x) (fun x _ => ll x)
  obtain ⟨s', em, m0, m1, m2, m3, m4, m5, m6⟩ := migrate_spec (i := i) (live := live.erase y) hs1 hnr
    ((List.mem_erase_of_ne hiy).2 hil) hir
    (fun x hx => (List.mem_erase_of_ne (hrx x hx).1).2 (hsub x (by simp [hx])))
    (by rw [hri 3 (by simp)]; exact e3) k1 k2
  refine ⟨s', ?_, ⟨by rw [m0, k0], ⟨_, _, m2, m3, by rw [m1]; exact k3⟩, ?_, r5.reroot, by simp, ?_, ⟨[], r.ents, by simp, by simp⟩,
    ?_, ?_, fun x => by rw [m1]; exact ll x, by
      have q1 := hna.length_eq
      have q2 := m2.length_eq
      have q3 := hna.bump_pos
      have q4 := m2.bump_pos
      rw [List.length_erase_of_mem ((List.mem_erase_of_ne (hrx _ r.root_mem).1).2 (hsub _ (by simp [r.root_mem]))), List.length_erase_of_mem hyl] at q2
      have q5 := List.length_pos_of_mem hyl
      have q6 := List.length_pos_of_mem ((List.mem_erase_of_ne (hrx _ r.root_mem).1).2 (hsub _ (by simp [r.root_mem])))
      rw [List.length_erase_of_mem hyl] at q6
      simp only [List.length_cons] at q2
      omega, fun lf' h' => by rw [h'.free_unique hlv, m1]; exact k3, .left⟩⟩
  · unfold removeAt
    simp only [Bool.false_eq_true, if_false, g4, except_bind_ok, er, em]
    rfl
  · rw [hri 2 (by simp)] at m4
    rw [← show s.nodeAllocator.reg i 2 = par from e2]; exact m4
  · simp only [ids_inner, ids_leaf, ids_reroot]
    rw [r.ids_cons, List.perm_iff_count]
    intro x
    simp only [List.count_cons, List.count_append, List.count_nil, List.tail_cons]
    omega
  · intro x hx q
    simp only [ids_inner, ids_leaf, List.mem_cons, List.mem_append, not_or, List.not_mem_nil, not_false_eq_true, and_true] at hx
    rw [m5 x hx.1 hx.2.2 q, rr x q hx.2.1 (by simp [hx.1])]
  · intro x hx
    simp only [ids_inner, ids_leaf, List.mem_cons, List.mem_append, not_or, List.not_mem_nil, not_false_eq_true, and_true] at hx
    rw [m6 x hx.1 hx.2.2, vv]

theorem removeAt_right {par i p y j : Nat} {k key : BitVec 128} {v : V}
    (h : Sh s par (.inner i p k l (.leaf y j key v))) (hr : Rad (.inner i p k l (.leaf y j key v)))
    (hnd : (CT.inner i p k l (.leaf y j key v)).ids.Nodup)
    (hsub : ∀ x ∈ (CT.inner i p k l (.leaf y j key v)).ids, x ∈ live) (hj : j ∈ ls) (hg : GI s live ls) :
    ∃ s', s.removeAt i y true = .ok (s', v) ∧
      Shrunk s s' live ls par (.inner i p k l (.leaf y j key v)) (l.reroot i) key v y l.root j := by
  obtain ⟨nf, lf, hna, hcl, hlv⟩ := hg
  obtain ⟨r1, r2, r3, r4, r5⟩ := hr
  obtain ⟨g1, g2, g3, g4, g5, g6⟩ := h.inner r1
  obtain ⟨e0, e1, e2, e3, e4, e5, e6⟩ := h
  simp only [ids_inner, ids_leaf, List.nodup_cons, List.mem_append, List.mem_cons, List.not_mem_nil, or_false, not_or] at hnd hsub
  obtain ⟨⟨hil', hiy⟩, hnd⟩ := hnd
  obtain ⟨hnl, -, hly⟩ := List.nodup_append.1 hnd
  have hyl' : y ∉ l.ids := fun hc => hly y hc y (by simp) rfl
  have hyl := hsub y (by simp)
  have hil := hsub i (by simp)
  obtain ⟨s1, er, k0, k1, k2, k3, rr, vv, ll⟩ := removeLeaf_spec hna hcl hlv e6 hyl hil hiy hj
    (Or.inr ⟨rfl, by rw [e0]; exact fun hc => hyl' (hc ▸ l.root_mem), e1⟩)
  have hri : ∀ q, q ≠ 1 → s1.nodeAllocator.reg i q = s.nodeAllocator.reg i q :=
    fun q hq => rr i q hiy (by simp [hq])
  have hlx : ∀ x, x ∈ l.ids → x ≠ y ∧ x ≠ i := fun x hx => ⟨fun hc => hyl' (hc ▸ hx), fun hc => hil' (hc ▸ hx)⟩
  have hs1 : Sh s1 i l := e5.same hnl (fun x hx q => rr x q (hlx x hx).1 (by simp [(hlx x hx).2]))
    (fun x _ => vv x) (fun x _ => ll x)
  obtain ⟨s', em, m0, m1, m2, m3, m4, m5, m6⟩ := migrate_spec (i := i) (live := live.erase y) hs1 hnl
    ((List.mem_erase_of_ne hiy).2 hil) hil'
    (fun x hx => (List.mem_erase_of_ne (hlx x hx).1).2 (hsub x (by simp [hx])))
    (by rw [hri 3 (by simp)]; exact e3) k1 k2
  refine ⟨s', ?_, ⟨by rw [m0, k0], ⟨_, _, m2, m3, by rw [m1]; exact k3⟩, ?_, r4.reroot, by simp, ?_, ⟨l.ents, [], by simp, by simp⟩,
    ?_, ?_, fun x => by rw [m1]; exact ll x, by
      have q1 := hna.length_eq
      have q2 := m2.length_eq
      have q3 := hna.bump_pos
      have q4 := m2.bump_pos
      rw [List.length_erase_of_mem ((List.mem_erase_of_ne (hlx _ l.root_mem).1).2 (hsub _ (by simp [l.root_mem]))), List.length_erase_of_mem hyl] at q2
      have q5 := List.length_pos_of_mem hyl
      have q6 := List.length_pos_of_mem ((List.mem_erase_of_ne (hlx _ l.root_mem).1).2 (hsub _ (by simp [l.root_mem])))
      rw [List.length_erase_of_mem hyl] at q6
      simp only [List.length_cons] at q2
      omega, fun lf' h' => by rw [h'.free_unique hlv, m1]; exact k3, .right⟩⟩
  · unfold removeAt
    simp only [if_true, g3, except_bind_ok, er, em]
    rfl
  · rw [hri 2 (by simp)] at m4
    rw [← show s.nodeAllocator.reg i 2 = par from e2]; exact m4
  · simp only [ids_inner, ids_leaf, ids_reroot]
    rw [l.ids_cons, List.perm_iff_count]
    intro x
    simp only [List.count_cons, List.count_append, List.count_nil, List.tail_cons]
    omega
  · intro x hx q
    simp only [ids_inner, ids_leaf, List.mem_cons, List.mem_append, not_or, List.not_mem_nil, not_false_eq_true, and_true] at hx
    rw [m5 x hx.1 hx.2.1 q, rr x q hx.2.2 (by simp [hx.1])]
  · intro x hx
    simp only [ids_inner, ids_leaf, List.mem_cons, List.mem_append, not_or, List.not_mem_nil, not_false_eq_true, and_true] at hx
    rw [m6 x hx.1 hx.2.1, vv]

theorem Shrunk.left {par i p : Nat} {k key : BitVec 128} {v : V} {l' : CT V} {y z j : Nat}
    (h : Sh s par (.inner i p k l r)) (hr : Rad (.inner i p k l r)) (hnd : (CT.inner i p k l r).ids.Nodup)
    (g : Shrunk s s' live ls i l l' key v y z j) :
    Shrunk s s' live ls par (.inner i p k l r) (.inner i p k l' r) key v y z j := by
  obtain ⟨e0, e1, e2, e3, e4, e5, e6⟩ := h
  obtain ⟨r1, r2, r3, r4, r5⟩ := hr
  simp only [ids_inner, List.nodup_cons, List.mem_append, not_or] at hnd
  obtain ⟨⟨hil, hir⟩, hn⟩ := hnd
  obtain ⟨hnl, hnr, hlr⟩ := List.nodup_append.1 hn
  have hreg := g.reg i hil
  have hrx : ∀ x ∈ r.ids, x ∉ l.ids := fun x hx hc => hlr x hc x hx rfl
  obtain ⟨L1, L2, hE, hE'⟩ := g.ents
  refine ⟨g.root, g.gi, ⟨?_, ?_, ?_, ?_, ?_, g.sh, ?_⟩, ⟨r1, ?_, r3, g.rad, r5⟩, rfl, ?_,
    ⟨L1, L2 ++ r.ents, by simp [hE], by simp [hE']⟩, ?_, ?_, g.lv, g.bump, g.lfree, .inl g.shape⟩
  · rw [hreg, e0, g.troot]
  · rw [hreg, e1]
  · rw [hreg, e2]
  · rw [hreg, e3]
  · rw [g.val i hil, e4]
  · exact e6.same hnr (fun x hx q => g.reg x (hrx x hx) q) (fun x hx => g.val x (hrx x hx)) (fun x _ => g.lv x)
  · intro e he
    refine r2 e ?_
    rw [hE'] at he; rw [hE]
    simp only [List.mem_append, List.mem_cons] at he ⊢
    exact he.imp_right Or.inr
  · simp only [ids_inner]
    refine ((g.ids.append_right r.ids).cons i).trans ?_
    rw [List.perm_iff_count]
    intro x
    simp only [List.cons_append, List.count_cons, List.count_append]; omega
  · intro x hxt
    simp only [ids_inner, List.mem_cons, List.mem_append, not_or] at hxt
    exact g.reg x hxt.2.1
  · intro x hxt
    simp only [ids_inner, List.mem_cons, List.mem_append, not_or] at hxt
    exact g.val x hxt.2.1

theorem Shrunk.right {par i p : Nat} {k key : BitVec 128} {v : V} {r' : CT V} {y z j : Nat}
    (h : Sh s par (.inner i p k l r)) (hr : Rad (.inner i p k l r)) (hnd : (CT.inner i p k l r).ids.Nodup)
    (g : Shrunk s s' live ls i r r' key v y z j) :
    Shrunk s s' live ls par (.inner i p k l r) (.inner i p k l r') key v y z j := by
  obtain ⟨e0, e1, e2, e3, e4, e5, e6⟩ := h
  obtain ⟨r1, r2, r3, r4, r5⟩ := hr
  simp only [ids_inner, List.nodup_cons, List.mem_append, not_or] at hnd
  obtain ⟨⟨hil, hir⟩, hn⟩ := hnd
  obtain ⟨hnl, hnr, hlr⟩ := List.nodup_append.1 hn
  have hreg := g.reg i hir
  have hlx : ∀ x ∈ l.ids, x ∉ r.ids := fun x hx hc => hlr x hx x hc rfl
  obtain ⟨L1, L2, hE, hE'⟩ := g.ents
  refine ⟨g.root, g.gi, ⟨?_, ?_, ?_, ?_, ?_, ?_, g.sh⟩, ⟨r1, r2, ?_, r4, g.rad⟩, rfl, ?_,
    ⟨l.ents ++ L1, L2, by simp [hE], by simp [hE']⟩, ?_, ?_, g.lv, g.bump, g.lfree, .inr g.shape⟩
  · rw [hreg, e0]
  · rw [hreg, e1, g.troot]
  · rw [hreg, e2]
  · rw [hreg, e3]
  · rw [g.val i hir, e4]
  · exact e5.same hnl (fun x hx q => g.reg x (hlx x hx) q) (fun x hx => g.val x (hlx x hx)) (fun x _ => g.lv x)
  · intro e he
    refine r3 e ?_
    rw [hE'] at he; rw [hE]
    simp only [List.mem_append, List.mem_cons] at he ⊢
    exact he.imp_right Or.inr
  · simp only [ids_inner]
    refine ((g.ids.append_left l.ids).cons i).trans ?_
    rw [List.perm_iff_count]
    intro x
    simp only [List.count_cons, List.count_append]; omega
  · intro x hxt
    simp only [ids_inner, List.mem_cons, List.mem_append, not_or] at hxt
    exact g.reg x hxt.2.2
  · intro x hxt
    simp only [ids_inner, List.mem_cons, List.mem_append, not_or] at hxt
    exact g.val x hxt.2.2

/-- the key is found and removed in the subtree `t` -/
def Cut (s : Critbit V N M) (live ls : List Nat) (key : BitVec 128) (par : Nat) (t : CT V)
    (o : Option (Nat × Nat × Bool)) : Prop :=
  ∃ pa ch b' s' v t' y z j, o = some (pa, ch, b') ∧ s.removeAt pa ch b' = .ok (s', v) ∧
    Shrunk s s' live ls par t t' key v y z j

/-- the three ways in which the loop of `remove` ends in the subtree `c` -/
def RemOut (s : Critbit V N M) (live ls : List Nat) (key : BitVec 128) (fuel par : Nat) (b : Bool) (c : CT V) : Prop :=
  ∃ o, s.removeLoop key fuel par c.root b = .ok o ∧
    ((Absent c.ents key ∧ o = none) ∨ (∃ y j v, c = .leaf y j key v ∧ o = some (par, y, b)) ∨ Cut s live ls key par c o)

theorem remove_inner {par i p fuel : Nat} {k key : BitVec 128} (h : Sh s par (.inner i p k l r))
    (hr : Rad (.inner i p k l r)) (hnd : (CT.inner i p k l r).ids.Nodup)
    (hsub : ∀ x ∈ (CT.inner i p k l r).ids, x ∈ live) (hsl : ∀ x ∈ (CT.inner i p k l r).ents.map Prod.fst, x ∈ ls)
    (hg : GI s live ls) (hR : RemOut s live ls key fuel i true r) (hL : RemOut s live ls key fuel i false l) :
    ∃ o, s.removeLoop key fuel i (if key.getMsbD p then (r.root, true) else (l.root, false)).1
        (if key.getMsbD p then (r.root, true) else (l.root, false)).2 = .ok o ∧
      ((Absent (CT.inner i p k l r).ents key ∧ o = none) ∨ Cut s live ls key par (.inner i p k l r) o) := by
  obtain ⟨r1, r2, r3, r4, r5⟩ := hr
  by_cases hb : key.getMsbD p = true
  · rw [if_pos hb]
    obtain ⟨o, e, ho⟩ := hR
    refine ⟨o, e, ?_⟩
    rcases ho with ⟨ha, ho⟩ | ⟨y, j, v, rfl, rfl⟩ | ⟨pa, ch, b', s', v, t', y, z, j, ho, ea, g⟩
    · left
      refine ⟨?_, ho⟩
      intro x hx
      rcases List.mem_append.1 hx with hx | hx
      · intro hc
        have := (r2 x hx).2
        rw [hc, hb] at this; cases this
      · exact ha x hx
    · right
      obtain ⟨s', ea, g⟩ := removeAt_right h ⟨r1, r2, r3, r4, r5⟩ hnd hsub (hsl j (by simp)) hg
      exact ⟨i, y, true, s', v, _, y, l.root, j, rfl, ea, g⟩
    · right
      exact ⟨pa, ch, b', s', v, _, y, z, j, ho, ea, g.right h ⟨r1, r2, r3, r4, r5⟩ hnd⟩
  · rw [if_neg hb]
    obtain ⟨o, e, ho⟩ := hL
    refine ⟨o, e, ?_⟩
    rcases ho with ⟨ha, ho⟩ | ⟨y, j, v, rfl, rfl⟩ | ⟨pa, ch, b', s', v, t', y, z, j, ho, ea, g⟩
    · left
      refine ⟨?_, ho⟩
      intro x hx
      rcases List.mem_append.1 hx with hx | hx
      · exact ha x hx
      · intro hc
        have := (r3 x hx).2
        rw [hc] at this; exact hb this
    · right
      obtain ⟨s', ea, g⟩ := removeAt_left h ⟨r1, r2, r3, r4, r5⟩ hnd hsub (hsl j (by simp)) hg
      exact ⟨i, y, false, s', v, _, y, r.root, j, rfl, ea, g⟩
    · right
      exact ⟨pa, ch, b', s', v, _, y, z, j, ho, ea, g.left h ⟨r1, r2, r3, r4, r5⟩ hnd⟩

/-- The loop of `remove`. -/
theorem removeLoop_spec (hg : GI s live ls) (key : BitVec 128) : ∀ {c : CT V} {par fuel : Nat} {b : Bool}, Sh s par c →
    Rad c → c.ids.Nodup → (∀ x ∈ c.ids, x ∈ live) → (∀ x ∈ c.ents.map Prod.fst, x ∈ ls) → c.height ≤ fuel →
    RemOut s live ls key fuel par b c := by
  intro c
  induction c with
  | leaf i j k v =>
    intro par fuel b h hr hnd hsub hsl hf
    obtain ⟨fuel, rfl⟩ : ∃ f, fuel = f + 1 := ⟨fuel - 1, by simp [height] at hf; omega⟩
    obtain ⟨g1, g2, g3, g4, g5, g6⟩ := h.leaf
    unfold RemOut
    simp only [root_leaf, removeLoop, g1, g2, except_bind_ok, Bool.false_eq_true, if_false]
    by_cases hk : k = key
    · subst hk
      exact ⟨some (par, i, b), by simp, Or.inr (Or.inl ⟨i, j, v, rfl, rfl⟩)⟩
    · refine ⟨none, by simp [hk], Or.inl ⟨?_, rfl⟩⟩
      intro e he; simp at he; subst he; exact hk
  | inner i p k l r ihl ihr =>
    intro par fuel b h hr hnd hsub hsl hf
    obtain ⟨fuel, rfl⟩ : ∃ f, fuel = f + 1 := ⟨fuel - 1, by simp [height] at hf; omega⟩
    obtain ⟨g1, g2, g3, g4, g5, g6⟩ := h.inner hr.1
    simp only [height] at hf
    have hn := hnd
    simp only [ids_inner, List.nodup_cons] at hn
    obtain ⟨hnl, hnr, hlr⟩ := List.nodup_append.1 hn.2
    have hR := ihr (fuel := fuel) (b := true) h.2.2.2.2.2.2 hr.2.2.2.2 hnr (fun x hx => hsub x (by simp [hx]))
      (fun x hx => hsl x (by rw [ents_inner, List.map_append, List.mem_append]; exact Or.inr hx)) (by omega)
    have hL := ihl (fuel := fuel) (b := false) h.2.2.2.2.2.1 hr.2.2.2.1 hnl (fun x hx => hsub x (by simp [hx]))
      (fun x hx => hsl x (by rw [ents_inner, List.map_append, List.mem_append]; exact Or.inl hx)) (by omega)
    obtain ⟨o, e, ho⟩ := remove_inner h hr hnd hsub hsl hg hR hL
    refine ⟨o, ?_, ?_⟩
    · simp only [root_inner, removeLoop, g1, g2, g6, except_bind_ok, if_true]
      exact e
    · rcases ho with ho | ho
      · exact Or.inl ho
      · exact Or.inr (Or.inr ho)

end Critbit
end Sokoban
