import Verif.Proof.RBAny
import Verif.Proof.AVLAny
import Verif.Spec.Relink

/-
How many nodes a call touches.
-/
namespace Sokoban
open BT Ctx NodeAllocator

namespace RedBlackTree
variable {K V : Type} {M : Nat} {s s' : RedBlackTree K V M} {E : Ents K V}

/-- with the root as new focus the loop ends -/
theorem near_fixRemoveEnd_root {fuel : Nat} (h : fixRemoveEnd fuel s s.root = .ok s') : Near 0 s s' := by
  unfold fixRemoveEnd at h
  simp only [isRoot, decide_true, if_true, except_pure, except_bind_ok] at h
  exact (links_colorBlack h).near

theorem near_fixRemoveFar {fuel p d i : Nat} (h : fixRemoveFar fuel p d s i = .ok s') : Near 4 s s' := by
  unfold fixRemoveFar at h
  obtain ⟨c, _, h⟩ := ok_bind h
  obtain ⟨s1, h1, h⟩ := ok_bind h
  obtain ⟨s2, h2, h⟩ := ok_bind h
  obtain ⟨n, _, h⟩ := ok_bind h
  obtain ⟨s3, h3, h⟩ := ok_bind h
  obtain ⟨⟨s4, o⟩, h4, h⟩ := ok_bind h
  exact ((((links_colorNode h1).near.trans (links_colorBlack h2).near).trans (links_colorBlack h3).near).trans
    (near_rotateDir h4)).trans (near_fixRemoveEnd_root h)

/-- either the nephews are both black, and the focus moves up, or the loop ends -/
theorem near_fixRemoveMid {fuel p d i : Nat} (h : fixRemoveMid fuel p d s i = .ok s') :
    Near 8 s s' ∨ ∃ s1, s.colorRed i = .ok s1 ∧ fixRemoveEnd fuel s1 p = .ok s' := by
  unfold fixRemoveMid at h
  obtain ⟨n, _, h⟩ := ok_bind h
  obtain ⟨b, _, h⟩ := ok_bind h
  obtain ⟨bb, _, h⟩ := ok_bind h
  split at h
  · obtain ⟨s1, h1, h⟩ := ok_bind h
    exact Or.inr ⟨s1, h1, h⟩
  · left
    obtain ⟨n, _, h⟩ := ok_bind h
    obtain ⟨b, _, h⟩ := ok_bind h
    obtain ⟨⟨s1, j⟩, h1, h⟩ := ok_bind h
    have hn : Near 4 s s1 := by
      split at h1
      · obtain ⟨n, _, h1⟩ := ok_bind h1
        obtain ⟨s2, h2, h1⟩ := ok_bind h1
        obtain ⟨s3, h3, h1⟩ := ok_bind h1
        obtain ⟨⟨s4, o⟩, h4, h1⟩ := ok_bind h1
        obtain ⟨n, _, h1⟩ := ok_bind h1
        cases h1
        exact ((links_colorBlack h2).near.trans (links_colorRed h3).near).trans (near_rotateDir h4)
      · cases h1; exact .refl _
    exact hn.trans (near_fixRemoveFar h)

/-- `connect` changes no colour -/
theorem colors_connect {i j d : Nat} (hd : d ≠ COLOR) (h : s.connect i j d = .ok s') :
    Same (· = COLOR) [] s.allocator s'.allocator := by
  unfold connect at h
  obtain ⟨a, h1, h2⟩ := ok_bind h
  cases h2
  rw [connect_inv h1]
  exact Same.trans (S := []) (S' := []) (Same.setReg_other hd) (Same.setReg_other (by simp [PARENT, COLOR]))

theorem colors_rotateDir {i d : Nat} {o : Option Nat} (h : s.rotateDir i d = .ok (s', o)) :
    Same (· = COLOR) [] s.allocator s'.allocator := by
  unfold rotateDir at h
  obtain ⟨g, hg, h⟩ := ok_bind h
  split at h
  · cases h; exact .refl
  rename_i hd
  simp only [LEFT, RIGHT] at hd
  obtain ⟨b, hb, h⟩ := ok_bind h
  split at h
  · cases h; exact .refl
  obtain ⟨c, hc, h⟩ := ok_bind h
  obtain ⟨s1, h1, h⟩ := ok_bind h
  obtain ⟨s2, h2, h⟩ := ok_bind h
  have h12 := (colors_connect (by simp only [COLOR]; omega) h1).trans
    (colors_connect (by simp only [COLOR, opposite]; omega) h2)
  split at h
  · obtain ⟨d', hd, h⟩ := ok_bind h
    obtain ⟨s3, h3, h⟩ := ok_bind h
    cases h
    refine h12.trans (colors_connect ?_ h3)
    unfold childDir at hd
    obtain ⟨l, _, hd⟩ := ok_bind hd
    obtain ⟨r, _, hd⟩ := ok_bind hd
    split at hd
    · cases hd; simp [LEFT, COLOR]
    split at hd
    · cases hd; simp [RIGHT, COLOR]
    · cases hd
  · obtain ⟨a3, h3, h⟩ := ok_bind h
    cases h
    rw [clearRegister_inv h3]
    exact h12.trans (Same.setReg_other (by simp [PARENT, COLOR]))

theorem reg_colorRed {i : Nat} (hi : 1 ≤ i) (hM : i ≤ M) (h : s.colorRed i = .ok s') : s'.allocator.reg i COLOR = 1 := by
  unfold colorRed at h
  rw [if_pos (by simp only [SENTINEL]; omega)] at h
  obtain ⟨a, h1, h⟩ := ok_bind h
  cases h
  rw [setRegister_inv h1, reg_setReg, if_pos ⟨⟨rfl, rfl⟩, ⟨hi, hM⟩, by simp [COLOR]⟩]
  rfl

theorem reg_colorRed_keep {i j : Nat} (hj : s.allocator.reg j COLOR = 1) (h : s.colorRed i = .ok s') :
    s'.allocator.reg j COLOR = 1 := by
  unfold colorRed at h
  split at h
  · obtain ⟨a, h1, h⟩ := ok_bind h
    cases h
    rw [setRegister_inv h1, reg_setReg]
    split
    · rfl
    · exact hj
  · cases h; exact hj

theorem getRegister_range {T : Type} {N : Nat} {a : NodeAllocator T M N} {i r v : Nat} (h : a.getRegister i r = .ok v) :
    i ≤ M := by
  unfold getRegister at h
  split at h
  · obtain ⟨n, hn, _⟩ := ok_bind h
    unfold NodeAllocator.get at hn
    split at hn
    · omega
    · cases hn
  · rename_i h0
    simp only [SENTINEL] at h0
    omega

theorem near_fixRemoveLoop : ∀ (fuel : Nat) (s s' : RedBlackTree K V M) (p d : Nat), s.fixRemoveLoop fuel p d = .ok s' →
    Near 12 s s' := by
  intro fuel
  induction fuel with
  | zero => intro s s' p d h; cases h
  | succ fuel ih =>
    intro s s' p d h
    rw [fixRemoveLoop_eq] at h
    obtain ⟨w, hw, h⟩ := ok_bind h
    obtain ⟨red, hr, h⟩ := ok_bind h
    obtain ⟨⟨s1, w1⟩, h1, h⟩ := ok_bind h
    dsimp only at h
    split at h1
    · rename_i hred
      obtain ⟨s2, h2, h1⟩ := ok_bind h1
      obtain ⟨s3, h3, h1⟩ := ok_bind h1
      obtain ⟨⟨s4, o⟩, h4, h1⟩ := ok_bind h1
      obtain ⟨w4, h5, h1⟩ := ok_bind h1
      cases h1
      have hn : Near 4 s s1 := ((links_colorBlack h2).near.trans (links_colorRed h3).near).trans (near_rotateDir h4)
      rcases near_fixRemoveMid h with h | ⟨s5, h5, h⟩
      · exact (hn.trans h).mono (by omega)
      · -- the parent is red
        have hpM : p ≤ M := getRegister_range hw
        have hp1 : 1 ≤ p := by
          rcases Nat.eq_zero_or_pos p with rfl | hp
          · have hw0 : w = 0 := by cases hw; rfl
            subst hw0
            cases hr; cases hred
          · exact hp
        have c3 := reg_colorRed hp1 hpM h3
        have c4 := ((colors_rotateDir h4 p (by simp)).1 COLOR rfl).trans c3
        have c5 := reg_colorRed_keep c4 h5
        unfold fixRemoveEnd at h
        have hst : (if s5.isRoot p then pure true else s5.isRed p : R Bool) = .ok true := by
          split
          · rfl
          · unfold isRed
            rw [getRegister_ok _ hpM (by simp [COLOR]), c5]; rfl
        rw [hst, except_bind_ok] at h
        exact ((hn.trans (links_colorRed h5).near).trans (links_colorBlack h).near).mono (by simp)
    · cases h1
      rcases near_fixRemoveMid h with h | ⟨s5, h5, h⟩
      · exact h.mono (by omega)
      · unfold fixRemoveEnd at h
        obtain ⟨b, hb, h⟩ := ok_bind h
        split at h
        · exact ((links_colorRed h5).near.trans (links_colorBlack h).near).mono (by simp)
        · obtain ⟨q, _, h⟩ := ok_bind h
          obtain ⟨d', _, h⟩ := ok_bind h
          exact ((links_colorRed h5).near.trans (ih _ _ _ _ h)).mono (by simp)

theorem near_fixRemove {i lim : Nat} {pd : Option (Nat × Nat)} (h : s.fixRemove i pd lim = .ok s') : Near 12 s s' := by
  unfold fixRemove at h
  obtain ⟨q, _, h⟩ := ok_bind h
  obtain ⟨d', _, h⟩ := ok_bind h
  exact near_fixRemoveLoop _ _ _ _ _ h

theorem near_removeTwoChildren {i l lim : Nat} {r : Bool × Nat × Option (Nat × Nat)}
    (h : s.removeTwoChildren i l lim = .ok (s', r)) : Near 6 s s' := by
  unfold removeTwoChildren at h
  obtain ⟨m, _, h⟩ := ok_bind h
  obtain ⟨mp, hmp, h⟩ := ok_bind h
  obtain ⟨mc, _, h⟩ := ok_bind h
  obtain ⟨b, _, h⟩ := ok_bind h
  obtain ⟨mp', hmp', h⟩ := ok_bind h
  obtain ⟨⟨s1, pd⟩, h1, h⟩ := ok_bind h
  dsimp only at h
  have e1 : ∃ a b, Links [a, mc, m, b] s s1 := by
    split at h1
    · obtain ⟨s2, h2, h1⟩ := ok_bind h1
      obtain ⟨b, _, h1⟩ := ok_bind h1
      obtain ⟨s3, h3, h1⟩ := ok_bind h1
      cases h1
      obtain ⟨a, l2⟩ := links_transplant h2
      exact ⟨a, b, l2.trans (links_connect h3)⟩
    · refine ⟨0, 0, ?_⟩
      split at h1
      · obtain ⟨_, _, h1⟩ := ok_bind h1
        obtain ⟨_, _, h1⟩ := ok_bind h1
        cases h1; exact .refl
      · cases h1; exact .refl
  obtain ⟨a, b, e1⟩ := e1
  obtain ⟨s2, h2, h⟩ := ok_bind h
  obtain ⟨c, _, h⟩ := ok_bind h
  obtain ⟨s3, h3, h⟩ := ok_bind h
  obtain ⟨col, _, h⟩ := ok_bind h
  obtain ⟨s4, h4, h⟩ := ok_bind h
  cases h
  obtain ⟨p, l2⟩ := links_transplant h2
  exact ⟨[a, mc, m, b, p, c], by simp, (((e1.trans l2).trans (links_connect h3)).trans (links_colorNode h4)).mono
    (by intro x hx; simp at hx ⊢; omega)⟩

theorem near_removeTreeNode {i lim : Nat} (h : s.removeTreeNode i lim = .ok s') : Near 19 s s' := by
  unfold removeTreeNode at h
  obtain ⟨b, _, h⟩ := ok_bind h
  obtain ⟨l, _, h⟩ := ok_bind h
  obtain ⟨r, _, h⟩ := ok_bind h
  obtain ⟨lf, _, h⟩ := ok_bind h
  obtain ⟨⟨s1, b1, pv, pd⟩, h1, h⟩ := ok_bind h
  dsimp only at h
  have e1 : Near 6 s s1 := by
    split at h1
    · split at h1
      · obtain ⟨p, _, h1⟩ := ok_bind h1
        obtain ⟨d, _, h1⟩ := ok_bind h1
        obtain ⟨s2, h2, h1⟩ := ok_bind h1
        cases h1
        exact (links_connect h2).near.mono (by simp)
      · cases h1; exact ⟨[], by simp, Same.refl⟩
    split at h1
    · obtain ⟨s2, h2, h1⟩ := ok_bind h1
      cases h1
      obtain ⟨p, l2⟩ := links_transplant h2
      exact l2.near.mono (by simp)
    split at h1
    · obtain ⟨s2, h2, h1⟩ := ok_bind h1
      cases h1
      obtain ⟨p, l2⟩ := links_transplant h2
      exact l2.near.mono (by simp)
    · exact near_removeTwoChildren h1
  obtain ⟨s2, h2, h⟩ := ok_bind h
  have e2 := e1.trans (links_removeAllocatorNode h2).near
  split at h
  · split at h
    · exact (e2.trans (links_colorBlack h).near).mono (by simp)
    · exact e2.trans (near_fixRemove h)
  · cases h; exact e2.mono (by simp)

theorem near_removeLoop [Ord K] {k : K} {lim : Nat} : ∀ (fuel : Nat) {i : Nat} {o : Option V},
    s.removeLoop k fuel i lim = .ok (s', o) → Near 19 s s' := by
  intro fuel
  induction fuel with
  | zero => intro i o h; cases h
  | succ fuel ih =>
    intro i o h
    unfold removeLoop at h
    obtain ⟨n, _, h⟩ := ok_bind h
    dsimp only at h
    have desc : ∀ {j}, (if j = SENTINEL then pure (s, none) else s.removeLoop k fuel j lim :
        R (RedBlackTree K V M × Option V)) = .ok (s', o) → Near 19 s s' := by
      intro j h
      split at h
      · cases h; exact .refl _
      · exact ih h
    split at h
    · obtain ⟨j, _, h⟩ := ok_bind h
      exact desc h
    · obtain ⟨j, _, h⟩ := ok_bind h
      exact desc h
    · obtain ⟨s1, h1, h⟩ := ok_bind h
      cases h
      exact near_removeTreeNode h1

theorem near_remove [Ord K] {k : K} {lim : Nat} {o : Option V} (h : s.remove k lim = .ok (s', o)) : Near 19 s s' := by
  unfold remove at h
  split at h
  · cases h; exact .refl _
  · exact near_removeLoop _ h

theorem near_removeRoot {lim : Nat} {o : Option (RBNode K V)} (h : s.removeRoot lim = .ok (s', o)) : Near 19 s s' := by
  unfold removeRoot at h
  split at h
  · cases h; exact .refl _
  · obtain ⟨n, _, h⟩ := ok_bind h
    obtain ⟨s1, h1, h⟩ := ok_bind h
    cases h
    exact near_removeTreeNode h1

theorem near_insertLoop [Ord K] (hM : M + 1 < 2 ^ 32) {k : K} {v : V} {lim : Nat} : ∀ {t : BT K V} {c : Ctx K V} {fuel : Nat}
    {o : Option Nat}, Z s c t [] E → Good c t → t ≠ .nil → c.length + t.height + 2 ≤ lim →
    s.insertLoop k v fuel t.root lim = .ok (s', o) → Near 10 s s' := by
  intro t
  induction t with
  | nil => intro c fuel o _ _ h; exact absurd rfl h
  | node l x r ihl ihr =>
    intro c fuel o h hg _ hlim he
    cases fuel with
    | zero => cases he
    | succ fuel =>
    have hle := h.base.le
    have hsz := h.base.size
    rw [List.nil_append] at hle hsz
    simp only [height] at hlim
    simp only [root_node, insertLoop, h.getNode, h.getLeft, h.getRight, except_bind_ok] at he
    have fin : ∀ {d : Bool} {b : BT K V}, Z s ((d, x, b) :: c) .nil [] E → Good ((d, x, b) :: c) .nil →
        (if s.len ≥ s.capacity then pure (s, none) else do
          let (a, nodeIndex) ← s.allocator.addNode { key := k, value := v }
          let t : RedBlackTree K V M := { s with allocator := a }
          let t ← t.colorRed nodeIndex
          let t ← t.connect x.idx nodeIndex d.toNat
          let grandparent ← t.getParent x.idx
          let t ← (if grandparent ≠ SENTINEL then t.fixInsert nodeIndex lim else pure t)
          return (t, some nodeIndex) : R (RedBlackTree K V M × Option Nat)) = .ok (s', o) → Near 10 s s' := by
      intro d b hz hgn he
      split at he
      · cases he; exact .refl _
      · rename_i hfull
        simp only [len, capacity] at hfull
        obtain ⟨s1, t', i, e, _, _, _, hn⟩ := attach_spec (lim := lim) hM hz hgn (show E.length < M by omega) k v (by omega)
        have := he.symm.trans e
        cases this
        exact hn
    cases hc : compare k x.key with
    | lt =>
      rw [hc] at he
      have hl := Z.down (d := false) h
      have hgl := Good.down (d := false) hg
      by_cases hln : l = .nil
      · subst hln; exact fin hl hgl he
      · simp only [if_neg (show ¬ l.root = SENTINEL from fun hc => hln (hl.root_eq_zero.1 hc))] at he
        exact ihl hl hgl hln (by simp only [List.length_cons]; omega) he
    | eq =>
      rw [hc] at he
      obtain ⟨s1, h1, he⟩ := ok_bind he
      cases he
      exact (links_setNodeValue h1).near.mono (by simp)
    | gt =>
      rw [hc] at he
      have hr := Z.down (d := true) h
      have hgr := Good.down (d := true) hg
      by_cases hrn : r = .nil
      · subst hrn; exact fin hr hgr he
      · simp only [if_neg (show ¬ r.root = SENTINEL from fun hc => hrn (hr.root_eq_zero.1 hc))] at he
        exact ihr hr hgr hrn (by simp only [List.length_cons]; omega) he

theorem Held.near_insert [Ord K] (hM : M + 1 < 2 ^ 32) (h : Held s E) {k : K} {v : V} {o : Option Nat}
    (he : s.insert k v = .ok (s', o)) : Near 10 s s' := by
  obtain ⟨t, hz, hg, hE, hroot, hnil, hr0, hh, _⟩ := h.tree
  unfold RedBlackTree.insert at he
  split at he
  · obtain ⟨⟨a, i⟩, h1, he⟩ := ok_bind he
    cases he
    exact ⟨[i], by simp, Same.addNode h1⟩
  · rename_i hr
    rw [hroot] at he hr
    exact near_insertLoop hM hz hg (by rintro rfl; exact hr rfl) hz.lim_ok he

theorem Near.allBut {n : Nat} (h : Near n s s') : RelinkSpec.AllBut n (RelinkSpec.RBSame s s') := by
  obtain ⟨S, h1, h2⟩ := h
  exact ⟨S, h1, fun i hi => ⟨h2.getRegister hi (by simp [LEFT, COLOR]), h2.getRegister hi (by simp [RIGHT, COLOR]),
    h2.getRegister hi (by simp [PARENT, COLOR]), h2.getValue hi⟩⟩

end RedBlackTree

namespace AVLTree
variable {K V : Type} {M : Nat} {s s' : AVLTree K V M} {E : Ents K V} {c : Ctx K V} {x : GN K V}

theorem near_setNodeValue {i : Nat} {v : V} (h : s.setNodeValue i v = .ok s') : Near 1 s s' := by
  unfold setNodeValue at h
  obtain ⟨_, _, h⟩ := ok_bind h
  obtain ⟨a, h1, h⟩ := ok_bind h
  cases h
  exact near_links (Same.setValue h1)

theorem near_insertLoop [LT K] [DecidableLT K] [PartialGt K] (hM : M + 1 < 2 ^ 32) {T : BT K V} (hz0 : Z s [] T.root T [] E) (haT : AVL T)
    {k : K} {v : V} : ∀ {t : BT K V} {c : Ctx K V} {fuel : Nat} {o : Option Nat}, T = plug c t → t ≠ .nil →
    s.insertLoop k v fuel t.root (fp c t.root) = .ok (s', o) → Near 8 s s' := by
  intro t
  induction t with
  | nil => intro c fuel o _ h; exact absurd rfl h
  | node l x r ihl ihr =>
    intro c fuel o hT _ he
    have h := hz0.at hT
    rw [root_node] at h
    cases fuel with
    | zero => cases he
    | succ fuel =>
    have hle := h.base.le
    have hsz := h.base.size
    rw [List.nil_append] at hle hsz
    simp only [root_node, insertLoop, h.getNode, h.getLeft, h.getRight, except_bind_ok] at he
    have fin : ∀ {d : Bool} {b : BT K V}, T = plug ((d, x, b) :: c) .nil →
        (if s.len ≥ s.capacity then pure (s, none) else do
          let (a, referenceNode) ← s.allocator.addNode { key := k, value := v }
          let t : AVLTree K V M := { s with allocator := a }
          let t ← t.setField x.idx d.toNat referenceNode
          let t ← t.rebalance (fp c x.idx)
          return (t, some referenceNode) : R (AVLTree K V M × Option Nat)) = .ok (s', o) → Near 8 s s' := by
      intro d b hT' he
      split at he
      · cases he; exact .refl _
      · rename_i hfull
        simp only [len, capacity] at hfull
        obtain ⟨s1, t', i, e, _, _, _, hn⟩ := attach_spec hM hz0 haT hT' (show E.length < M by omega) k v
        have := he.symm.trans e
        cases this
        exact hn
    split at he
    · have hTl : T = plug ((false, x, r) :: c) l := hT
      by_cases hln : l = .nil
      · subst hln; exact fin hTl he
      · simp only [if_neg (show ¬ l.root = SENTINEL from fun hc => hln ((hz0.at hTl).root_eq_zero.1 hc))] at he
        exact ihl hTl hln he
    split at he
    · have hTr : T = plug ((true, x, l) :: c) r := hT
      by_cases hrn : r = .nil
      · subst hrn; exact fin hTr he
      · simp only [if_neg (show ¬ r.root = SENTINEL from fun hc => hrn ((hz0.at hTr).root_eq_zero.1 hc))] at he
        exact ihr hTr hrn he
    · obtain ⟨s1, h1, he⟩ := ok_bind he
      cases he
      exact (near_setNodeValue h1).mono (by omega)

theorem Held.near_insert [LT K] [DecidableLT K] [PartialGt K] (hM : M + 1 < 2 ^ 32) (h : Held s E) {k : K} {v : V} {o : Option Nat}
    (he : s.insert k v = .ok (s', o)) : Near 8 s s' := by
  obtain ⟨t, hz, hg, hE, hroot, hnil, hr0, hh, _⟩ := h.tree
  unfold AVLTree.insert at he
  split at he
  · obtain ⟨⟨a, i⟩, h1, he⟩ := ok_bind he
    cases he
    exact ⟨[i], by simp, Same.addNode h1⟩
  · rename_i hr
    rw [hroot] at he hr
    exact near_insertLoop hM hz hg (t := t) (c := []) rfl (by rintro rfl; exact hr rfl) he

/-! the removal, in any state -/

theorem near_rebalance : ∀ {p : List Ancestor} {s : AVLTree K V M}, s.rebalance p = .ok s' → Near (6 * p.length) s s' := by
  intro p
  induction p with
  | nil => intro s h; cases h; exact .refl _
  | cons e p ih =>
    obtain ⟨par, br, ch⟩ := e
    intro s h
    unfold AVLTree.rebalance at h
    obtain ⟨⟨s1, o⟩, h1, h⟩ := ok_bind h
    obtain ⟨s2, h2, h⟩ := ok_bind h
    have e1 := (near_rebalanceNode h1).2
    have e2 : Near 1 s1 s2 := by
      split at h2
      · cases h2; exact .refl _
      split at h2
      · obtain ⟨_, _, h2⟩ := ok_bind h2
        exact near_links (links_setField h2)
      · exact (near_links (s := ⟨_, s1.allocator⟩) (links_updateHeight h2)).mono (by simp)
    exact ((e1.trans e2).trans (ih h)).mono (by simp only [List.length_cons]; omega)

theorem removePath_length [LT K] [DecidableLT K] [PartialGt K] {k : K} : ∀ {fuel i j : Nat} {p q : List Ancestor},
    s.removePath k (fuel + 1) i p = .ok (j, q) → q.length ≤ p.length + fuel := by
  intro fuel
  induction fuel with
  | zero =>
    intro i j p q h
    unfold removePath at h
    split at h
    · cases h; omega
    obtain ⟨_, _, h⟩ := ok_bind h
    dsimp only at h
    split at h
    · obtain ⟨_, _, h⟩ := ok_bind h; cases h
    split at h
    · obtain ⟨_, _, h⟩ := ok_bind h; cases h
    · cases h; omega
  | succ fuel ih =>
    intro i j p q h
    unfold removePath at h
    split at h
    · cases h; omega
    obtain ⟨_, _, h⟩ := ok_bind h
    dsimp only at h
    split at h
    · obtain ⟨_, _, h⟩ := ok_bind h
      have := ih h; simp only [List.length_cons] at this; omega
    split at h
    · obtain ⟨_, _, h⟩ := ok_bind h
      have := ih h; simp only [List.length_cons] at this; omega
    · cases h; omega

theorem leftmostLoop_length : ∀ {fuel i j a b : Nat} {p q : List Ancestor},
    s.leftmostLoop fuel i j p = .ok (a, b, q) → q.length ≤ p.length + fuel := by
  intro fuel
  induction fuel with
  | zero => intro i j a b p q h; cases h
  | succ fuel ih =>
    intro i j a b p q h
    unfold leftmostLoop at h
    obtain ⟨_, _, h⟩ := ok_bind h
    split at h
    · obtain ⟨_, _, h⟩ := ok_bind h
      have := ih h; simp only [List.length_cons] at this; omega
    · cases h; omega

theorem near_removeTwo {l r i lim : Nat} {p q : List Ancestor} (h : s.removeTwo l r p lim = .ok (s', q, i)) :
    Near 4 s s' ∧ q.length ≤ p.length + lim + 1 := by
  unfold removeTwo at h
  obtain ⟨⟨lm, lp, ip⟩, h1, h⟩ := ok_bind h
  have hl := leftmostLoop_length h1
  obtain ⟨s2, h2, h⟩ := ok_bind h
  obtain ⟨s3, h3, h⟩ := ok_bind h
  obtain ⟨s4, h4, h⟩ := ok_bind h
  obtain ⟨⟨⟨par, br, ch⟩, p'⟩, h5, h⟩ := ok_bind h
  obtain ⟨s6, h6, h⟩ := ok_bind h
  have hp : p.length = p'.length + 1 := by
    cases p with
    | nil => cases h5
    | cons e p => cases h5; rfl
  have e2 : Links [lp] s s2 := by
    split at h2
    · obtain ⟨_, _, h2⟩ := ok_bind h2
      exact links_setField h2
    · cases h2; exact Same.refl
  have e4 : Links [lm] s3 s4 := by
    split at h4
    · exact links_setField h4
    · cases h4; exact Same.refl
  have e6 : Near 1 s4 s6 := by
    split at h6
    · obtain ⟨_, _, h6⟩ := ok_bind h6
      exact near_links (links_setField h6)
    · cases h6; exact .refl _
  cases h
  refine ⟨(near_links ((e2.trans (links_setField h3)).trans e4)).trans e6, ?_⟩
  simp only [List.length_append, List.length_tail]
  simp only [List.length_nil] at hl
  split <;> simp only [List.length_cons] <;> omega

theorem near_removeOne {l r i : Nat} {p q : List Ancestor} (h : s.removeOne l r p = .ok (s', q, i)) :
    Near 4 s s' ∧ q.length ≤ p.length := by
  unfold removeOne at h
  dsimp only at h
  obtain ⟨⟨⟨par, br, ch⟩, p'⟩, h5, h⟩ := ok_bind h
  have hp : p.length = p'.length + 1 := by
    cases p with
    | nil => cases h5
    | cons e p => cases h5; rfl
  dsimp only at h
  split at h
  · obtain ⟨_, _, h⟩ := ok_bind h
    obtain ⟨s1, h1, h⟩ := ok_bind h
    cases h
    refine ⟨(near_links (links_setField h1)).mono (by simp), ?_⟩
    generalize (if l = SENTINEL ∧ r = SENTINEL then SENTINEL else if l ≠ SENTINEL then l else r) = ch'
    split
    · simp only [List.length_cons]; omega
    · omega
  · cases h; exact ⟨.refl _, by omega⟩

theorem near_delete {i : Nat} (h : s.delete i = .ok s') : Near 1 s s' := by
  unfold AVLTree.delete at h
  obtain ⟨a1, h1, h⟩ := ok_bind h
  obtain ⟨a2, h2, h⟩ := ok_bind h
  obtain ⟨a3, h3, h⟩ := ok_bind h
  obtain ⟨⟨a4, w⟩, h4, h⟩ := ok_bind h
  cases h
  exact ⟨[i], by simp, ((((Same.clearRegister h1).trans (Same.clearRegister h2)).trans (Same.clearRegister h3)).trans
    (Same.removeNode h4)).mono (by simp)⟩

theorem near_removeNode {i lim : Nat} {p : List Ancestor} {o : Option V} (h : s.removeNode i p lim = .ok (s', o)) :
    Near (6 * (p.length + lim + 1) + 5) s s' := by
  unfold AVLTree.removeNode at h
  obtain ⟨n, _, h⟩ := ok_bind h
  obtain ⟨l, _, h⟩ := ok_bind h
  obtain ⟨r, _, h⟩ := ok_bind h
  obtain ⟨⟨s1, q, j⟩, h1, h⟩ := ok_bind h
  obtain ⟨s2, h2, h⟩ := ok_bind h
  obtain ⟨s3, h3, h⟩ := ok_bind h
  cases h
  have e1 : Near 4 s s1 ∧ q.length ≤ p.length + lim + 1 := by
    split at h1
    · exact near_removeTwo h1
    · have := near_removeOne h1
      exact ⟨this.1, by omega⟩
  have e2 : Near 1 s1 s2 := by
    split at h2
    · have := near_delete h2
      exact this
    · exact near_delete h2
  exact ((e1.1.trans e2).trans (near_rebalance h3)).mono (by omega)

theorem near_remove [LT K] [DecidableLT K] [PartialGt K] {k : K} {lim : Nat} {o : Option V} (h : s.remove k lim = .ok (s', o)) :
    Near (12 * lim + 17) s s' := by
  unfold AVLTree.remove at h
  split at h
  · cases h; exact .refl _
  obtain ⟨⟨i, p⟩, h1, h⟩ := ok_bind h
  have hl := removePath_length h1
  dsimp only at h
  split at h
  · cases h; exact .refl _
  · simp only [List.length_cons, List.length_nil] at hl
    exact (near_removeNode h).mono (by omega)

theorem Near.allBut {n : Nat} (h : Near n s s') : RelinkSpec.AllBut n (RelinkSpec.AVLSame s s') := by
  obtain ⟨S, h1, h2⟩ := h
  exact ⟨S, h1, fun i hi => ⟨h2.getRegister hi (by simp [LEFT, HEIGHT]), h2.getRegister hi (by simp [RIGHT, HEIGHT]),
    h2.getValue hi⟩⟩

end AVLTree

namespace Deque
variable {T : Type} {M : Nat} {d d' : Deque T M} {v : T}

/-- all registers -/
abbrev Al (S : List Nat) {T : Type} {M N : Nat} (a b : NodeAllocator T M N) : Prop := Same (fun _ => True) S a b

theorem allBut {n : Nat} {S : List Nat} (hS : S.length ≤ n) (h : Al S d.allocator d'.allocator) :
    RelinkSpec.AllBut n (RelinkSpec.DequeSame d d') :=
  ⟨S, hS, fun _ hi => ⟨h.getRegister hi trivial, h.getRegister hi trivial, h.getValue hi⟩⟩

theorem bumpSeq_allocator (h : d.bumpSeq = .ok d') : d'.allocator = d.allocator := by
  unfold bumpSeq at h
  split at h
  · cases h
  · cases h; rfl

theorem touch_pushBack (h : d.pushBack v = .ok d') : RelinkSpec.AllBut 2 (RelinkSpec.DequeSame d d') := by
  unfold pushBack at h
  obtain ⟨⟨a, i⟩, h1, h⟩ := ok_bind h
  dsimp only at h
  obtain ⟨a2, h2, h⟩ := ok_bind h
  have e2 : ∃ j, Al [i, j] a a2 := by
    split at h2
    all_goals
      split at h2
      · exact ⟨_, Same.connect h2⟩
      · cases h2; exact ⟨0, Same.refl⟩
  obtain ⟨j, e2⟩ := e2
  refine allBut (S := [i, j]) (by simp) ?_
  rw [bumpSeq_allocator h]
  split <;> exact (Same.trans (Same.addNode h1) e2).mono (by simp)

theorem touch_pushFront (h : d.pushFront v = .ok d') : RelinkSpec.AllBut 2 (RelinkSpec.DequeSame d d') := by
  unfold pushFront at h
  obtain ⟨⟨a, i⟩, h1, h⟩ := ok_bind h
  dsimp only at h
  obtain ⟨a2, h2, h⟩ := ok_bind h
  have e2 : ∃ j, Al [i, j] a a2 := by
    split at h2
    all_goals
      split at h2
      · exact ⟨_, Same.connect h2⟩
      · cases h2; exact ⟨0, Same.refl⟩
  obtain ⟨j, e2⟩ := e2
  refine allBut (S := [i, j]) (by simp) ?_
  rw [bumpSeq_allocator h]
  split <;> exact (Same.trans (Same.addNode h1) e2).mono (by simp)

theorem touch_remove {i : Nat} {o : Option T} (h : d.remove' i = .ok (d', o)) :
    RelinkSpec.AllBut 3 (RelinkSpec.DequeSame d d') := by
  unfold remove' at h
  obtain ⟨w, _, h⟩ := ok_bind h
  obtain ⟨l, _, h⟩ := ok_bind h
  obtain ⟨r, _, h⟩ := ok_bind h
  obtain ⟨a1, h1, h⟩ := ok_bind h
  obtain ⟨a2, h2, h⟩ := ok_bind h
  obtain ⟨a3, h3, h⟩ := ok_bind h
  obtain ⟨d4, h4, h⟩ := ok_bind h
  obtain ⟨d5, h5, h⟩ := ok_bind h
  obtain ⟨⟨a6, x⟩, h6, h⟩ := ok_bind h
  obtain ⟨d7, h7, h⟩ := ok_bind h
  cases h
  have e3 : Al [l, r] a2 a3 := by
    split at h3
    · exact Same.connect h3
    · cases h3; exact Same.refl
  have e4 : Al [r] a3 d4.allocator := by
    split at h4
    · obtain ⟨a, ha, h4⟩ := ok_bind h4
      cases h4; exact Same.clearRegister ha
    · cases h4; exact Same.refl
  have e5 : Al [l] d4.allocator d5.allocator := by
    split at h5
    · obtain ⟨a, ha, h5⟩ := ok_bind h5
      cases h5; exact Same.clearRegister ha
    · cases h5; exact Same.refl
  refine allBut (S := [i, l, r]) (by simp) ?_
  rw [bumpSeq_allocator h7]
  exact ((((((Same.clearRegister h1).trans (Same.clearRegister h2)).trans e3).trans e4).trans e5).trans
    (Same.removeNode h6)).mono (by intro x hx; simp at hx ⊢; omega)

theorem touch_popBack {o : Option T} (h : d.popBack = .ok (d', o)) : RelinkSpec.AllBut 3 (RelinkSpec.DequeSame d d') := by
  unfold popBack at h
  split at h
  · cases h; exact ⟨[], by simp, fun _ _ => ⟨rfl, rfl, rfl⟩⟩
  · exact touch_remove h

theorem touch_popFront {o : Option T} (h : d.popFront = .ok (d', o)) : RelinkSpec.AllBut 3 (RelinkSpec.DequeSame d d') := by
  unfold popFront at h
  split at h
  · cases h; exact ⟨[], by simp, fun _ _ => ⟨rfl, rfl, rfl⟩⟩
  · exact touch_remove h

end Deque

namespace HashTable
open Deque (Al)
variable {K V : Type} {B M : Nat} {h h' : HashTable K V B M} {hash : K → Nat}

/-- all but `n` nodes and one bucket are untouched -/
def Touch (n : Nat) (h h' : HashTable K V B M) : Prop :=
  ∃ S : List Nat, S.length ≤ n ∧ Al S h.allocator h'.allocator ∧ ∃ b, ∀ b', b' ≠ b → h'.bucket b' = h.bucket b'

theorem Touch.refl (n : Nat) : Touch n h h := ⟨[], by simp, Same.refl, 0, fun _ _ => rfl⟩

theorem Touch.allBut {n : Nat} (H : Touch n h h') : RelinkSpec.AllBut n (RelinkSpec.HashSame h h') ∧
    RelinkSpec.AllBut 1 fun b => h'.bucket b = h.bucket b := by
  obtain ⟨S, h1, h2, b, h3⟩ := H
  exact ⟨⟨S, h1, fun _ hi => ⟨h2.getRegister hi trivial, h2.getRegister hi trivial, h2.getValue hi⟩⟩,
    [b], by simp, fun b' hb => h3 b' (by simpa using hb)⟩

theorem setBucket_inv {b i : Nat} (H : h.setBucket b i = .ok h') : h'.allocator = h.allocator ∧
    ∀ b', b' ≠ b → h'.bucket b' = h.bucket b' := by
  unfold setBucket at H
  split at H
  · cases H
    refine ⟨rfl, fun b' hb => ?_⟩
    unfold bucket
    split
    · simp only [Vector.getElem_set, Ne.symm hb, if_false]
    · rfl
  · cases H

theorem touch_insert [BEq K] {k : K} {v : V} {o : Option Nat} (H : h.insert hash k v = .ok (h', o)) : Touch 2 h h' := by
  unfold HashTable.insert at H
  obtain ⟨b, _, H⟩ := ok_bind H
  obtain ⟨hd, _, H⟩ := ok_bind H
  obtain ⟨c, _, H⟩ := ok_bind H
  split at H
  · obtain ⟨h1, H1, H⟩ := ok_bind H
    cases H
    unfold setNodeValue at H1
    obtain ⟨n, _, H1⟩ := ok_bind H1
    obtain ⟨a, ha, H1⟩ := ok_bind H1
    cases H1
    exact ⟨[c], by simp, Same.setValue ha, 0, fun _ _ => rfl⟩
  split at H
  · cases H; exact .refl _
  obtain ⟨⟨a, i⟩, h1, H⟩ := ok_bind H
  obtain ⟨h2, H2, H⟩ := ok_bind H
  obtain ⟨a3, h3, H⟩ := ok_bind H
  cases H
  obtain ⟨g1, g2⟩ := setBucket_inv H2
  refine ⟨[i, hd], by simp, ?_, b, g2⟩
  have e3 : Al [i, hd] h2.allocator a3 := by
    split at h3
    · exact Same.connect h3
    · cases h3; exact Same.refl
  rw [g1] at e3
  exact (Same.trans (Same.addNode h1) e3).mono (by simp)

theorem touch_remove [BEq K] {k : K} {o : Option V} (H : h.remove hash k = .ok (h', o)) : Touch 3 h h' := by
  unfold HashTable.remove at H
  obtain ⟨b, _, H⟩ := ok_bind H
  obtain ⟨hd, _, H⟩ := ok_bind H
  obtain ⟨c, _, H⟩ := ok_bind H
  split at H
  · cases H; exact .refl _
  obtain ⟨n, _, H⟩ := ok_bind H
  obtain ⟨p, _, H⟩ := ok_bind H
  obtain ⟨q, _, H⟩ := ok_bind H
  obtain ⟨a1, h1, H⟩ := ok_bind H
  obtain ⟨a2, h2, H⟩ := ok_bind H
  obtain ⟨⟨a3, x⟩, h3, H⟩ := ok_bind H
  obtain ⟨g, hg, H⟩ := ok_bind H
  obtain ⟨a4, h4, H⟩ := ok_bind H
  cases H
  have e : g.allocator = a3 ∧ ∀ b', b' ≠ b → g.bucket b' = h.bucket b' := by
    split at hg
    · obtain ⟨_, _, hg⟩ := ok_bind hg
      exact setBucket_inv hg
    · cases hg; exact ⟨rfl, fun _ _ => rfl⟩
  rw [e.1] at h4
  refine ⟨[c, p, q], by simp, ?_, b, e.2⟩
  exact ((((Same.clearRegister h1).trans (Same.clearRegister h2)).trans (Same.removeNode h3)).trans
    (Same.connect h4)).mono (by intro x hx; simp at hx ⊢; omega)

theorem touch_getMut [BEq K] {k : K} {o : Option Nat} (H : h.getMut hash k = .ok (h', o)) : Touch 4 h h' := by
  unfold HashTable.getMut at H
  obtain ⟨b, _, H⟩ := ok_bind H
  obtain ⟨hd, _, H⟩ := ok_bind H
  obtain ⟨c, _, H⟩ := ok_bind H
  split at H
  · cases H; exact .refl _
  obtain ⟨p, _, H⟩ := ok_bind H
  obtain ⟨q, _, H⟩ := ok_bind H
  obtain ⟨a, h1, H⟩ := ok_bind H
  obtain ⟨g, hg, H⟩ := ok_bind H
  cases H
  obtain ⟨g1, g2⟩ := setBucket_inv hg
  refine ⟨[c, p, q, hd], by simp, ?_, b, g2⟩
  rw [g1]
  split at h1
  · obtain ⟨a2, h2, h1⟩ := ok_bind h1
    obtain ⟨a3, h3, h1⟩ := ok_bind h1
    exact (((Same.clearRegister h2).trans (Same.connect h3)).trans (Same.connect h1)).mono
      (by intro x hx; simp at hx ⊢; omega)
  · cases h1; exact Same.refl

end HashTable

namespace Critbit
open Deque (Al)
variable {V : Type} {N M : Nat} {t t' : Critbit V N M}

/-- all but `n` nodes and one leaf are untouched -/
def Touch (n : Nat) (t t' : Critbit V N M) : Prop :=
  ∃ S : List Nat, S.length ≤ n ∧ Al S t.nodeAllocator t'.nodeAllocator ∧ ∃ l, Al [l] t.leaves t'.leaves

theorem Touch.refl (n : Nat) : Touch n t t := ⟨[], by simp, Same.refl, 0, Same.refl⟩

theorem Touch.allBut {n : Nat} (H : Touch n t t') : RelinkSpec.AllBut n (RelinkSpec.CritbitSame t t') ∧
    RelinkSpec.AllBut 1 fun l => t'.getLeaf l = t.getLeaf l := by
  obtain ⟨S, h1, h2, l, h3⟩ := H
  exact ⟨⟨S, h1, fun _ hi => ⟨h2.getRegister hi trivial, h2.getRegister hi trivial, h2.getRegister hi trivial,
    h2.getRegister hi trivial, h2.getValue hi⟩⟩, [l], by simp, fun _ hi => h3.getValue hi⟩

theorem touch_addLeaf {k : BitVec 128} {v : V} {i l : Nat} (H : t.addLeaf k v = .ok (t', i, l)) :
    Al [i] t.nodeAllocator t'.nodeAllocator ∧ Al [l] t.leaves t'.leaves := by
  unfold addLeaf at H
  obtain ⟨⟨a, i⟩, h1, H⟩ := ok_bind H
  obtain ⟨⟨b, l⟩, h2, H⟩ := ok_bind H
  obtain ⟨a2, h3, H⟩ := ok_bind H
  obtain ⟨b2, h4, H⟩ := ok_bind H
  cases H
  exact ⟨(Same.trans (Same.addNode h1) (Same.setRegister h3)).mono (by simp),
    (Same.trans (Same.addNode h2) (Same.setValue h4)).mono (by simp)⟩

theorem touch_duplicate {i j : Nat} (H : t.duplicate i = .ok (t', j)) :
    t'.leaves = t.leaves ∧ ∃ l r, Al [j, l, r] t.nodeAllocator t'.nodeAllocator := by
  unfold duplicate at H
  obtain ⟨n, _, H⟩ := ok_bind H
  obtain ⟨⟨a, i⟩, h1, H⟩ := ok_bind H
  obtain ⟨l, _, H⟩ := ok_bind H
  obtain ⟨r, _, H⟩ := ok_bind H
  obtain ⟨v, _, H⟩ := ok_bind H
  obtain ⟨a2, h2, H⟩ := ok_bind H
  obtain ⟨a3, h3, H⟩ := ok_bind H
  obtain ⟨a4, h4, H⟩ := ok_bind H
  cases H
  exact ⟨rfl, l, r, ((((Same.addNode h1).trans (Same.setRegister h2)).trans (Same.connect h3)).trans
    (Same.connect h4)).mono (by intro x hx; simp at hx ⊢; omega)⟩

theorem touch_replaceNode {i l r : Nat} {n : CritbitNode} (H : t.replaceNode i n l r = .ok t') :
    t'.leaves = t.leaves ∧ Al [i, l, r] t.nodeAllocator t'.nodeAllocator := by
  unfold replaceNode at H
  obtain ⟨a1, h1, H⟩ := ok_bind H
  obtain ⟨a2, h2, H⟩ := ok_bind H
  obtain ⟨a3, h3, H⟩ := ok_bind H
  obtain ⟨a4, h4, H⟩ := ok_bind H
  cases H
  exact ⟨rfl, ((((Same.setValue h1).trans (Same.clearRegister h2)).trans (Same.connect h3)).trans
    (Same.connect h4)).mono (by intro x hx; simp at hx ⊢; omega)⟩

theorem touch_insertSplit {k : BitVec 128} {v : V} {i n : Nat} {o : Option Nat}
    (H : t.insertSplit k v i n = .ok (t', o)) : Touch 5 t t' := by
  unfold insertSplit at H
  obtain ⟨m, _, H⟩ := ok_bind H
  obtain ⟨⟨t1, lf, ix⟩, h1, H⟩ := ok_bind H
  obtain ⟨⟨t2, mv⟩, h2, H⟩ := ok_bind H
  obtain ⟨t3, h3, H⟩ := ok_bind H
  cases H
  obtain ⟨e1, f1⟩ := touch_addLeaf h1
  obtain ⟨f2, l, r, e2⟩ := touch_duplicate h2
  have e3 : t'.leaves = t2.leaves ∧ Al [i, mv, lf] t2.nodeAllocator t'.nodeAllocator := by
    split at h3
    · exact touch_replaceNode h3
    · have := touch_replaceNode h3
      exact ⟨this.1, this.2.mono (by intro x hx; simp at hx ⊢; omega)⟩
  refine ⟨[lf, mv, l, r, i], by simp, ((e1.trans e2).trans e3.2).mono (by intro x hx; simp at hx ⊢; omega), ix, ?_⟩
  rw [e3.1, f2]; exact f1

theorem touch_insertLoop {k : BitVec 128} {v : V} : ∀ (fuel : Nat) {i : Nat} {o : Option Nat},
    t.insertLoop k v fuel i = .ok (t', o) → Touch 5 t t' := by
  intro fuel
  induction fuel with
  | zero => intro i o H; cases H
  | succ fuel ih =>
    intro i o H
    unfold insertLoop at H
    obtain ⟨n, _, H⟩ := ok_bind H
    obtain ⟨b, _, H⟩ := ok_bind H
    split at H
    · obtain ⟨l, _, H⟩ := ok_bind H
      obtain ⟨t1, h1, H⟩ := ok_bind H
      cases H
      unfold replaceLeaf at h1
      obtain ⟨a, ha, h1⟩ := ok_bind h1
      cases h1
      exact ⟨[], by simp, Same.refl, l, Same.setValue ha⟩
    · dsimp only at H
      split at H
      · obtain ⟨c, _, H⟩ := ok_bind H
        exact ih H
      · exact touch_insertSplit H

theorem touch_insert {k : BitVec 128} {v : V} {o : Option Nat} (H : t.insert k v = .ok (t', o)) : Touch 5 t t' := by
  unfold Critbit.insert at H
  split at H
  · obtain ⟨⟨t1, i, l⟩, h1, H⟩ := ok_bind H
    cases H
    obtain ⟨e1, f1⟩ := touch_addLeaf h1
    exact ⟨[i], by simp, e1, l, f1⟩
  split at H
  · cases H; exact .refl _
  · exact touch_insertLoop _ H

theorem touch_removeLeaf {i : Nat} {v : V} (H : t.removeLeaf i = .ok (t', v)) :
    (∃ l, Al [l] t.leaves t'.leaves) ∧ ∃ p, Al [i, p] t.nodeAllocator t'.nodeAllocator := by
  unfold removeLeaf at H
  obtain ⟨l, _, H⟩ := ok_bind H
  obtain ⟨w, _, H⟩ := ok_bind H
  obtain ⟨a1, h1, H⟩ := ok_bind H
  obtain ⟨l', _, H⟩ := ok_bind H
  obtain ⟨_, _, H⟩ := ok_bind H
  obtain ⟨p, hp, H⟩ := ok_bind H
  obtain ⟨pl, _, H⟩ := ok_bind H
  obtain ⟨a2, h2, H⟩ := ok_bind H
  obtain ⟨⟨lv, x⟩, h3, H⟩ := ok_bind H
  obtain ⟨⟨a3, y⟩, h4, H⟩ := ok_bind H
  cases H
  refine ⟨⟨l, Same.removeNode h3⟩, p, ?_⟩
  have e2 : Al [i, p] a1 a2 := by
    split at h2
    · exact Same.disconnect h2
    · obtain ⟨pr, _, h2⟩ := ok_bind h2
      split at h2
      · exact Same.disconnect h2
      split at h2
      · cases h2
      · cases h2; exact Same.refl
  exact (((Same.clearRegister h1).trans e2).trans (Same.removeNode h4)).mono (by intro x hx; simp at hx ⊢; omega)

theorem touch_migrate {i j : Nat} (H : t.migrate i j = .ok t') :
    t'.leaves = t.leaves ∧ ∃ l r, Al [i, j, l, r] t.nodeAllocator t'.nodeAllocator := by
  unfold migrate at H
  obtain ⟨n, _, H⟩ := ok_bind H
  obtain ⟨a1, h1, H⟩ := ok_bind H
  obtain ⟨t2, h2, H⟩ := ok_bind H
  obtain ⟨l', _, H⟩ := ok_bind H
  obtain ⟨_, _, H⟩ := ok_bind H
  obtain ⟨l, _, H⟩ := ok_bind H
  obtain ⟨a3, h3, H⟩ := ok_bind H
  obtain ⟨r, _, H⟩ := ok_bind H
  obtain ⟨a4, h4, H⟩ := ok_bind H
  obtain ⟨a5, h5, H⟩ := ok_bind H
  obtain ⟨a6, h6, H⟩ := ok_bind H
  obtain ⟨⟨a7, x⟩, h7, H⟩ := ok_bind H
  cases H
  have e2 : t2.leaves = t.leaves ∧ Al [i, j] a1 t2.nodeAllocator := by
    unfold migrateLeaf at h2
    obtain ⟨b, _, h2⟩ := ok_bind h2
    split at h2
    · obtain ⟨_, _, h2⟩ := ok_bind h2
      obtain ⟨_, _, h2⟩ := ok_bind h2
      obtain ⟨_, _, h2⟩ := ok_bind h2
      obtain ⟨_, _, h2⟩ := ok_bind h2
      obtain ⟨lf, _, h2⟩ := ok_bind h2
      obtain ⟨b1, g1, h2⟩ := ok_bind h2
      obtain ⟨b2, g2, h2⟩ := ok_bind h2
      cases h2
      exact ⟨rfl, (Same.clearRegister g1).trans (Same.setRegister g2)⟩
    · cases h2; exact ⟨rfl, Same.refl⟩
  refine ⟨e2.1, l, r, ?_⟩
  exact (((((((Same.setValue h1).trans e2.2).trans (Same.connect h3)).trans (Same.connect h4)).trans
    (Same.clearRegister h5)).trans (Same.clearRegister h6)).trans (Same.removeNode h7)).mono
    (by intro x hx; simp at hx ⊢; omega)

theorem touch_removeAt {p c : Nat} {r : Bool} {v : V} (H : t.removeAt p c r = .ok (t', v)) : Touch 6 t t' := by
  unfold removeAt at H
  obtain ⟨sb, _, H⟩ := ok_bind H
  obtain ⟨⟨t1, w⟩, h1, H⟩ := ok_bind H
  obtain ⟨t2, h2, H⟩ := ok_bind H
  cases H
  obtain ⟨⟨lf, f1⟩, q, e1⟩ := touch_removeLeaf h1
  obtain ⟨f2, l, r, e2⟩ := touch_migrate h2
  exact ⟨[c, q, p, sb, l, r], by simp, (e1.trans e2).mono (by intro x hx; simp at hx ⊢; omega), lf, by rw [f2]; exact f1⟩

theorem touch_remove {k : BitVec 128} {o : Option V} (H : t.remove k = .ok (t', o)) : Touch 6 t t' := by
  unfold Critbit.remove at H
  dsimp only at H
  split at H
  · cases H; exact .refl _
  obtain ⟨b, _, H⟩ := ok_bind H
  split at H
  · obtain ⟨n, _, H⟩ := ok_bind H
    obtain ⟨⟨c, r⟩, _, H⟩ := ok_bind H
    obtain ⟨x, _, H⟩ := ok_bind H
    split at H
    · cases H; exact .refl _
    · obtain ⟨⟨t1, w⟩, h1, H⟩ := ok_bind H
      dsimp only at H
      have : t1 = t' := by
        split at H
        · cases H
        obtain ⟨_, _, H⟩ := ok_bind H
        split at H
        · cases H
        obtain ⟨_, _, H⟩ := ok_bind H
        cases H; rfl
      subst this
      exact touch_removeAt h1
  · obtain ⟨n, _, H⟩ := ok_bind H
    split at H
    · obtain ⟨_, _, H⟩ := ok_bind H
      obtain ⟨⟨t1, w⟩, h1, H⟩ := ok_bind H
      cases H
      obtain ⟨⟨lf, f1⟩, q, e1⟩ := touch_removeLeaf h1
      exact ⟨[t.root, q], by simp, e1, lf, f1⟩
    · cases H; exact .refl _

end Critbit
end Sokoban
