import Verif.Proof.RBLink
import Verif.Proof.RBNear
import Verif.Proof.TextbookRB

/-
Red-black balance of ghost trees and contexts.
-/
namespace Sokoban
open BT Ctx Textbook
variable {K V : Type}

/-- red-black tree of black height `n` (the root may be red) -/
def RB : BT K V → Nat → Prop
  | .nil, n => n = 0
  | .node l x r, n => (x.tag = 1 ∧ l.tag = 0 ∧ r.tag = 0 ∧ RB l n ∧ RB r n) ∨
      (x.tag = 0 ∧ ∃ m, n = m + 1 ∧ RB l m ∧ RB r m)

/-- context whose hole may be filled with a tree of black height `n` (black, if the node above the
hole is red) -/
def CRB : Ctx K V → Nat → Prop
  | [], _ => True
  | (_, x, s) :: c, n => RB s n ∧
      ((x.tag = 1 ∧ s.tag = 0 ∧ c ≠ [] ∧ ctag c = 0 ∧ CRB c n) ∨ (x.tag = 0 ∧ CRB c (n + 1)))

theorem RB_br {d : Bool} {a b : BT K V} {x : GN K V} {n : Nat} : RB (br d a x b) n ↔
    (x.tag = 1 ∧ a.tag = 0 ∧ b.tag = 0 ∧ RB a n ∧ RB b n) ∨
      (x.tag = 0 ∧ ∃ m, n = m + 1 ∧ RB a m ∧ RB b m) := by
  cases d
  · rfl
  · simp only [br_true, RB]
    constructor
    · rintro (⟨h1, h2, h3, h4, h5⟩ | ⟨h1, m, h2, h3, h4⟩)
      · exact Or.inl ⟨h1, h3, h2, h5, h4⟩
      · exact Or.inr ⟨h1, m, h2, h4, h3⟩
    · rintro (⟨h1, h2, h3, h4, h5⟩ | ⟨h1, m, h2, h3, h4⟩)
      · exact Or.inl ⟨h1, h3, h2, h5, h4⟩
      · exact Or.inr ⟨h1, m, h2, h4, h3⟩

theorem RB.tag_or {t : BT K V} {n : Nat} (h : RB t n) : t.tag = 0 ∨ t.tag = 1 := by
  cases t with
  | nil => exact Or.inl rfl
  | node l x r => rcases h with ⟨h, _⟩ | ⟨h, _⟩ <;> simp [h]

theorem RB.black {d : Bool} {a b : BT K V} {x : GN K V} {n : Nat} (ha : RB a n) (hb : RB b n) (hx : x.tag = 0) :
    RB (br d a x b) (n + 1) := RB_br.2 (Or.inr ⟨hx, n, rfl, ha, hb⟩)

theorem RB.red {d : Bool} {a b : BT K V} {x : GN K V} {n : Nat} (ha : RB a n) (hb : RB b n) (hx : x.tag = 1)
    (ta : a.tag = 0) (tb : b.tag = 0) : RB (br d a x b) n := RB_br.2 (Or.inl ⟨hx, ta, tb, ha, hb⟩)

/-- forget that a red root must have black children -/
theorem RB.of_black {d : Bool} {a b : BT K V} {x : GN K V} {n : Nat} (h : RB (br d a x b) n) (hx : x.tag = 0) :
    ∃ m, n = m + 1 ∧ RB a m ∧ RB b m := by
  rcases RB_br.1 h with ⟨h1, _⟩ | ⟨_, h⟩
  · omega
  · exact h

theorem RB.of_red {d : Bool} {a b : BT K V} {x : GN K V} {n : Nat} (h : RB (br d a x b) n) (hx : x.tag = 1) :
    a.tag = 0 ∧ b.tag = 0 ∧ RB a n ∧ RB b n := by
  rcases RB_br.1 h with ⟨_, h⟩ | ⟨h1, _⟩
  · exact h
  · omega

theorem RB.blacken {d : Bool} {a b : BT K V} {x : GN K V} {n : Nat} (h : RB (br d a x b) n) :
    ∃ m, RB (br d a (x.setTag 0) b) m := by
  rcases RB_br.1 h with ⟨_, _, _, h1, h2⟩ | ⟨_, m, _, h1, h2⟩
  · exact ⟨n + 1, h1.black h2 rfl⟩
  · exact ⟨m + 1, h1.black h2 rfl⟩

theorem CRB.tag_or {c : Ctx K V} {n : Nat} (h : CRB c n) : ctag c = 0 ∨ ctag c = 1 := by
  cases c with
  | nil => exact Or.inl rfl
  | cons f c => obtain ⟨d, x, s⟩ := f; rcases h with ⟨_, ⟨h, _⟩ | ⟨h, _⟩⟩ <;> simp [ctag, h]

/-- filling the hole: the root keeps its colour unless the context is empty -/
theorem CRB.plug : ∀ {c : Ctx K V} {n : Nat} {t : BT K V}, CRB c n → RB t n → (ctag c = 1 → t.tag = 0) →
    ∃ m, RB (Ctx.plug c t) m ∧ (c ≠ [] → (Ctx.plug c t).tag = 0)
  | [], n, t, _, h, _ => ⟨n, h, fun h => absurd rfl h⟩
  | (d, x, s) :: c, n, t, ⟨hs, hc⟩, ht, hct => by
    rcases hc with ⟨h1, h2, h3, h4, h5⟩ | ⟨h1, h2⟩
    · obtain ⟨m, k1, k2⟩ := CRB.plug (t := br d t x s) h5 (ht.red hs h1 (hct h1) h2) (by omega)
      exact ⟨m, k1, fun _ => k2 h3⟩
    · obtain ⟨m, k1, k2⟩ := CRB.plug (t := br d t x s) h2 (ht.black hs h1) (by simp [h1])
      refine ⟨m, k1, fun _ => ?_⟩
      by_cases hc : c = []
      · subst hc; simp [Ctx.plug, h1]
      · exact k2 hc

/-- number of nodes is at least exponential in the black height -/
theorem RB.size {t : BT K V} : ∀ {n : Nat}, RB t n → 2 ^ n ≤ t.ents.length + 1 := by
  induction t with
  | nil => intro n h; cases h; simp
  | node l x r ihl ihr =>
    intro n h
    rcases h with ⟨_, _, _, h1, h2⟩ | ⟨_, m, rfl, h1, h2⟩
    · have := ihl h1; simp; omega
    · have := ihl h1; have := ihr h2; simp [Nat.pow_succ]; omega

theorem RB.height {t : BT K V} : ∀ {n : Nat}, RB t n → t.height ≤ 2 * n + t.tag := by
  induction t with
  | nil => intro n h; simp [BT.height]
  | node l x r ihl ihr =>
    intro n h
    rcases h with ⟨h0, hl, hr, h1, h2⟩ | ⟨h0, m, rfl, h1, h2⟩
    · have := ihl h1; have := ihr h2; simp [BT.height, h0]; omega
    · have := ihl h1; have := ihr h2; have := h1.tag_or; have := h2.tag_or; simp [BT.height, h0]; omega

theorem RB.fixD {d : Bool} {t b : BT K V} {k : K} {n : Nat} (h : RB t n) :
    fixD d t.rsk k b.rsk = rbr d false t.rsk k b.rsk := by
  cases t with
  | nil => exact fixD_black rfl
  | node l x r =>
    rcases h with ⟨h1, h2, h3, _⟩ | ⟨h1, _⟩
    · simp only [rsk_node, h1, decide_true]
      exact fixD_ok (by simp [h2]) (by simp [h3])
    · exact fixD_black (by simp [RBTree.isRed, h1])

/-- nothing to repair -/
theorem CRB.insUp : ∀ {c : Ctx K V} {n : Nat} {t : BT K V}, CRB c n → RB t n → (ctag c = 1 → t.tag = 0) →
    insUp c t.rsk = (Ctx.plug c t).rsk.blacken
  | [], _, _, _, _, _ => rfl
  | (d, x, s) :: c, n, t, ⟨hs, hc⟩, ht, hct => by
    rw [Sokoban.insUp]
    rcases hc with ⟨h1, h2, h3, h4, h5⟩ | ⟨h1, h2⟩
    · rw [if_pos h1, show rbr d true t.rsk x.key s.rsk = (br d t x s).rsk by simp [h1]]
      exact CRB.insUp (t := br d t x s) h5 (ht.red hs h1 (hct h1) h2) (by omega)
    · rw [if_neg (by omega), ht.fixD, show rbr d false t.rsk x.key s.rsk = (br d t x s).rsk by simp [h1]]
      exact CRB.insUp (t := br d t x s) h2 (ht.black hs h1) (by simp [h1])

namespace RedBlackTree
variable {kn : Known} {M : Nat} {s : RedBlackTree K V M} {c : Ctx K V} {t : BT K V} {X E : List (Nat × K × V)}

theorem Z.unzip (h : Z s c t X E) : Z s [] (plug c t) X E := by
  obtain ⟨h1, h2⟩ := RBShape.plug h.shape h.cshape
  exact ⟨h1, h2, by rw [ents_plug]; simpa [lft, rgt] using h.ents, h.base⟩

theorem Z.len_lt (h : Z s c t X E) : c.length + t.ids.length + X.length ≤ M := by
  have h1 := h.perm.length_eq
  have h2 := h.base.le
  have h3 := length_le c
  simp only [List.length_map, List.length_append] at h1 h2
  omega

theorem fixInsertLoop_spec : ∀ (n : Nat) (s : RedBlackTree K V M) (c : Ctx K V) (fuel k : Nat) (t : BT K V),
    c.length ≤ n → n + 2 ≤ fuel → Z s c t X E → RB t k → t.tag = 1 → CRB c k →
    ∃ s' t' m, s.fixInsertLoop fuel t.root = .ok s' ∧ Z s' [] t' X E ∧ RB t' m ∧ (t' ≠ .nil ∧
      t'.rsk.blacken = insUp c t.rsk) ∧ Near 8 s s' := by
  intro n
  induction n using Nat.strongRecOn with
  | _ n ih =>
  intro s c fuel k t hcn hf hz hb ht hc
  obtain ⟨fuel, rfl⟩ : ∃ f, fuel = f + 1 := ⟨fuel - 1, by omega⟩
  have ht0 : t ≠ .nil := by rintro rfl; simp at ht
  have hr0 : ¬ t.root = 0 := fun h => ht0 (hz.root_eq_zero.1 h)
  rcases hc.tag_or with hp | hp
  · -- the parent is black
    obtain ⟨m, hm, _⟩ := hc.plug hb (by omega)
    refine ⟨s, plug c t, m, ?_, hz.unzip, hm, ⟨?_, (hc.insUp hb (by omega)).symm⟩, .refl _⟩
    · unfold fixInsertLoop
      rw [hz.getParent, if_neg hr0, except_bind_ok, hz.isRedPar]
      simp only [hp, except_bind_ok]
      rfl
    · intro e
      have := congrArg BT.ents e
      rw [ents_plug] at this
      cases t with
      | nil => exact ht0 rfl
      | node l x r => simp at this
  · -- the parent is red
    obtain - | ⟨⟨d1, p, b1⟩, c1⟩ := c
    · simp [ctag] at hp
    simp only [ctag] at hp
    obtain ⟨hb1, ⟨_, hb1t, hc1, hc1t, hc1b⟩ | ⟨h0, _⟩⟩ := hc
    rotate_left
    · omega
    obtain - | ⟨⟨d2, g, u⟩, c2⟩ := c1
    · exact absurd rfl hc1
    simp only [ctag] at hc1t
    obtain ⟨hu, ⟨h0, _⟩ | ⟨_, hc2⟩⟩ := hc1b
    · omega
    simp only [List.length_cons] at hcn
    have zP := hz.up
    have zG := zP.up
    have hPne := br_ne_nil d1 t p b1
    have hg0 : ¬ g.idx = SENTINEL := by have := zG.idx_rng; simp only [SENTINEL]; omega
    have zU := zG.flip.down
    have e1 : s.fixInsertLoop (fuel + 1) t.root = (if u.tag = 1 then do
        let t ← s.colorBlack u.root
        let t ← t.colorBlack p.idx
        let t ← t.colorRed g.idx
        fixInsertLoop t fuel g.idx
      else do
        let (s, nd) ← (if d1.toNat = (!d2).toNat then do
            let (s, _) ← s.rotateDir p.idx d2.toNat
            pure (s, p.idx)
          else pure (s, t.root))
        let parent ← s.getParent nd
        let grandparent ← s.getParent parent
        let s ← s.colorBlack parent
        let s ← s.colorRed grandparent
        let (s, _) ← s.rotateDir grandparent (!d2).toNat
        fixInsertLoop s fuel nd) := by
      have cd := zP.childDir hPne
      have gp := zP.getParent
      rw [root_br] at cd
      conv => lhs; unfold fixInsertLoop
      rw [hz.getParent, if_neg hr0, except_bind_ok, hz.isRedPar]
      simp only [par, ctag, hp, except_bind_ok, decide_true, if_true, zP.getParent', hg0, if_false, cd,
        opposite_toNat, zG.getChild', zU.isRed, hz.childDir ht0]
      by_cases hut : u.tag = 1
      · simp only [hut, decide_true, if_true]
      · simp [hut]
    rcases hu.tag_or with hut | hut
    · -- black uncle
      rw [e1, if_neg (by omega)]
      have key : ∀ (s1 : RedBlackTree K V M) (t1 : BT K V) (p1 : GN K V) (b2 : BT K V),
          Z s1 ((d2, p1, b2) :: (d2, g, u) :: c2) t1 X E → RB t1 k → t1.tag = 1 → p1.tag = 1 → RB b2 k →
          b2.tag = 0 →
          ∃ s' t' m, (do
              let parent ← s1.getParent t1.root
              let grandparent ← s1.getParent parent
              let s ← s1.colorBlack parent
              let s ← s.colorRed grandparent
              let (s, _) ← s.rotateDir grandparent (!d2).toNat
              fixInsertLoop s fuel t1.root) = .ok s' ∧ Z s' [] t' X E ∧ RB t' m ∧ (t' ≠ .nil ∧
              t'.rsk.blacken = insUp c2 (rbr d2 false t1.rsk p1.key (rbr (!d2) true u.rsk g.key b2.rsk))) ∧
              Near 4 s1 s' := by
        intro s1 t1 p1 b2 z1 hb1 ht1 hp1 hb2 hb2t
        have ht10 : t1 ≠ .nil := by rintro rfl; simp at ht1
        have hr10 : ¬ t1.root = 0 := fun h => ht10 (z1.root_eq_zero.1 h)
        obtain ⟨s2, e2, z2⟩ := z1.up.colorBlack
        obtain ⟨s3, e3, z3⟩ := z2.up.colorRed
        have z3' := z3.flip
        rw [← br_not d2 b2 (p1.setTag 0) t1] at z3'
        obtain ⟨s4, e4, z4⟩ := z3'.rotateDir
        have z5 := z4.flip.down
        rw [Bool.not_not] at z5
        have hk1 : RB (br (!d2) u (g.setTag 1) b2) k := hu.red hb2 rfl hut hb2t
        have hcc : CRB ((d2, p1.setTag 0, br (!d2) u (g.setTag 1) b2) :: c2) k := ⟨hk1, Or.inr ⟨rfl, hc2⟩⟩
        obtain ⟨fuel, rfl⟩ : ∃ f, fuel = f + 1 := ⟨fuel - 1, by omega⟩
        obtain ⟨m, hm, _⟩ := hcc.plug hb1 (by simp [ctag])
        refine ⟨s4, _, m, ?_, z5.unzip, hm, ⟨?_, ?_⟩, ?_⟩
        · rw [z1.getParent, if_neg hr10]
          simp only [par, except_bind_ok, z1.up.getParent', e2, e3, GN.idx_setTag] at e4 ⊢
          rw [e4]
          simp only [except_bind_ok]
          unfold fixInsertLoop
          rw [z5.getParent, if_neg hr10, except_bind_ok, z5.isRedPar]
          simp [ctag]
        · intro e
          have := congrArg BT.ents e
          rw [ents_plug] at this
          cases t1 with
          | nil => exact ht10 rfl
          | node l x r => simp at this
        · rw [← hcc.insUp hb1 (by simp [ctag]), insUp, if_neg (by simp), hb1.fixD]
          simp
        · exact ((links_colorBlack e2).near.trans (links_colorRed e3).near).trans (near_rotateDir e4)
      by_cases hd : d1 = !d2
      · subst hd
        obtain ⟨a, x, b, rfl⟩ := BT.as_br ht0 d2
        rw [tag_br] at ht
        obtain ⟨ta, tb, ra, rb⟩ := hb.of_red ht
        have zP' := zP.flip
        rw [Bool.not_not] at zP'
        obtain ⟨s1, e2, z2⟩ := zP'.rotateDir
        rw [if_pos rfl, e2]
        obtain ⟨s', t', m, k1, k2, k3, ⟨k4, k6⟩, k5⟩ :=
          key s1 (br d2 b1 p a) x b z2.down (hb1.red ra hp hb1t ta) (by simpa using hp) ht rb tb
        refine ⟨s', t', m, by simpa using k1, k2, k3, ⟨k4, ?_⟩, (near_rotateDir e2).trans k5⟩
        rw [k6, insUp, if_pos hp, insUp, if_neg (by omega)]
        simp only [rsk_br, hp, ht, decide_true]
        rw [fixD_inner (by simp [hb1t]) (by simp [hut])]
      · have hd' : d1 = d2 := by revert hd; cases d1 <;> cases d2 <;> simp
        subst hd'
        rw [if_neg (by cases d1 <;> simp)]
        obtain ⟨s', t', m, k1, k2, k3, ⟨k4, k6⟩, k5⟩ := key s t p b1 hz hb ht hp hb1 hb1t
        refine ⟨s', t', m, by simpa using k1, k2, k3, ⟨k4, ?_⟩, k5.mono (by omega)⟩
        rw [k6, insUp, if_pos hp, insUp, if_neg (by omega), fixD_outer (by simp [ht]) (by simp [hut])]
    · -- red uncle
      rw [e1, if_pos hut]
      obtain ⟨ul, ux, ur, rfl⟩ := BT.as_br (t := u) (by rintro rfl; simp at hut) false
      rw [tag_br] at hut
      obtain ⟨s1, f1, z1⟩ := zU.colorBlack
      have z1' := z1.up.flip.down
      obtain ⟨s2, f2, z2⟩ := z1'.colorBlack
      obtain ⟨s3, f3, z3⟩ := z2.up.colorRed
      rw [Bool.not_not] at z3
      obtain ⟨tu1, tu2, ru1, ru2⟩ := hu.of_red hut
      obtain ⟨s', t', m, this, k2, k3, ⟨k4, k6⟩, k5⟩ := ih c2.length (by omega) s3 c2 fuel (k + 1) _ (Nat.le_refl _) (by omega) z3
        ((hb.black hb1 rfl).red (ru1.black ru2 rfl) rfl (by simp) (by simp)) (by simp) hc2
      simp only [root_br, GN.idx_setTag] at this ⊢
      rw [f1, except_bind_ok, f2, except_bind_ok, f3, except_bind_ok]
      refine ⟨s', t', m, this, k2, k3, ⟨k4, ?_⟩, ((((links_colorBlack f1).near.trans (links_colorBlack f2).near).trans
        (links_colorRed f3).near).trans k5).mono (by simp)⟩
      rw [k6, insUp, if_pos hp, insUp, if_neg (by omega), fixD_uncle (by simp [ht]) (by simp [hb1t]) (by simp [hut])]
      simp

/-- the default limit of the loops suffices -/
theorem Z.lim_ok (h : Z s c t X E) : c.length + t.height + 2 ≤ M + 2 := by
  have h1 := h.len_lt
  have h2 := height_le t
  rw [← length_ids] at h2
  omega

theorem fixInsert_spec {s : RedBlackTree K V M} {c : Ctx K V} {t : BT K V} {k lim : Nat} (hz : Z s c t X E)
    (hb : RB t k) (ht : t.tag = 1) (hc : CRB c k) (hl : c.length + 2 ≤ lim) :
    ∃ s' t' m, s.fixInsert t.root lim = .ok s' ∧ Z s' [] t' X E ∧ RB t' m ∧ (t'.tag = 0 ∧
      t'.rsk = insUp c t.rsk) ∧ Near 8 s s' := by
  obtain ⟨s1, t1, m1, e1, z1, b1, ⟨n1, n2⟩, nr⟩ := fixInsertLoop_spec c.length s c lim k t (Nat.le_refl _) (by omega) hz hb ht hc
  obtain ⟨a, x, b, rfl⟩ := BT.as_br n1 false
  obtain ⟨s2, e2, z2⟩ := z1.colorBlack
  obtain ⟨m, hm⟩ := b1.blacken
  refine ⟨s2, _, m, ?_, z2, hm, ⟨by simp, by rw [← n2]; simp⟩, nr.trans (links_colorBlack e2).near⟩
  unfold fixInsert
  rw [e1, except_bind_ok]
  have : s1.root = x.idx := by simpa [RBCtx] using z1.cshape
  rw [this, e2]

end RedBlackTree
end Sokoban
