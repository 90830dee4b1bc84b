import Verif.Proof.RBBal

/-
`_fix_remove` repairs a tree whose focus lacks one black node.
-/
namespace Sokoban
open BT Ctx Textbook
variable {K V : Type}

namespace RedBlackTree
variable {kn : Known} {M : Nat} {X E : List (Nat × K × V)}

/-- last part of the loop -/
def fixRemoveEnd (fuel : Nat) (t : RedBlackTree K V M) (nodeIndex : Nat) : R (RedBlackTree K V M) := do
  let stop ← (if t.isRoot nodeIndex then pure true else t.isRed nodeIndex)
  if stop then t.colorBlack nodeIndex
  else do
    let parent ← t.getParent nodeIndex
    let dir ← t.childDir parent nodeIndex
    fixRemoveLoop t fuel parent dir

/-- middle part of the loop, far nephew red -/
def fixRemoveFar (fuel parent dir : Nat) (t : RedBlackTree K V M) (sibling : Nat) : R (RedBlackTree K V M) := do
  let t ← t.colorNode sibling (← t.getColor parent)
  let t ← t.colorBlack parent
  let t ← t.colorBlack (← t.getDir sibling (opposite dir))
  let (t, _) ← t.rotateDir parent dir
  fixRemoveEnd fuel t t.root

/-- the loop after the sibling is black -/
def fixRemoveMid (fuel parent dir : Nat) (t : RedBlackTree K V M) (sibling : Nat) : R (RedBlackTree K V M) := do
  let bothBlack ← (if ← t.isBlack (← t.getLeft sibling) then do t.isBlack (← t.getRight sibling)
    else pure false)
  if bothBlack then do
    let t ← t.colorRed sibling
    fixRemoveEnd fuel t parent
  else do
    let (t, sibling) ← (if ← t.isBlack (← t.getDir sibling (opposite dir)) then do
        let t ← t.colorBlack (← t.getDir sibling dir)
        let t ← t.colorRed sibling
        let (t, _) ← t.rotateDir sibling (opposite dir)
        let sibling ← t.getDir parent (opposite dir)
        pure (t, sibling)
      else pure (t, sibling))
    fixRemoveFar fuel parent dir t sibling

theorem fixRemoveLoop_eq (t : RedBlackTree K V M) (fuel parent dir : Nat) :
    t.fixRemoveLoop (fuel + 1) parent dir = (do
      let sibling ← t.getChild parent (opposite dir)
      let (t, sibling) ← (if ← t.isRed sibling then do
          let t ← t.colorBlack sibling
          let t ← t.colorRed parent
          let (t, _) ← t.rotateDir parent dir
          let sibling ← t.getDir parent (opposite dir)
          pure (t, sibling)
        else pure (t, sibling))
      fixRemoveMid fuel parent dir t sibling) := by
  unfold fixRemoveLoop fixRemoveMid fixRemoveFar fixRemoveEnd
  congr 1; funext sib
  congr 1; funext red
  congr 1; funext ⟨t, sib⟩
  dsimp only
  congr 1; funext l
  congr 1; funext lb
  congr 1; funext both
  cases both <;> simp

variable {s : RedBlackTree K V M} {c : Ctx K V} {t : BT K V} {d : Bool} {a b : BT K V} {x : GN K V}

theorem Z.bothBlack {α : Type} (h : Z s c (br d a x b) X E) (f : Bool → R α) : (do
      let both ← (if ← s.isBlack (← s.getLeft x.idx) then do s.isBlack (← s.getRight x.idx) else pure false)
      f both) = f (decide (a.tag = 0 ∧ b.tag = 0)) := by
  have z1 := h.down
  have z2 := h.flip.down
  cases d
  · rw [Z.getLeft h, except_bind_ok, z1.isBlack, except_bind_ok, Z.getRight h, except_bind_ok, z2.isBlack]
    by_cases h1 : a.tag = 0 <;> simp [h1]
  · rw [Z.getLeft h, except_bind_ok, z2.isBlack, except_bind_ok, Z.getRight h, except_bind_ok, z1.isBlack]
    by_cases h1 : b.tag = 0 <;> simp [h1]

theorem Z.root_nil (h : Z s [] t X E) : s.root = t.root := h.cshape

theorem Z.isRoot (h : Z s c t X E) (ht : t ≠ .nil) : s.isRoot t.root = decide (c = []) := by
  unfold RedBlackTree.isRoot
  by_cases hc : c = []
  · subst hc; simp [h.root_nil]
  · simp only [hc, decide_false, decide_eq_false_iff_not]
    have hu := h.unzip.root_nil
    intro e
    -- the root of the whole tree lies in the context
    have key : ∀ (c : Ctx K V) (t : BT K V), c ≠ [] → (plug c t).root ∈ cids c := by
      intro c
      induction c with
      | nil => intro t h; exact absurd rfl h
      | cons f c ih =>
        intro t _
        obtain ⟨d, x, b⟩ := f
        by_cases hc : c = []
        · subst hc; simp [plug, cids]
        · have := ih (br d t x b) hc
          simp [plug, cids, this]
    have h1 := key c t hc
    rw [← hu, e] at h1
    exact (List.nodup_append.1 h.nd).2.2 _ (root_mem ht) _ h1 rfl

/-- colouring the root black at the end -/
theorem Z.finish (h : Z s c t X E) {n : Nat} (hb : RB t n) (hc : CRB c n) (ht : ctag c = 1 → t.tag = 0)
    (hne : t ≠ .nil) : ∃ s' t' m, s.colorBlack s.root = .ok s' ∧ Z s' [] t' X E ∧ RB t' m ∧ t'.tag = 0 ∧
      t'.rsk = delUp c (t.rsk, false) := by
  obtain ⟨m, hm, _⟩ := hc.plug hb ht
  have hz := h.unzip
  have hn : plug c t ≠ .nil := by
    intro e
    have := congrArg BT.ents e
    rw [ents_plug] at this
    cases t with
    | nil => exact hne rfl
    | node l x r => simp at this
  obtain ⟨a, x, b, e⟩ := BT.as_br hn false
  rw [e] at hz hm
  obtain ⟨s2, e2, z2⟩ := hz.colorBlack
  obtain ⟨m', hm'⟩ := hm.blacken
  refine ⟨s2, _, m', ?_, z2, hm', by simp, by rw [delUp_false, e]; simp⟩
  rw [hz.root_nil]; simpa using e2

theorem fixRemoveFar_spec {s : RedBlackTree K V M} {c : Ctx K V} {t B F : BT K V} {p w : GN K V} {n fuel : Nat}
    (h : Z s ((d, p, br d B w F) :: c) t X E) (ht : RB t n) (hB : RB B n) (hF : RB F n) (hFt : F.tag = 1)
    (hc : (p.tag = 1 ∧ ctag c = 0 ∧ CRB c (n + 1)) ∨ (p.tag = 0 ∧ CRB c (n + 2))) :
    ∃ s' t' m, fixRemoveFar fuel p.idx d.toNat s w.idx = .ok s' ∧ Z s' [] t' X E ∧ RB t' m ∧ t'.tag = 0 ∧
      t'.rsk = delUp c (rbr d (decide (p.tag = 1)) (rbr d false t.rsk p.key B.rsk) w.key F.rsk.blacken, false) := by
  have zP := h.up
  have zW := zP.flip.down
  obtain ⟨s1, e1, z1⟩ := zW.colorNode p.tag
  have z1' := z1.up.flip
  rw [Bool.not_not] at z1'
  obtain ⟨s2, e2, z2⟩ := z1'.colorBlack
  obtain ⟨fl, f, fr, rfl⟩ := BT.as_br (t := F) (by rintro rfl; simp at hFt) false
  have z2w := z2.flip.down
  have z2f := z2w.flip.down
  obtain ⟨s3, e3, z3⟩ := z2f.colorBlack
  have z3p := z3.up
  rw [br_not] at z3p
  have z3q := z3p.up
  rw [br_not] at z3q
  obtain ⟨s4, e4, z4⟩ := z3q.rotateDir
  obtain ⟨tf1, tf2, rf1, rf2⟩ := hF.of_red (d := false) hFt
  have hA : RB (br d t (p.setTag 0) B) (n + 1) := ht.black hB rfl
  have hF' : RB (br false fl (f.setTag 0) fr) (n + 1) := rf1.black rf2 rfl
  have fin : ∃ s' t' m, s4.colorBlack s4.root = .ok s' ∧ Z s' [] t' X E ∧ RB t' m ∧ t'.tag = 0 ∧
      t'.rsk = delUp c ((br d (br d t (p.setTag 0) B) (w.setTag p.tag) (br false fl (f.setTag 0) fr)).rsk, false) := by
    rcases hc with ⟨hp, hct, hcc⟩ | ⟨hp, hcc⟩
    · exact z4.finish (hA.red hF' (by simpa using hp) (by simp) (by simp)) hcc (by omega) (br_ne_nil _ _ _ _)
    · exact z4.finish (hA.black hF' (by simpa using hp)) hcc (by simp [hp]) (br_ne_nil _ _ _ _)
  obtain ⟨s', t', m, e', h1', h2', h3', h4'⟩ := fin
  refine ⟨s', t', m, ?_, h1', h2', h3', by rw [h4']; simp only [rsk_br]; rfl⟩
  have g3 := z2w.getDir'
  simp only [GN.idx_setTag, root_br] at e2 e3 e4 g3
  unfold fixRemoveFar fixRemoveEnd
  simp only [zP.getColor, except_bind_ok, e1, e2, opposite_toNat, g3, e3, e4, RedBlackTree.isRoot, decide_true, if_true]
  exact e'

theorem fixRemoveMid_spec {fuel n : Nat} {s : RedBlackTree K V M} {c : Ctx K V} {t w0 : BT K V} {p : GN K V}
    (ih : p.tag = 0 → ∀ (s : RedBlackTree K V M) (d : Bool) (p : GN K V) (w : BT K V) (c' : Ctx K V) (t : BT K V),
      c = (d, p, w) :: c' → Z s c t X E → RB t (n + 1) → CRB c (n + 2) →
      ∃ s' t' m, s.fixRemoveLoop fuel p.idx d.toNat = .ok s' ∧ Z s' [] t' X E ∧ RB t' m ∧ t'.tag = 0 ∧
        t'.rsk = delUp c (t.rsk, true))
    (h : Z s ((d, p, w0) :: c) t X E) (ht : RB t n) (hw : w0.tag = 0) (hc : CRB ((d, p, w0) :: c) (n + 1)) :
    ∃ s' t' m, fixRemoveMid fuel p.idx d.toNat s w0.root = .ok s' ∧ Z s' [] t' X E ∧ RB t' m ∧ t'.tag = 0 ∧
      t'.rsk = delUp c (raiseD d (decide (p.tag = 1)) t.rsk p.key w0.rsk) := by
  obtain ⟨hw0, hcc⟩ := hc
  obtain ⟨B, w, F, rfl⟩ := BT.as_br (t := w0) (by rintro rfl; simp [RB] at hw0) d
  rw [tag_br] at hw
  rw [root_br]
  obtain ⟨n', en, hB, hF⟩ := hw0.of_black hw
  have en' : n' = n := by omega
  subst en'
  have zP := h.up
  have zW := zP.flip.down
  have hcf : (p.tag = 1 ∧ ctag c = 0 ∧ CRB c (n' + 1)) ∨ (p.tag = 0 ∧ CRB c (n' + 2)) := by
    rcases hcc with ⟨h1, _, _, h2, h3⟩ | h1
    · exact Or.inl ⟨h1, h2, h3⟩
    · exact Or.inr h1
  unfold fixRemoveMid
  rw [zW.bothBlack]
  by_cases hbk : B.tag = 0 ∧ F.tag = 0
  · -- both nephews black
    rw [if_pos (by simpa using hbk)]
    obtain ⟨s1, e1, z1⟩ := zW.colorRed
    have z1' := z1.up.flip
    rw [Bool.not_not] at z1'
    rw [rsk_br, raiseD_none (by simp [hbk.2]) (by simp [hbk.1])]
    have hW' : RB (br d B (w.setTag 1) F) n' := hB.red hF rfl hbk.1 hbk.2
    rw [e1, except_bind_ok]
    unfold fixRemoveEnd
    have hroot := z1'.isRoot (br_ne_nil _ _ _ _)
    have hred := z1'.isRed
    rw [root_br] at hroot hred
    rw [hroot]
    rcases hcc with ⟨hp, _, hcn, hct, hcc⟩ | ⟨hp, hcc⟩
    · -- parent red
      obtain ⟨s2, e2, z2⟩ := z1'.colorBlack
      obtain ⟨m, hm, hmt⟩ := hcc.plug (t := br d t (p.setTag 0) (br d B (w.setTag 1) F)) (ht.black hW' rfl) (by omega)
      refine ⟨s2, _, m, ?_, z2.unzip, hm, hmt hcn, ?_⟩
      rotate_left
      · have := delUp_false c (br d t (p.setTag 0) (br d B (w.setTag 1) F))
        rw [blacken_of_black (by simp [hmt hcn])] at this
        rw [← this]
        simp [hp]
      simp only [hcn, decide_false, hred, tag_br, hp, decide_true]
      exact e2
    · by_cases hcn : c = []
      · subst hcn
        obtain ⟨s2, e2, z2⟩ := z1'.colorBlack
        refine ⟨s2, _, _, ?_, z2, ht.black hW' rfl, by simp, by simp [delUp]⟩
        simp only [decide_true, if_true]
        exact e2
      · obtain ⟨⟨d', p', w'⟩, c', rfl⟩ := List.exists_cons_of_ne_nil hcn
        have hcd := z1'.childDir (br_ne_nil _ _ _ _)
        rw [root_br] at hcd
        have := ih hp s1 d' p' w' c' _ rfl z1' (ht.black hW' hp) hcc
        simp only [hcn, decide_false, hred, tag_br, hp, z1'.getParent', par, Bool.false_eq_true, if_false, except_bind_ok,
          Nat.zero_ne_one, hcd]
        simpa [hp] using this
  · rw [if_neg (by simpa using hbk)]
    have zF := zW.flip.down
    rw [opposite_toNat, zW.getDir', except_bind_ok, zF.isBlack, except_bind_ok]
    rcases hF.tag_or with hFt | hFt
    · have hBt : B.tag = 1 := by
        rcases hB.tag_or with h | h
        · exact absurd ⟨h, hFt⟩ hbk
        · exact h
      obtain ⟨B2, b, B1, rfl⟩ := BT.as_br (t := B) (by rintro rfl; simp at hBt) (!d)
      rw [tag_br] at hBt
      obtain ⟨tb2, tb1, rb2, rb1⟩ := hB.of_red hBt
      obtain ⟨s1, e1, z1⟩ := zW.down.colorBlack
      obtain ⟨s2, e2, z2⟩ := z1.up.colorRed
      obtain ⟨s3, e3, z3⟩ := z2.flip.rotateDir
      have z3' := z3.up.flip
      rw [Bool.not_not] at z3'
      have gd := z3'.getDir'
      rw [br_not] at z3'
      have fin := fixRemoveFar_spec (fuel := fuel) z3'.down ht rb1 (F := br (!d) F (w.setTag 1) B2)
        (hF.red rb2 rfl hFt tb2) (by simp) hcf
      simp only [root_br, GN.idx_setTag] at gd e1 e3
      simp only [hFt, decide_true, if_true, zW.getDir, except_bind_ok, root_br, e1, e2, e3, gd]
      rw [rsk_br, rsk_br, hBt, decide_eq_true rfl, raiseD_near (by simp [hFt])]
      simpa using fin
    · have fin := fixRemoveFar_spec (fuel := fuel) h ht hB hF hFt hcf
      rw [rsk_br, raiseD_far (by simp [hFt])]
      simp only [hFt]
      exact fin

theorem fixRemoveLoop_spec : ∀ (fuel : Nat) (s : RedBlackTree K V M) (d : Bool) (p : GN K V) (w : BT K V)
    (c : Ctx K V) (t : BT K V) (n : Nat), c.length + 1 ≤ fuel → Z s ((d, p, w) :: c) t X E → RB t n →
    CRB ((d, p, w) :: c) (n + 1) →
    ∃ s' t' m, s.fixRemoveLoop fuel p.idx d.toNat = .ok s' ∧ Z s' [] t' X E ∧ RB t' m ∧ t'.tag = 0 ∧
      t'.rsk = delUp ((d, p, w) :: c) (t.rsk, true) := by
  intro fuel
  induction fuel with
  | zero => intro s d p w c t n hf; omega
  | succ fuel ih =>
    intro s d p w c t n hf h ht hc
    have zP := h.up
    have zW := zP.flip.down
    rw [fixRemoveLoop_eq, opposite_toNat, zP.getChild', except_bind_ok, zW.isRed, except_bind_ok]
    rcases hc.1.tag_or with hwt | hwt
    · have := fixRemoveMid_spec (fuel := fuel) ?_ h ht hwt hc
      · rw [delUp, delD_black (by simp [hwt])]
        simp only [hwt]; exact this
      · intro _ s1 d1 p1 w1 c1 t1 ec z1 r1 k1
        subst ec
        exact ih s1 d1 p1 w1 c1 t1 (n + 1) (by simp at hf; omega) z1 r1 k1
    · obtain ⟨hw0, ⟨_, h0, _⟩ | ⟨hp, hcc⟩⟩ := hc
      · omega
      obtain ⟨B, w, F, rfl⟩ := BT.as_br (t := w) (by rintro rfl; simp at hwt) d
      rw [tag_br] at hwt
      obtain ⟨tB, tF, hB, hF⟩ := hw0.of_red hwt
      obtain ⟨s1, e1, z1⟩ := zW.colorBlack
      have z1' := z1.up.flip
      rw [Bool.not_not] at z1'
      obtain ⟨s2, e2, z2⟩ := z1'.colorRed
      obtain ⟨s3, e3, z3⟩ := z2.rotateDir
      have z4 := z3.down.down
      have hcc' : CRB ((d, p.setTag 1, B) :: (d, w.setTag 0, F) :: c) (n + 1) :=
        ⟨hB, Or.inl ⟨rfl, tB, by simp, by simp [ctag], hF, Or.inr ⟨rfl, hcc⟩⟩⟩
      have hraise : delUp ((d, w.setTag 0, F) :: c) (raiseD d (decide ((p.setTag 1).tag = 1)) t.rsk p.key B.rsk) =
          delUp ((d, p, br d B w F) :: c) (t.rsk, true) := by
        have h1 := raiseD_red (d := d) (t := t.rsk) (k := p.key) (w := B.rsk)
          (fun e => by rw [rsk_eq_leaf] at e; subst e; simp [RB] at hB)
        simp only [delUp, rsk_br, hwt, decide_true, delD_red, GN.tag_setTag, GN.key_setTag, Nat.zero_ne_one, decide_false]
        generalize raiseD d true t.rsk p.key B.rsk = q at h1 ⊢
        obtain ⟨q1, q2⟩ := q
        simp only at h1
        subst h1
        rw [delD_false]
      rw [← hraise]
      have fin := fixRemoveMid_spec (fuel := fuel) ?_ z4 ht tB hcc'
      · have gd := z3.down.getDir'
        simp only [GN.idx_setTag] at gd e3
        simp only [root_br, tag_br, hwt, decide_true, if_true, e1, except_bind_ok, e2, e3, gd]
        exact fin
      · -- the red parent ends the loop: no recursion
        intro h0; simp at h0

end RedBlackTree
end Sokoban
