import Verif.Proof.RBFixRemove

/-
Unlinking a node of the red-black tree.
-/
namespace Sokoban
open Textbook BT Ctx
variable {K V : Type}

namespace Ctx

theorem rgt_of_true : ∀ (c : Ctx K V), (∀ f ∈ c, f.1 = true) → rgt c = []
  | [], _ => rfl
  | (d, x, s) :: c, h => by
    have hd : d = true := h (d, x, s) (by simp)
    subst hd
    simp [rgt, rgt_of_true c (fun f hf => h f (by simp [hf]))]

theorem ids_plug_perm (c : Ctx K V) (t : BT K V) : (plug c t).ids.Perm (t.ids ++ cids c) := by
  unfold BT.ids
  rw [ents_plug]
  exact perm_ids c t

theorem plug_ne_nil {c : Ctx K V} {t : BT K V} (h : t ≠ .nil ∨ c ≠ []) : plug c t ≠ .nil := by
  induction c generalizing t with
  | nil => simpa [plug] using h
  | cons f c ih => obtain ⟨d, x, s⟩ := f; exact ih (Or.inl (br_ne_nil _ _ _ _))

end Ctx

namespace RedBlackTree
variable {kn : Known} {M : Nat} {X E : List (Nat × K × V)}
variable {s : RedBlackTree K V M} {c : Ctx K V} {t : BT K V} {d : Bool} {a b : BT K V} {x : GN K V}

theorem Z.ups : ∀ {c : Ctx K V} {c' : Ctx K V} {t : BT K V}, Z s (c ++ c') t X E → Z s c' (plug c t) X E
  | [], _, _, h => h
  | (_, _, _) :: c, _, _, h => Z.ups (c := c) (Z.up h)

theorem Z.downs : ∀ {c : Ctx K V} {c' : Ctx K V} {t : BT K V}, Z s c' (plug c t) X E → Z s (c ++ c') t X E
  | [], _, _, h => h
  | (_, _, _) :: c, _, _, h => Z.down (Z.downs (c := c) h)

theorem hdir_lt (c : Ctx K V) : hdir c < 2 := by
  cases c with
  | nil => simp [hdir]
  | cons f c => obtain ⟨e, y, z⟩ := f; cases e <;> simp [hdir]

theorem transplant_Z {tg q : Nat} {t' : BT K V} {L : List (Nat × K × V)} (hT : RBCtx s.rg s.root c tg)
    (hp : s.rg tg 2 = par c) (hq : RBShape s.rg q t') (nd : (t'.ids ++ cids c).Nodup)
    (htg : tg ∉ cids c) (ht1 : 1 ≤ tg) (htM : tg ≤ M) (base : RBase s.allocator L)
    (hl : ∀ i, i ∈ t'.ids ∨ i ∈ cids c → i ∈ L.map Prod.fst) :
    ∃ s', s.transplant tg t'.root = .ok s' ∧ RBase s'.allocator L ∧ RBShape s'.rg (par c) t' ∧
      RBCtx s'.rg s'.root c t'.root ∧
      (∀ i r, ¬ (i = t'.root ∧ r = 2) → ¬ (i = par c ∧ r = hdir c) → s'.rg i r = s.rg i r) := by
  obtain ⟨n1, n2, n3⟩ := List.nodup_append.1 nd
  have hrl : t'.root ∈ L.map Prod.fst ∨ t'.root = 0 := by
    by_cases h : t' = .nil
    · subst h; exact Or.inr rfl
    · exact Or.inl (hl _ (Or.inl (root_mem h)))
  have hrM : t'.root ≤ M := by
    rcases hrl with h | h
    · exact (base.range h).2
    · omega
  by_cases hc : c = []
  · subst hc
    refine ⟨⟨t'.root, s.allocator.setReg t'.root 2 0⟩, ?_, base.setReg _ _ hrl, ?_, rfl, ?_⟩
    · unfold transplant
      rw [getParent_ok htM, hp, except_bind_ok]
      simp only [par, SENTINEL, if_true]
      rw [NodeAllocator.setRegister_ok _ hrM (by simp [PARENT])]; rfl
    · refine hq.frame (fun i hi r hn => ?_) (fun hn => ?_) n1
      · exact (rset _ hrM (by omega)).trans (if_neg (fun h => hn ⟨h.1, h.2.1⟩))
      · have := base.range (hl _ (Or.inl (root_mem hn)))
        exact (rset _ hrM (by omega)).trans (if_pos ⟨rfl, rfl, this.1⟩)
    · intro i r hn _
      exact (rset _ hrM (by omega)).trans (if_neg (fun h => hn ⟨h.1, h.2.1⟩))
  · have hpm := par_mem hc
    have hpr := base.range (hl _ (Or.inr hpm))
    have hp0 : ¬ par c = SENTINEL := by simp only [SENTINEL]; omega
    have hrp : ∀ i ∈ t'.ids, i ≠ par c := fun i hi e => n3 i hi _ hpm e
    have h4 : hdir c < 4 := by have := hdir_lt c; omega
    have h2 : hdir c ≠ 2 := by have := hdir_lt c; omega
    refine ⟨⟨s.root, (s.allocator.setReg (par c) (hdir c) t'.root).setReg t'.root 2 (par c)⟩, ?_,
      (base.setReg _ _ (Or.inl (hl _ (Or.inr hpm)))).setReg _ _ hrl, ?_, ?_, ?_⟩
    · unfold transplant
      rw [getParent_ok htM, hp, except_bind_ok]
      simp only [hp0, if_false]
      cases c with
      | nil => exact absurd rfl hc
      | cons f c =>
        obtain ⟨e, y, z⟩ := f
        obtain ⟨k1, k2, k3, k4, k5, k6⟩ := hT
        have hz : s.rg y.idx (!e).toNat ≠ tg := by
          intro hh; rw [k2] at hh
          by_cases hzn : z = .nil
          · subst hzn; simp at hh; omega
          · exact htg (by simp only [cids]; rw [← hh]; simp [root_mem hzn])
        simp only [par, hdir] at hpr ⊢
        rw [childDir_ok hpr.2 e k1 hz, except_bind_ok, connect_ok hpr.2 hrM]
    · refine hq.frame (fun i hi r hn => ?_) (fun hn => ?_) n1
      · exact (rset _ hrM (by omega)).trans ((if_neg (fun h => hn ⟨h.1, h.2.1⟩)).trans
          ((rset _ hpr.2 h4).trans (if_neg (fun h => hrp i hi h.1))))
      · have := base.range (hl _ (Or.inl (root_mem hn)))
        exact (rset _ hrM (by omega)).trans (if_pos ⟨rfl, rfl, this.1⟩)
    · refine hT.frame (fun i hi r hn => ?_) (fun h => absurd h hc) (fun _ => ⟨rfl, ?_⟩) n2
      · have hir := base.range (hl _ (Or.inr hi))
        refine (rset _ hrM (by omega)).trans ((if_neg (fun h => ?_)).trans
          ((rset _ hpr.2 h4).trans (if_neg (fun h => hn ⟨h.1, h.2.1⟩))))
        by_cases htn : t' = .nil
        · subst htn; simp at h; omega
        · exact n3 _ (root_mem htn) i hi h.1.symm
      · refine (rset _ hrM (by omega)).trans ((if_neg (fun h => h2 h.2.1)).trans
          ((rset _ hpr.2 h4).trans (if_pos ⟨rfl, rfl, hpr.1⟩)))
    · intro i r hn1 hn2
      exact (rset _ hrM (by omega)).trans ((if_neg (fun h => hn1 ⟨h.1, h.2.1⟩)).trans
          ((rset _ hpr.2 h4).trans (if_neg (fun h => hn2 ⟨h.1, h.2.1⟩))))

theorem connect_Z {m : Nat} {L : List (Nat × K × V)} (base : RBase s.allocator L) (hm : m ∈ L.map Prod.fst)
    (ha : ∀ i ∈ a.ids, i ∈ L.map Prod.fst) (hma : m ∉ a.ids) (d : Bool) :
    ∃ s', s.connect m a.root d.toNat = .ok s' ∧ s'.root = s.root ∧ RBase s'.allocator L ∧
      s'.rg m d.toNat = a.root ∧ (a ≠ .nil → s'.rg a.root 2 = m) ∧
      (∀ i r, ¬ (i = m ∧ r = d.toNat) → ¬ (i = a.root ∧ r = 2) → s'.rg i r = s.rg i r) := by
  have hrl : a.root ∈ L.map Prod.fst ∨ a.root = 0 := by
    by_cases h : a = .nil
    · subst h; exact Or.inr rfl
    · exact Or.inl (ha _ (root_mem h))
  have hrM : a.root ≤ M := by
    rcases hrl with h | h
    · exact (base.range h).2
    · omega
  have hmr := base.range hm
  have h4 : d.toNat < 4 := by cases d <;> simp
  have h2 : d.toNat ≠ 2 := by cases d <;> simp
  refine ⟨_, connect_ok hmr.2 hrM d, rfl, (base.setReg _ _ (Or.inl hm)).setReg _ _ hrl, ?_, ?_, ?_⟩
  · refine (rset _ hrM (by omega)).trans ((if_neg (fun h => h2 h.2.1)).trans
          ((rset _ hmr.2 h4).trans (if_pos ⟨rfl, rfl, hmr.1⟩)))
  · intro hn
    have := base.range (ha _ (root_mem hn))
    exact (rset _ hrM (by omega)).trans (if_pos ⟨rfl, rfl, this.1⟩)
  · intro i r hn1 hn2
    exact (rset _ hrM (by omega)).trans ((if_neg (fun h => hn2 ⟨h.1, h.2.1⟩)).trans
          ((rset _ hmr.2 h4).trans (if_neg (fun h => hn1 ⟨h.1, h.2.1⟩))))

theorem graft_spec {l r : BT K V} {x m : GN K V} {q : Nat} (hc : RBCtx s.rg s.root c x.idx)
    (hx2 : s.rg x.idx 2 = par c) (hx1 : s.rg x.idx 1 = r.root) (hx3 : s.rg x.idx 3 = x.tag)
    (hm : RBShape s.rg q (.node l m .nil)) (hr : RBShape s.rg x.idx r)
    (base : RBase s.allocator ([x.ent] ++ (lft c ++ (l.ents ++ m.ent :: r.ents) ++ rgt c))) :
    ∃ s', (∀ (α : Type) (k : RedBlackTree K V M → R α), (do
        let t ← s.transplant x.idx m.idx
        let t ← t.connect m.idx (← t.getRight x.idx) RIGHT
        let t ← t.colorNode m.idx (← t.getColor x.idx)
        k t) = k s') ∧
      Z s' c (.node l (m.setTag x.tag) r) [x.ent] (lft c ++ (l.ents ++ m.ent :: r.ents) ++ rgt c) := by
  have hperm : (([x.ent] ++ (lft c ++ (l.ents ++ m.ent :: r.ents) ++ rgt c)).map Prod.fst).Perm
      (x.idx :: ((l.ids ++ m.idx :: r.ids) ++ cids c)) := by
    have := perm_ids c (.node l m r)
    simp only [ents_node, ids_node] at this
    simp only [List.singleton_append, List.map_cons, GN.ent_fst]
    exact this.cons _
  have nd := hperm.nodup_iff.1 base.nodup
  have hl : ∀ i, i ∈ (x.idx :: ((l.ids ++ m.idx :: r.ids) ++ cids c)) →
      i ∈ ([x.ent] ++ (lft c ++ (l.ents ++ m.ent :: r.ents) ++ rgt c)).map Prod.fst :=
    fun i hi => hperm.mem_iff.2 hi
  have hxr := base.range (hl x.idx (by simp))
  have hmr := base.range (hl m.idx (by simp))
  obtain ⟨nx, nd'⟩ := List.nodup_cons.1 nd
  obtain ⟨na, nb, nc⟩ := List.nodup_append.1 nd'
  obtain ⟨nl, nmr, nlm⟩ := List.nodup_append.1 na
  obtain ⟨nm, nr⟩ := List.nodup_cons.1 nmr
  simp only [List.mem_append, List.mem_cons, not_or] at nx
  obtain ⟨⟨nxl, nxm, nxr⟩, nxc⟩ := nx
  have hpc : ∀ i, 1 ≤ i → i ∉ cids c → i ≠ par c := by
    rintro i hi hn rfl
    by_cases hB : c = []
    · subst hB; simp [par] at hi
    · exact hn (par_mem hB)
  obtain ⟨s1, e1, b1, sh1, cs1, fr1⟩ := transplant_Z (t' := .node l m .nil) hc hx2 hm
    (by
      simp only [ids_node, ids_nil]
      refine List.nodup_append.2 ⟨List.nodup_append.2 ⟨nl, by simp, fun a ha b hb => ?_⟩, nb, fun a ha b hb => ?_⟩
      · simp only [List.mem_singleton] at hb; exact nlm a ha b (by simp [hb])
      · refine nc a ?_ b hb
        simp only [List.mem_append, List.mem_singleton] at ha
        rcases ha with ha | ha <;> simp [ha])
    nxc hxr.1 hxr.2 base
    (by
      intro i hi
      refine hl i ?_
      simp only [ids_node, ids_nil, List.mem_append, List.mem_singleton] at hi
      rcases hi with (hi | hi) | hi <;> simp [hi])
  simp only [root_node] at e1 sh1 cs1 fr1
  have fx : ∀ r, s1.rg x.idx r = s.rg x.idx r := fun r =>
    fr1 _ r (fun h => nxm h.1) (fun h => hpc _ hxr.1 nxc h.1)
  have fR : RBShape s1.rg x.idx r := hr.frame0 (fun i hi r => fr1 i r
    (fun h => nm (h.1 ▸ hi))
    (fun h => hpc _ (base.range (hl i (by simp [hi]))).1 (fun hh => nc i (by simp [hi]) i hh rfl) h.1))
  obtain ⟨s2, e2, rt2, b2, m2, p2, fr2⟩ := connect_Z (s := s1) (a := r) b1 (hl m.idx (by simp))
    (fun i hi => hl i (by simp [hi])) nm true
  simp only [Bool.toNat_true] at e2 m2 fr2
  obtain ⟨g1, g2, g3, g4, g5, g6⟩ := sh1
  have hrr : ∀ i, 1 ≤ i → i ∉ r.ids → i ≠ r.root := by
    rintro i hi hn rfl
    by_cases hB : r = .nil
    · subst hB; simp at hi
    · exact hn (root_mem hB)
  have z2 : Z s2 c (.node l m r) [x.ent] (lft c ++ (l.ents ++ m.ent :: r.ents) ++ rgt c) := by
    refine ⟨⟨?_, m2, ?_, ?_, ?_, ?_⟩, ?_, rfl, b2⟩
    · rw [fr2 _ _ (by omega) (by omega)]; exact g1
    · rw [fr2 _ _ (by omega) (fun h => hrr _ hmr.1 nm h.1)]; exact g3
    · rw [fr2 _ _ (by omega) (by omega)]; exact g4
    · refine g5.frame0 (fun i hi q => fr2 i q (fun h => nlm i hi _ (by simp) h.1) (fun h => ?_))
      exact hrr _ (base.range (hl i (by simp [hi]))).1 (fun hh => nlm i hi i (by simp [hh]) rfl) h.1
    · refine fR.frame (fun i hi q hn => fr2 i q (fun h => nm (h.1 ▸ hi)) hn) p2 nr
    · rw [rt2]
      refine cs1.frame0 (fun i hi q => fr2 i q (fun h => nc m.idx (by simp) i hi h.1.symm) (fun h => ?_))
      exact hrr _ (base.range (hl i (by simp [hi]))).1 (fun hh => nc i (by simp [hh]) i hi rfl) h.1
  obtain ⟨s3, e3, z3⟩ := Z.colorNode (d := false) z2 x.tag
  refine ⟨s3, fun α k => ?_, z3⟩
  rw [e1, except_bind_ok, getRight_ok hxr.2, fx, hx1, except_bind_ok]
  simp only [RIGHT]
  rw [e2, except_bind_ok, getColor_ok hxr.2, fr2 _ _ (fun h => nxm h.1) (by omega), fx, hx3, except_bind_ok, e3, except_bind_ok]

theorem Z.findMax : ∀ (fuel : Nat) {t : BT K V} {c : Ctx K V}, Z s c t X E → t ≠ .nil → t.height ≤ fuel →
    ∃ cl ml m, t = plug cl (.node ml m .nil) ∧ (∀ f ∈ cl, f.1 = true) ∧ s.findMax fuel t.root = .ok m.idx := by
  intro fuel
  induction fuel with
  | zero => intro t c h ht hf; cases t with
    | nil => exact absurd rfl ht
    | node l x r => simp [height] at hf
  | succ fuel ih =>
    intro t c h ht hf
    cases t with
    | nil => exact absurd rfl ht
    | node l x r =>
      simp only [height] at hf
      have h' := Z.flip (d := false) h |>.down
      unfold RedBlackTree.findMax
      rw [root_node, h.getRight, except_bind_ok]
      by_cases hr : r = .nil
      · subst hr
        exact ⟨[], l, x, rfl, by simp, by simp [SENTINEL]⟩
      · obtain ⟨cl, ml, m, e1, e2, e3⟩ := ih h' hr (by omega)
        refine ⟨cl ++ [(true, x, l)], ml, m, ?_, ?_, ?_⟩
        · rw [plug_append, ← e1]; rfl
        · intro f hf
          rcases List.mem_append.1 hf with hf | hf
          · exact e2 f hf
          · simp at hf; simp [hf]
        · have : r.root ≠ SENTINEL := fun h => hr (h'.root_eq_zero.1 h)
          rw [if_pos this, e3]

theorem removeTwoChildren_spec {l r : BT K V} {lim : Nat} (h : Z s c (.node l x r) [] E) (hl : l ≠ .nil)
    (hlim : l.height ≤ lim) :
    ∃ cl ml m s', l = plug cl (.node ml m .nil) ∧ (∀ f ∈ cl, f.1 = true) ∧
      s.removeTwoChildren x.idx l.root lim = .ok (s', decide (m.tag = 0), ml.root,
        if ml.root = 0 then some (par (cl ++ (false, m.setTag x.tag, r) :: c),
          hdir (cl ++ (false, m.setTag x.tag, r) :: c)) else none) ∧
      Z s' (cl ++ (false, m.setTag x.tag, r) :: c) ml [x.ent] (lft c ++ (l.ents ++ r.ents) ++ rgt c) := by
  have hL := Z.down (d := false) h
  obtain ⟨cl, ml, m, el, htr, efm⟩ := hL.findMax lim hl hlim
  subst el
  have hM := hL.downs
  have hMr := Z.idx_rng (d := false) hM
  have hXr := Z.idx_rng (d := false) h
  have gp := Z.getParent' (d := false) hM
  have gl := Z.getLeft hM
  have gb := hM.isBlack
  rw [tag_node, root_node] at gb
  obtain ⟨x1, x2, x3, x4⟩ := Z.regs (d := false) h
  have hrgt := rgt_of_true cl htr
  have hents : (plug cl (.node ml m .nil)).ents = lft cl ++ ml.ents ++ [m.ent] := by
    rw [ents_plug, hrgt]; simp
  have hE := h.ents
  simp only [ents_node, hents] at hE
  -- node indices in the left subtree etc.
  have dX := Z.dis (d := false) h
  have dM := Z.dis (d := false) hM
  -- final step
  have fin : ∀ (s2 : RedBlackTree K V M) (l' : BT K V) (q : Nat), l' = plug cl ml →
      RBCtx s2.rg s2.root c x.idx → s2.rg x.idx 2 = par c → s2.rg x.idx 1 = r.root → s2.rg x.idx 3 = x.tag →
      RBShape s2.rg q (.node l' m .nil) → RBShape s2.rg x.idx r → RBase s2.allocator E →
      ∃ s', (∀ (α : Type) (k : RedBlackTree K V M → R α), (do
          let t ← s2.transplant x.idx m.idx
          let t ← t.connect m.idx (← t.getRight x.idx) RIGHT
          let t ← t.colorNode m.idx (← t.getColor x.idx)
          k t) = k s') ∧
        Z s' (cl ++ (false, m.setTag x.tag, r) :: c) ml [x.ent]
          (lft c ++ ((plug cl (.node ml m .nil)).ents ++ r.ents) ++ rgt c) := by
    intro s2 l' q el hc hx2 hx1 hx3 hm hr hb
    have hl' : l'.ents = lft cl ++ ml.ents := by rw [el, ents_plug, hrgt]; simp
    have eE : lft c ++ (l'.ents ++ m.ent :: r.ents) ++ rgt c =
        lft c ++ ((plug cl (.node ml m .nil)).ents ++ r.ents) ++ rgt c := by
      rw [hents, hl']; simp
    obtain ⟨s', e', z'⟩ := graft_spec (l := l') hc hx2 hx1 hx3 hm hr (hb.perm (by
      rw [eE, ← hE, hents]
      simp only [List.append_assoc, List.cons_append, List.nil_append]
      refine List.Perm.trans ?_ List.perm_middle
      refine List.Perm.trans ?_ ((List.perm_middle (l₁ := lft cl)).append_left _)
      refine ((List.Perm.append_left _ ?_).append_left _)
      refine List.Perm.trans ?_ List.perm_middle
      exact (List.Perm.swap _ _ _).append_left _))
    rw [eE] at z'
    refine ⟨s', e', ?_⟩
    have := Z.down (d := false) z'
    rw [el] at this
    exact this.downs
  unfold removeTwoChildren
  rw [efm, except_bind_ok, gp, except_bind_ok, gl, except_bind_ok, gb, except_bind_ok, except_bind_ok]
  by_cases hcl : cl = []
  · -- the maximum is the left child itself
    subst hcl
    simp only [List.nil_append, par, ne_eq, not_true, if_false, plug]
    simp only [plug] at hL h x2
    obtain ⟨s', e', z'⟩ := fin s ml x.idx rfl (by simpa using h.cshape) x1 x3 x4 hL.shape
      ((RBShape_br (d := false)).1 h.shape).2.2.2.2.2 h.base
    refine ⟨[], ml, m, s', rfl, by simp, ?_, z'⟩
    by_cases h0 : ml.root = 0
    · have gl' : s.isLeaf m.idx = .ok true := by
        unfold isLeaf
        rw [gl, Z.getRight hM, except_bind_ok, h0]; simp [SENTINEL]
      simp only [h0, SENTINEL, if_true, gl', except_bind_ok, rassert, LEFT, except_pure]
      rw [e']; rfl
    · simp only [h0, SENTINEL, if_false, except_bind_ok, except_pure]
      rw [e']
  · -- the maximum is deeper
    have hpm := par_mem hcl
    have hpe : ∀ c', par (cl ++ c') = par cl := fun c' => par_append cl c' hcl
    have hde : ∀ c', hdir (cl ++ c') = RIGHT := by
      intro c'
      cases cl with
      | nil => exact absurd rfl hcl
      | cons f cl => obtain ⟨e, y, z⟩ := f; have := htr (e, y, z) (by simp); simp only at this; subst this; rfl
    have hpx : par (cl ++ (false, x, r) :: c) ≠ x.idx := by
      rw [hpe]; intro e
      have := hM.nd
      rw [cids_append] at this
      obtain ⟨_, h2, _⟩ := List.nodup_append.1 this
      obtain ⟨_, _, h5⟩ := List.nodup_append.1 h2
      exact h5 _ hpm x.idx (by simp [cids]) e
    have hnd := hM.nd
    simp only [ids_node, ids_nil] at hnd
    obtain ⟨na, nb, nc⟩ := List.nodup_append.1 hnd
    obtain ⟨nml, _, nmm⟩ := List.nodup_append.1 na
    have hmm : m.idx ∉ ml.ids := fun h => nmm _ h _ (by simp) rfl
    have hmc : m.idx ∉ cids (cl ++ (false, x, r) :: c) := fun h => nc m.idx (by simp) _ h rfl
    obtain ⟨m1, m2, m3, m4, m5, m6⟩ := hM.shape
    obtain ⟨s1, e1, b1, sh1, cs1, fr1⟩ := transplant_Z (t' := ml) hM.cshape m3 m5
      (List.nodup_append.2 ⟨nml, nb, fun a ha b hb => nc a (by simp [ha]) b hb⟩) hmc hMr.1 hMr.2 hM.base
      (fun i hi => hM.live (by simp only [ids_node, ids_nil]; rcases hi with hi | hi <;> simp [hi]))
    have fm : ∀ q, s1.rg m.idx q = s.rg m.idx q := by
      intro q
      refine fr1 _ q (fun h => ?_) (fun h => ?_)
      · by_cases hn : ml = .nil
        · subst hn; have := h.1; simp at this; omega
        · exact hmm (h.1 ▸ root_mem hn)
      · exact hmc (h.1 ▸ par_mem (by simp))
    have z1 : Z s1 (cl ++ (false, x, r) :: c) ml [m.ent]
        (lft (cl ++ (false, x, r) :: c) ++ ml.ents ++ rgt (cl ++ (false, x, r) :: c)) := by
      refine ⟨sh1, cs1, rfl, b1.perm ?_⟩
      simp only [List.nil_append]
      rw [← hM.ents]
      simp only [ents_node, ents_nil, List.append_assoc, List.cons_append, List.nil_append]
      exact (List.perm_middle.append_left _).trans List.perm_middle
    have z1x := z1.ups
    have z1u := Z.up z1x
    rw [br_false] at z1u
    -- connect the maximum with the left subtree
    have hdx := Z.dis (d := false) z1u
    have hml' : m.idx ∉ (plug cl ml).ids := by
      rw [(ids_plug_perm cl ml).mem_iff]
      rw [cids_append] at hmc
      simp only [List.mem_append, not_or] at hmc ⊢
      exact ⟨hmm, hmc.1⟩
    obtain ⟨s2, e2, rt2, b2, k2, p2, fr2⟩ := connect_Z (s := s1) (a := plug cl ml) z1.base (m := m.idx) (by simp)
      (fun i hi => z1u.live (Or.inl (by simp [hi]))) hml' false
    simp only [Bool.toNat_false] at e2 k2 fr2
    have hmx : m.idx ≠ x.idx := by
      rintro e; exact hmc (by rw [cids_append, e]; simp [cids])
    have hmr : m.idx ∉ r.ids := by
      intro e; exact hmc (by rw [cids_append]; simp [cids, e])
    have hmcc : m.idx ∉ cids c := by
      intro e; exact hmc (by rw [cids_append]; simp [cids, e])
    have hrr : ∀ i, 1 ≤ i → i ∉ (plug cl ml).ids → i ≠ (plug cl ml).root := by
      rintro i hi hn rfl
      exact hn (root_mem (plug_ne_nil (Or.inr hcl)))
    have hi1 : ∀ i, i ∈ r.ids ∨ i ∈ cids c → 1 ≤ i := by
      intro i hi
      exact (z1u.rng (by simp only [ids_node]; rcases hi with hi | hi <;> simp [hi])).1
    obtain ⟨u1, u2, u3, u4, u5, u6⟩ := z1u.shape
    have fx2 : ∀ q, s2.rg x.idx q = s1.rg x.idx q := fun q =>
      fr2 _ q (fun h => hmx h.1.symm) (fun h => hrr _ hXr.1 hdx.xa h.1)
    obtain ⟨s', e', z'⟩ := fin s2 (plug cl ml) (s.rg m.idx 2) rfl
      (by
        rw [rt2]
        refine RBCtx.frame0 (by simpa using z1u.cshape) (fun i hi q => fr2 i q (fun h => hmcc (h.1 ▸ hi)) (fun h => ?_))
        exact hrr _ (hi1 i (Or.inr hi)) (fun hh => hdx.ac i hh hi) h.1)
      (by rw [fx2]; exact u3) (by rw [fx2]; exact u2) (by rw [fx2]; exact u4)
      ⟨k2, by
          rw [fr2 _ _ (by omega) (by omega), fm]; exact m2, by
          rw [fr2 _ _ (by omega) (fun h => hrr _ hMr.1 hml' h.1), fm], by
          rw [fr2 _ _ (by omega) (by omega), fm]; exact m4,
        u5.frame (fun i hi q hn => fr2 i q (fun h => hml' (h.1 ▸ hi)) hn) p2 hdx.na, trivial⟩
      (u6.frame0 (fun i hi q => fr2 i q (fun h => hmr (h.1 ▸ hi)) (fun h => hrr _ (hi1 i (Or.inl hi)) (fun hh => hdx.ab i hh hi) h.1)))
      (b2.perm (by
        rw [← hE]
        simp only [lft_append, rgt_append, hrgt, lft, rgt, List.append_assoc, List.cons_append, List.nil_append,
          Bool.false_eq_true, if_false, List.append_nil]
        refine List.Perm.trans List.perm_middle.symm ?_
        refine List.Perm.append_left _ ?_
        refine List.Perm.trans List.perm_middle.symm ?_
        refine List.Perm.append_left _ ?_
        exact List.perm_middle.symm))
    refine ⟨cl, ml, m, s', rfl, htr, ?_, z'⟩
    rw [root_node] at e1
    rw [if_pos hpx, e1, except_bind_ok, Z.getLeft z1u, except_bind_ok]
    simp only [LEFT]
    rw [e2, except_bind_ok]
    simp only [except_pure, except_bind_ok]
    rw [e', hpe, hpe, hde]; rfl

/-- freeing a node that is no longer linked -/
theorem Z.free {X : List (Nat × K × V)} (h : Z s c t (x.ent :: X) E) :
    ∃ s', s.removeAllocatorNode x.idx = .ok s' ∧ Z (kn := kn.push x.idx) s' c t X E := by
  have hb := h.base
  have hxl : x.idx ∈ (x.ent :: X ++ E).map Prod.fst := by simp
  have hxr := hb.range hxl
  have b1 := (((hb.setReg 2 0 (Or.inl hxl)).setReg 3 0 (Or.inl hxl)).setReg 0 0 (Or.inl hxl)).setReg 1 0 (Or.inl hxl)
  have rg1 : ∀ i q, ((((s.allocator.setReg x.idx 2 0).setReg x.idx 3 0).setReg x.idx 0 0).setReg x.idx 1 0).reg i q =
      if i = x.idx ∧ q < 4 then 0 else s.allocator.reg i q := by
    intro i q
    rw [rset _ hxr.2 (by omega), rset _ hxr.2 (by omega), rset _ hxr.2 (by omega), rset _ hxr.2 (by omega)]
    by_cases hi : i = x.idx
    · subst hi
      simp only [true_and, hxr.1, and_true]
      by_cases h4 : q < 4
      · rw [if_pos h4]
        have : q = 0 ∨ q = 1 ∨ q = 2 ∨ q = 3 := by omega
        rcases this with rfl | rfl | rfl | rfl <;> simp
      · rw [if_neg h4, if_neg (by omega), if_neg (by omega), if_neg (by omega), if_neg (by omega)]
    · simp [hi]
  obtain ⟨a', e', b', f'⟩ := Base.remove (E := X ++ E) (by simpa [GN.ent] using b1)
    (fun r hr _ => by rw [rg1, if_pos ⟨rfl, hr⟩])
  have hnx : ∀ i, i ∈ t.ids ∨ i ∈ cids c → i ≠ x.idx := by
    rintro i hi rfl
    have := h.perm.nodup_iff.1 hb.nodup
    simp only [List.map_cons, GN.ent_fst, List.cons_append] at this
    refine (List.nodup_cons.1 this).1 ?_
    simp only [List.mem_append]
    exact Or.inr hi
  have fr : ∀ i, i ≠ x.idx → ∀ r, a'.reg i r = s.allocator.reg i r := by
    intro i hi r
    rw [f' _ _ hi, rg1, if_neg (fun h => hi h.1)]
  refine ⟨⟨s.root, a'⟩, ?_, @Z.mk _ _ _ (kn.push x.idx) _ _ _ _ _ (h.shape.frame0 (fun i hi => fr i (hnx i (Or.inl hi))))
    (h.cshape.frame0 (fun i hi => fr i (hnx i (Or.inr hi)))) h.ents b'⟩
  unfold removeAllocatorNode
  rw [NodeAllocator.clearRegister_ok _ hxr.2 (by simp [PARENT]), except_bind_ok,
    NodeAllocator.clearRegister_ok _ hxr.2 (by simp [COLOR]), except_bind_ok,
    NodeAllocator.clearRegister_ok _ hxr.2 (by simp [LEFT]), except_bind_ok,
    NodeAllocator.clearRegister_ok _ hxr.2 (by simp [RIGHT]), except_bind_ok]
  simp only [PARENT, COLOR, LEFT, RIGHT]
  rw [e']; rfl

/-- valid zipper -/
def Good (c : Ctx K V) (t : BT K V) : Prop :=
  ∃ n, RB t n ∧ CRB c n ∧ (ctag c = 1 → t.tag = 0) ∧ (c = [] → t.tag = 0)

theorem Good.plug {c : Ctx K V} {t : BT K V} (h : Good c t) : Good [] (Ctx.plug c t) := by
  obtain ⟨n, h1, h2, h3, h4⟩ := h
  obtain ⟨m, k1, k2⟩ := h2.plug h1 h3
  refine ⟨m, k1, trivial, by simp [ctag], fun _ => ?_⟩
  by_cases hc : c = []
  · subst hc; exact h4 rfl
  · exact k2 hc

theorem Good.root_black {t : BT K V} (h : Good [] t) : t.tag = 0 := by
  obtain ⟨_, _, _, _, h⟩ := h
  exact h rfl

theorem Good.down {c : Ctx K V} {d : Bool} {a b : BT K V} {x : GN K V} (h : Good c (br d a x b)) :
    Good ((d, x, b) :: c) a := by
  obtain ⟨n, h1, h2, h3, h4⟩ := h
  rw [tag_br] at h3 h4
  rcases RB_br.1 h1 with ⟨hx, ta, tb, ra, rb⟩ | ⟨hx, m, rfl, ra, rb⟩
  · have hct : ctag c = 0 := by
      rcases h2.tag_or with h | h
      · exact h
      · have := h3 h; omega
    exact ⟨n, ra, ⟨rb, Or.inl ⟨hx, tb, fun h => by have := h4 h; omega, hct, h2⟩⟩, fun _ => ta, by simp⟩
  · exact ⟨m, ra, ⟨rb, Or.inr ⟨hx, h2⟩⟩, by simp [ctag, hx], by simp⟩

theorem Good.flip {c : Ctx K V} {d : Bool} {a b : BT K V} {x : GN K V} (h : Good c (br d a x b)) :
    Good c (br (!d) b x a) := by rwa [br_not]

theorem Good.downs : ∀ {c c' : Ctx K V} {t : BT K V}, Good c' (Ctx.plug c t) → Good (c ++ c') t
  | [], _, _, h => h
  | (_, _, _) :: c, _, _, h => (Good.downs (c := c) h).down

theorem CRB.congr_mid {x y : GN K V} {d : Bool} {r : BT K V} {c : Ctx K V} (hxy : x.tag = y.tag) :
    ∀ {cl : Ctx K V} {n : Nat}, CRB (cl ++ (d, x, r) :: c) n → CRB (cl ++ (d, y, r) :: c) n
  | [], n, h => by simpa only [List.nil_append, CRB, hxy] using h
  | (e, z, s) :: cl, n, ⟨hs, h⟩ => by
    refine ⟨hs, ?_⟩
    rcases h with ⟨h1, h2, h3, h4, h5⟩ | ⟨h1, h2⟩
    · refine Or.inl ⟨h1, h2, by simp, ?_, CRB.congr_mid hxy h5⟩
      cases cl with
      | nil => simpa [ctag, hxy] using h4
      | cons f cl => exact h4
    · exact Or.inr ⟨h1, CRB.congr_mid hxy h2⟩

/-- the repair after the node has been freed -/
theorem pivot_spec {s : RedBlackTree K V M} {c : Ctx K V} {t : BT K V} {n lim : Nat} {bl : Bool} {pd : Option (Nat × Nat)}
    (h : Z s c t [] E) (hb : RB t n) (hbl : bl = true → CRB c (n + 1))
    (hrd : bl = false → CRB c n ∧ (ctag c = 1 → t.tag = 0) ∧ c ≠ [])
    (hpd : c ≠ [] → pd = if t.root = 0 then some (par c, hdir c) else none) (hlim : c.length ≤ lim) :
    ∃ s' t', (if bl then (if s.isRoot t.root then s.colorBlack t.root else s.fixRemove t.root pd lim)
      else (return s : R (RedBlackTree K V M))) = .ok s' ∧ Z s' [] t' [] E ∧ Good [] t' ∧
      t'.rsk = delUp c (t.rsk, bl) := by
  cases bl with
  | false =>
    obtain ⟨h1, h2, h3⟩ := hrd rfl
    have hg : Good [] (plug c t) := Good.plug ⟨n, hb, h1, h2, fun e => absurd e h3⟩
    exact ⟨s, plug c t, rfl, h.unzip, hg, by rw [delUp_false, blacken_of_black (by simp [hg.root_black])]⟩
  | true =>
    have hc1 := hbl rfl
    simp only [if_true]
    by_cases hc : c = []
    · subst hc
      have hroot : s.isRoot t.root = true := by simp [RedBlackTree.isRoot, h.root_nil]
      rw [hroot, if_pos rfl]
      by_cases ht : t = .nil
      · subst ht
        refine ⟨s, .nil, ?_, h, ⟨0, rfl, trivial, by simp, by simp⟩, rfl⟩
        unfold RedBlackTree.colorBlack
        rw [BT.root_nil, NodeAllocator.setRegister_ok _ (by omega) (by simp [COLOR]), NodeAllocator.setReg_zero]
        rfl
      · obtain ⟨a, x, b, rfl⟩ := BT.as_br ht false
        obtain ⟨s2, e2, z2⟩ := h.colorBlack
        obtain ⟨m, hm⟩ := hb.blacken
        exact ⟨s2, _, by simpa using e2, z2, ⟨m, hm, trivial, by simp, by simp⟩, by simp [delUp]⟩
    · obtain ⟨⟨d, p, w⟩, c, rfl⟩ := List.exists_cons_of_ne_nil hc
      simp only [List.length_cons] at hlim
      have hfl := fixRemoveLoop_spec lim s d p w c t n (by omega) h hb hc1
      have hpd' := hpd hc
      have hpr := (Z.idx_rng h.up)
      obtain ⟨s', t', m, e', z', r', b', k'⟩ := hfl
      refine ⟨s', t', ?_, z', ⟨m, r', trivial, by simp [ctag], fun _ => b'⟩, k'⟩
      have hroot : s.isRoot t.root = false := by
        by_cases ht : t = .nil
        · subst ht
          have hu := h.unzip
          have : plug ((d, p, w) :: c) BT.nil ≠ BT.nil := plug_ne_nil (Or.inr (by simp))
          simp only [RedBlackTree.isRoot, hu.root_nil, decide_eq_false_iff_not]
          intro e
          exact this (hu.root_eq_zero.1 (by simpa using e))
        · rw [h.isRoot ht]; simp
      rw [hroot]
      simp only [Bool.false_eq_true, if_false]
      unfold fixRemove
      rw [h.getParent, except_bind_ok, hpd']
      by_cases ht : t = .nil
      · subst ht
        have : s.childDir 0 0 = .ok 0 := by
          unfold RedBlackTree.childDir
          rw [getLeft_ok (by omega), getRight_ok (by omega)]
          simp [LEFT]
        simp only [BT.root_nil, if_true, this, except_bind_ok, Option.getD_some, par, hdir]
        exact e'
      · have h0 : ¬ t.root = 0 := fun e => ht (h.root_eq_zero.1 e)
        simp only [h0, if_false, par, h.childDir ht, except_bind_ok, Option.getD_none]
        exact e'

theorem Z.cut {l r t' : BT K V} (h : Z s c (.node l x r) [] E) (ht : RBShape s.rg x.idx t')
    (hent : l.ents ++ r.ents = t'.ents) :
    ∃ s', s.transplant x.idx t'.root = .ok s' ∧ Z s' c t' [x.ent] (lft c ++ t'.ents ++ rgt c) := by
  have hx := Z.idx_rng (d := false) h
  have hd := Z.dis (d := false) h
  have hids : t'.ids = l.ids ++ r.ids := by simp [BT.ids, ← hent]
  obtain ⟨k1, k2, k3, k4, k5, k6⟩ := h.shape
  obtain ⟨s1, e1, b1, sh1, cs1, fr1⟩ := transplant_Z (t' := t') h.cshape k3 ht
    (by
      rw [hids]
      refine List.nodup_append.2 ⟨List.nodup_append.2 ⟨hd.na, hd.nb, fun a ha b hb e => hd.ab a ha (e ▸ hb)⟩, hd.nc, ?_⟩
      intro a ha b hb e
      subst e
      rcases List.mem_append.1 ha with ha | ha
      · exact hd.ac a ha hb
      · exact hd.bc a ha hb)
    hd.xc hx.1 hx.2 h.base
    (fun i hi => h.live (by
      rw [hids] at hi
      simp only [ids_node, List.mem_append, List.mem_cons]
      simp only [List.mem_append] at hi
      rcases hi with (hi | hi) | hi <;> simp [hi]))
  refine ⟨s1, e1, sh1, cs1, rfl, b1.perm ?_⟩
  rw [← h.ents, ← hent]
  simp only [ents_node, List.append_assoc, List.cons_append, List.nil_append]
  exact (List.perm_middle.append_left _).trans List.perm_middle

theorem Z.isLeaf {l r : BT K V} (h : Z s c (.node l x r) X E) :
    s.isLeaf x.idx = .ok (decide (l.root = 0 ∧ r.root = 0)) := by
  unfold RedBlackTree.isLeaf
  rw [h.getLeft, except_bind_ok, h.getRight, except_bind_ok]
  by_cases h1 : l.root = 0
  · simp [h1, SENTINEL]; rfl
  · simp [h1, SENTINEL]

theorem removeTreeNode_spec {l r : BT K V} {lim : Nat} (h : Z s c (.node l x r) [] E) (hg : Good c (.node l x r))
    (hlim : c.length + (BT.node l x r).height ≤ lim) :
    ∃ s' t', s.removeTreeNode x.idx lim = .ok s' ∧ Z (kn := kn.push x.idx) s' [] t' [] (lft c ++ (l.ents ++ r.ents) ++ rgt c) ∧ Good [] t' ∧
      t'.rsk = delUp c (RBTree.join (decide (x.tag = 1)) l.rsk r.rsk) := by
  have hx := Z.idx_rng (d := false) h
  have hzl := Z.down (d := false) h
  have hzr := Z.down (d := true) h
  have hgl := Good.down (d := false) hg
  have hisb := h.isBlack
  rw [tag_node, root_node] at hisb
  -- everything after the unlinking
  have fin : ∀ (s1 : RedBlackTree K V M) (c1 : Ctx K V) (t1 : BT K V) (n : Nat) (bl : Bool) (pd : Option (Nat × Nat)),
      Z s1 c1 t1 [x.ent] (lft c ++ (l.ents ++ r.ents) ++ rgt c) → RB t1 n → (bl = true → CRB c1 (n + 1)) →
      (bl = false → CRB c1 n ∧ (ctag c1 = 1 → t1.tag = 0) ∧ c1 ≠ []) →
      (c1 ≠ [] → pd = if t1.root = 0 then some (par c1, hdir c1) else none) → c1.length ≤ lim →
      ∃ s' t', (do
          let t ← s1.removeAllocatorNode x.idx
          if bl then
            if t.isRoot t1.root then t.colorBlack t1.root
            else t.fixRemove t1.root pd lim
          else return t) = .ok s' ∧ Z (kn := kn.push x.idx) s' [] t' [] (lft c ++ (l.ents ++ r.ents) ++ rgt c) ∧ Good [] t' ∧
            t'.rsk = delUp c1 (t1.rsk, bl) := by
    intro s1 c1 t1 n bl pd z1 r1 hb hr hp hl1
    obtain ⟨s2, e2, z2⟩ := z1.free
    rw [e2, except_bind_ok]
    exact pivot_spec z2 r1 hb hr hp hl1
  -- balance when the node itself disappears
  have bal : ∀ t1 : BT K V, (l = .nil ∧ t1 = r) ∨ (r = .nil ∧ t1 = l) → ∃ n, RB t1 n ∧
      (decide (x.tag = 0) = true → CRB c (n + 1)) ∧
      (decide (x.tag = 0) = false → CRB c n ∧ (ctag c = 1 → t1.tag = 0) ∧ c ≠ []) := by
    intro t1 ht1
    obtain ⟨n, h1, h2, h3, h4⟩ := hg
    rcases h1 with ⟨hx, tl, tr, rl, rr⟩ | ⟨hx, m, rfl, rl, rr⟩
    · refine ⟨n, ?_, fun h => by simp [hx] at h, fun _ => ⟨h2, fun _ => ?_, fun hc => ?_⟩⟩
      · rcases ht1 with ⟨_, rfl⟩ | ⟨_, rfl⟩ <;> assumption
      · rcases ht1 with ⟨_, rfl⟩ | ⟨_, rfl⟩ <;> assumption
      · have := h4 hc; simp at this; omega
    · refine ⟨m, ?_, fun _ => h2, fun h => by simp [hx] at h⟩
      rcases ht1 with ⟨_, rfl⟩ | ⟨_, rfl⟩ <;> assumption
  have hxt : (!decide (x.tag = 1)) = decide (x.tag = 0) := by
    obtain ⟨n, h1, _⟩ := hg
    have := h1.tag_or
    rw [tag_node] at this
    rcases this with h | h <;> simp [h]
  obtain ⟨k1, k2, k3, k4, k5, k6⟩ := h.shape
  unfold removeTreeNode
  rw [hisb, except_bind_ok, h.getLeft, except_bind_ok, h.getRight, except_bind_ok, h.isLeaf, except_bind_ok]
  by_cases hl : l = .nil
  · subst hl
    by_cases hr : r = .nil
    · -- leaf
      subst hr
      obtain ⟨n, b1, b2, b3⟩ := bal .nil (Or.inl ⟨rfl, rfl⟩)
      rw [rsk_nil, rjoin_leaf, hxt, ← rsk_nil (K := K) (V := V)]
      have hroot := h.isRoot (by simp)
      rw [root_node] at hroot
      simp only [BT.root_nil, and_self, decide_true, if_true, hroot]
      by_cases hc : c = []
      · subst hc
        simp only [decide_true, not_true, if_false, except_pure, except_bind_ok]
        refine fin ⟨SENTINEL, s.allocator⟩ [] .nil n _ _ ⟨trivial, rfl, by simp [lft, rgt], ?_⟩ b1 b2 b3 (fun h => absurd rfl h) (by simp)
        have := h.base
        rw [← h.ents] at this
        simpa [lft, rgt] using this
      · obtain ⟨s1, e1, z1⟩ := h.cut (t' := .nil) trivial rfl
        have hp0 : ¬ par c = SENTINEL := fun e => hc (h.par_eq_zero.1 e)
        have hcd : s.childDir (par c) x.idx = .ok (hdir c) := by
          cases c with
          | nil => exact absurd rfl hc
          | cons f c => obtain ⟨e, y, z⟩ := f; exact h.childDir (by simp)
        unfold transplant at e1
        rw [Z.getParent' (d := false) h, except_bind_ok] at e1
        simp only [hp0, if_false, hcd, except_bind_ok, BT.root_nil] at e1
        simp only [hc, decide_false, Bool.false_eq_true, not_false_iff, if_true, Z.getParent' (d := false) h, except_bind_ok, hcd,
          SENTINEL, e1, except_pure]
        exact fin s1 c .nil n _ _ z1 b1 b2 b3 (fun _ => by simp) (by omega)
    · -- only a right child
      obtain ⟨s1, e1, z1⟩ := h.cut (t' := r) k6 rfl
      obtain ⟨n, b1, b2, b3⟩ := bal r (Or.inl ⟨rfl, rfl⟩)
      rw [rsk_nil, RBTree.join, hxt]
      have hr0 : ¬ r.root = 0 := fun e => hr (hzr.root_eq_zero.1 e)
      simp only [hr0, and_false, decide_false, BT.root_nil, SENTINEL, if_true, e1, except_bind_ok, except_pure]
      exact fin s1 c r n _ _ z1 b1 b2 b3 (fun _ => by simp [hr0]) (by omega)
  · have hl0 : ¬ l.root = 0 := fun e => hl (hzl.root_eq_zero.1 e)
    by_cases hr : r = .nil
    · subst hr
      obtain ⟨s1, e1, z1⟩ := h.cut (t' := l) k5 (by simp)
      obtain ⟨n, b1, b2, b3⟩ := bal l (Or.inr ⟨rfl, rfl⟩)
      rw [rsk_nil, rjoin_leaf, hxt]
      simp only [hl0, false_and, decide_false, BT.root_nil, SENTINEL, if_true, if_false, e1, except_bind_ok, except_pure]
      exact fin s1 c l n _ _ (by simpa using z1) b1 b2 b3 (fun _ => by simp [hl0]) (by omega)
    · have hr0 : ¬ r.root = 0 := fun e => hr (hzr.root_eq_zero.1 e)
      obtain ⟨cl, ml, m, s1, el, htr, e1, z1⟩ := removeTwoChildren_spec (lim := lim) h hl (by simp only [height] at hlim; omega)
      have hcl : (cl ++ (false, m.setTag x.tag, r) :: c).length ≤ lim := by
        have hp := height_plug cl (.node ml m .nil)
        rw [← el] at hp
        simp only [height, List.length_append, List.length_cons] at hlim hp ⊢
        omega
      simp only [hl0, hr0, false_and, decide_false, SENTINEL, if_false, e1, except_bind_ok, Bool.false_eq_true]
      rw [el] at hgl
      obtain ⟨n, g1, g2, g3, g4⟩ := hgl.downs
      have hxm : x.tag = (m.setTag x.tag).tag := rfl
      have hjoin : delUp c (RBTree.join (decide (x.tag = 1)) l.rsk r.rsk) =
          delUp (cl ++ (false, m.setTag x.tag, r) :: c) (ml.rsk, decide (m.tag = 0)) := by
        have hmt : (!decide (m.tag = 1)) = decide (m.tag = 0) := by
          have := g1.tag_or
          rw [tag_node] at this
          rcases this with h | h <;> simp [h]
        obtain ⟨c', a, y, b, q1, q2⟩ := popMax_plug (ci := cl) (t := .node ml m .nil) (k := m.key)
          (T := (ml.rsk, decide (m.tag = 0))) htr ⟨_, _, _, _, rfl, by simp [RBTree.popMax, hmt]⟩
        rw [← el] at q1
        rw [rjoin_two (fun e => hr (rsk_eq_leaf.1 e)) q1 q2, delUp_append]
        rfl
      rw [hjoin]
      rcases g1 with ⟨hm, tl, _, rl, _⟩ | ⟨hm, n', rfl, rl, _⟩
      · exact fin s1 _ ml n _ _ z1 rl (fun h => by simp [hm] at h)
          (fun _ => ⟨CRB.congr_mid hxm g2, fun _ => tl, by simp⟩) (fun _ => rfl) hcl
      · exact fin s1 _ ml n' _ _ z1 rl (fun _ => CRB.congr_mid hxm g2) (fun h => by simp [hm] at h) (fun _ => rfl) hcl

end RedBlackTree
end Sokoban
