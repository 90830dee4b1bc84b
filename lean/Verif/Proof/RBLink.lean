import Verif.Model.RedBlack
import Verif.Proof.Tree

/-
The links of a red-black tree in memory and the effect of the elementary pointer operations.
-/
namespace Sokoban
open BT Ctx
variable {K V : Type} {M : Nat}

/-- registers of the nodes of a tree whose root has parent `p` -/
def RBShape (reg : Nat → Nat → Nat) : Nat → BT K V → Prop
  | _, .nil => True
  | p, .node l x r => reg x.idx 0 = l.root ∧ reg x.idx 1 = r.root ∧ reg x.idx 2 = p ∧
      reg x.idx 3 = x.tag ∧ RBShape reg x.idx l ∧ RBShape reg x.idx r

/-- registers of the nodes of a context whose hole contains a tree with root `h` -/
def RBCtx (reg : Nat → Nat → Nat) (root : Nat) : Ctx K V → Nat → Prop
  | [], h => root = h
  | (d, x, s) :: c, h => reg x.idx d.toNat = h ∧ reg x.idx (!d).toNat = s.root ∧
      reg x.idx 2 = par c ∧ reg x.idx 3 = x.tag ∧ RBShape reg x.idx s ∧ RBCtx reg root c x.idx

theorem RBShape_br {reg : Nat → Nat → Nat} {p : Nat} {d : Bool} {a b : BT K V} {x : GN K V} :
    RBShape reg p (br d a x b) ↔ reg x.idx d.toNat = a.root ∧ reg x.idx (!d).toNat = b.root ∧
      reg x.idx 2 = p ∧ reg x.idx 3 = x.tag ∧ RBShape reg x.idx a ∧ RBShape reg x.idx b := by
  cases d
  · simp [RBShape]
  · simp only [br_true, RBShape, Bool.toNat_true, Bool.not_true, Bool.toNat_false]
    constructor
    · rintro ⟨h1, h2, h3, h4, h5, h6⟩; exact ⟨h2, h1, h3, h4, h6, h5⟩
    · rintro ⟨h1, h2, h3, h4, h5, h6⟩; exact ⟨h2, h1, h3, h4, h6, h5⟩

theorem RBShape.frame0 {reg reg' : Nat → Nat → Nat} : ∀ {t : BT K V} {p : Nat}, RBShape reg p t →
    (∀ i ∈ t.ids, ∀ r, reg' i r = reg i r) → RBShape reg' p t
  | .nil, _, _, _ => trivial
  | .node l x r, p, ⟨h1, h2, h3, h4, h5, h6⟩, hr => by
    have hx := hr x.idx (by simp)
    exact ⟨by rw [hx, h1], by rw [hx, h2], by rw [hx, h3], by rw [hx, h4],
      h5.frame0 (fun i hi => hr i (by simp [hi])), h6.frame0 (fun i hi => hr i (by simp [hi]))⟩

theorem RBShape.frame {reg reg' : Nat → Nat → Nat} {t : BT K V} {p p' : Nat} (h : RBShape reg p t)
    (hr : ∀ i ∈ t.ids, ∀ r, ¬ (i = t.root ∧ r = 2) → reg' i r = reg i r)
    (hp : t ≠ .nil → reg' t.root 2 = p') (nd : t.ids.Nodup) : RBShape reg' p' t := by
  cases t with
  | nil => trivial
  | node l x r =>
    obtain ⟨h1, h2, h3, h4, h5, h6⟩ := h
    have hx := hr x.idx (by simp)
    simp only [ids_node] at nd
    obtain ⟨n1, n2, n3⟩ := List.nodup_append.1 nd
    have nx := (List.nodup_cons.1 n2).1
    refine ⟨by rw [hx _ (by simp), h1], by rw [hx _ (by simp), h2], hp (by simp),
      by rw [hx _ (by simp), h4], h5.frame0 ?_, h6.frame0 ?_⟩
    · intro i hi r
      refine hr i (by simp [hi]) r ?_
      rintro ⟨rfl, _⟩; exact n3 _ hi _ (by simp) rfl
    · intro i hi r
      refine hr i (by simp [hi]) r ?_
      rintro ⟨rfl, _⟩; exact nx hi

theorem RBCtx.frame0 {reg reg' : Nat → Nat → Nat} {root : Nat} : ∀ {c : Ctx K V} {h : Nat},
    RBCtx reg root c h → (∀ i ∈ cids c, ∀ r, reg' i r = reg i r) → RBCtx reg' root c h
  | [], _, h, _ => h
  | (d, x, s) :: c, h, ⟨h1, h2, h3, h4, h5, h6⟩, hr => by
    have hx := hr x.idx (by simp [cids])
    exact ⟨by rw [hx, h1], by rw [hx, h2], by rw [hx, h3], by rw [hx, h4],
      h5.frame0 (fun i hi => hr i (by simp [cids, hi])), h6.frame0 (fun i hi => hr i (by simp [cids, hi]))⟩

/-- direction register of the hole -/
def hdir : Ctx K V → Nat
  | [] => 0
  | (d, _, _) :: _ => d.toNat

theorem RBCtx.frame {reg reg' : Nat → Nat → Nat} {root root' : Nat} {c : Ctx K V} {h h' : Nat}
    (hc : RBCtx reg root c h)
    (hr : ∀ i ∈ cids c, ∀ r, ¬ (i = par c ∧ r = hdir c) → reg' i r = reg i r)
    (hn : c = [] → root' = h') (hh : c ≠ [] → root' = root ∧ reg' (par c) (hdir c) = h')
    (nd : (cids c).Nodup) : RBCtx reg' root' c h' := by
  cases c with
  | nil => exact hn rfl
  | cons f c =>
    obtain ⟨d, x, s⟩ := f
    obtain ⟨h1, h2, h3, h4, h5, h6⟩ := hc
    obtain ⟨e1, e2⟩ := hh (by simp)
    subst e1
    have hx := hr x.idx (by simp [cids])
    simp only [cids] at nd
    have nx := (List.nodup_cons.1 nd).1
    simp only [List.mem_append, not_or] at nx
    simp only [par, hdir] at hr hx e2
    refine ⟨e2, by rw [hx _ (by cases d <;> simp), h2], by rw [hx _ (by cases d <;> simp), h3],
      by rw [hx _ (by cases d <;> simp), h4], h5.frame0 ?_, h6.frame0 ?_⟩
    · intro i hi r
      refine hr i (by simp [cids, hi]) r ?_
      rintro ⟨rfl, _⟩; exact nx.1 hi
    · intro i hi r
      refine hr i (by simp [cids, hi]) r ?_
      rintro ⟨rfl, _⟩; exact nx.2 hi

theorem RBShape.links {reg : Nat → Nat → Nat} : ∀ {t : BT K V} {p : Nat}, RBShape reg p t → Links reg t
  | .nil, _, _ => trivial
  | .node _ _ _, _, ⟨h1, h2, _, _, h5, h6⟩ => ⟨h1, h2, h5.links, h6.links⟩

theorem RBShape.plug {reg : Nat → Nat → Nat} {root : Nat} : ∀ {c : Ctx K V} {t : BT K V},
    RBShape reg (par c) t → RBCtx reg root c t.root →
    RBShape reg 0 (Ctx.plug c t) ∧ root = (Ctx.plug c t).root
  | [], t, h, hc => ⟨h, hc⟩
  | (d, x, s) :: c, t, h, ⟨h1, h2, h3, h4, h5, h6⟩ => by
    refine RBShape.plug (c := c) (t := br d t x s) ?_ (by simpa using h6)
    rw [RBShape_br]
    exact ⟨h1, h2, h3, h4, h, h5⟩

namespace RedBlackTree

/-- the node values stored -/
abbrev RBase [kn : Known] (a : NodeAllocator (RBNode K V) M 4) (E : List (Nat × K × V)) : Prop :=
  Base RBNode.mk (fun r => r < 4) a E

/-- registers of the tree -/
abbrev rg (s : RedBlackTree K V M) : Nat → Nat → Nat := s.allocator.reg

/-- The memory holds the tree `t` in context `c`, with entries `E` in order; `X` are nodes which are
allocated but not in the tree. -/
structure Z [kn : Known] (s : RedBlackTree K V M) (c : Ctx K V) (t : BT K V) (X E : List (Nat × K × V)) : Prop where

  shape : RBShape s.rg (par c) t
  cshape : RBCtx s.rg s.root c t.root
  ents : lft c ++ t.ents ++ rgt c = E
  base : RBase s.allocator (X ++ E)

variable {kn : Known} {s : RedBlackTree K V M} {c : Ctx K V} {t : BT K V} {X E : List (Nat × K × V)}
  {d : Bool} {a b : BT K V} {x : GN K V}

theorem Z.forget (h : Z (kn := kn) s c t X E) : Z (kn := kn.quiet) s c t X E :=
  @Z.mk _ _ _ kn.quiet _ _ _ _ _ h.shape h.cshape h.ents h.base.forget

theorem Z.down (h : Z s c (br d a x b) X E) : Z s ((d, x, b) :: c) a X E := by
  obtain ⟨h1, h2, h3, h4⟩ := h
  rw [RBShape_br] at h1
  obtain ⟨k1, k2, k3, k4, k5, k6⟩ := h1
  refine ⟨k5, ⟨k1, k2, k3, k4, k6, by simpa using h2⟩, ?_, h4⟩
  rw [← h3]
  cases d <;> simp [lft, rgt]

theorem Z.up (h : Z s ((d, x, b) :: c) a X E) : Z s c (br d a x b) X E := by
  obtain ⟨h1, ⟨k1, k2, k3, k4, k5, k6⟩, h3, h4⟩ := h
  refine ⟨RBShape_br.2 ⟨k1, k2, k3, k4, h1, k5⟩, by simpa using k6, ?_, h4⟩
  rw [← h3]
  cases d <;> simp [lft, rgt]

theorem Z.flip (h : Z s c (br d a x b) X E) : Z s c (br (!d) b x a) X E := by
  rwa [br_not]

theorem Z.perm (h : Z s c t X E) : ((X ++ E).map Prod.fst).Perm (X.map Prod.fst ++ (t.ids ++ cids c)) := by
  rw [List.map_append, ← h.ents]
  exact (perm_ids c t).append_left _

theorem Z.nd (h : Z s c t X E) : (t.ids ++ cids c).Nodup :=
  (List.nodup_append.1 (h.perm.nodup_iff.1 h.base.nodup)).2.1

theorem Z.live (h : Z s c t X E) {i : Nat} (hi : i ∈ t.ids ∨ i ∈ cids c) : i ∈ (X ++ E).map Prod.fst := by
  rw [h.perm.mem_iff]
  exact List.mem_append_right _ (List.mem_append.2 hi)

theorem Z.rng (h : Z s c t X E) {i : Nat} (hi : i ∈ t.ids ∨ i ∈ cids c) : 1 ≤ i ∧ i ≤ M :=
  h.base.range (h.live hi)

theorem Z.root_le (h : Z s c t X E) : t.root ≤ M := by
  cases t with
  | nil => simp
  | node l x r => exact (h.rng (Or.inl (by simp))).2

theorem Z.par_le (h : Z s c t X E) : par c ≤ M := by
  cases c with
  | nil => simp [par]
  | cons f c => exact (h.rng (Or.inr (par_mem (by simp)))).2

theorem Z.root_eq_zero (h : Z s c t X E) : t.root = 0 ↔ t = .nil := by
  cases t with
  | nil => simp
  | node l x r => have := h.rng (i := x.idx) (Or.inl (by simp)); simp; omega

theorem Z.par_eq_zero (h : Z s c t X E) : par c = 0 ↔ c = [] := by
  cases c with
  | nil => simp [par]
  | cons f c => have := (h.rng (Or.inr (par_mem (c := f :: c) (by simp)))); simp; omega

/-- distinctness facts at a node -/
structure Dis (c : Ctx K V) (d : Bool) (a : BT K V) (x : GN K V) (b : BT K V) : Prop where
  xa : x.idx ∉ a.ids
  xb : x.idx ∉ b.ids
  xc : x.idx ∉ cids c
  ab : ∀ i ∈ a.ids, i ∉ b.ids
  ac : ∀ i ∈ a.ids, i ∉ cids c
  bc : ∀ i ∈ b.ids, i ∉ cids c
  na : a.ids.Nodup
  nb : b.ids.Nodup
  nc : (cids c).Nodup

theorem Z.dis (h : Z s c (br d a x b) X E) : Dis c d a x b := by
  have hn := (((ids_br_perm d a x b).append_right (cids c)).nodup_iff).1 h.nd
  simp only [List.cons_append, List.nodup_cons, List.mem_append, not_or] at hn
  obtain ⟨⟨⟨n1, n2⟩, n3⟩, hn⟩ := hn
  obtain ⟨m1, m2, m3⟩ := List.nodup_append.1 hn
  obtain ⟨l1, l2, l3⟩ := List.nodup_append.1 m1
  exact ⟨n1, n2, n3, fun i hi hb => l3 i hi i hb rfl,
    fun i hi hc => m3 i (by simp [hi]) i hc rfl,
    fun i hi hc => m3 i (by simp [hi]) i hc rfl, l1, l2, m2⟩

theorem reg_set (a : NodeAllocator (RBNode K V) M 4) {i r v k q : Nat} (hk : 1 ≤ k) (hi : i ≤ M) (hr : r < 4) :
    (a.setReg i r v).reg k q = if k = i ∧ q = r then v else a.reg k q :=
  a.reg_setReg' (by omega) hi hr

/-- recolouring the node in focus -/
theorem Z.color (h : Z s c (br d a x b) X E) (v : Nat) :
    Z ⟨s.root, s.allocator.setReg x.idx 3 v⟩ c (br d a (x.setTag v) b) X E := by
  have hd := h.dis
  have hx := h.rng (i := x.idx) (Or.inl (mem_ids_br.2 (Or.inl rfl)))
  have hset : ∀ i q, (s.allocator.setReg x.idx 3 v).reg i q =
      if i = x.idx ∧ q = 3 then v else s.allocator.reg i q := by
    intro i q
    by_cases hi : i = 0
    · subst hi; simp; omega
    · exact reg_set _ (by omega) hx.2 (by omega)
  have hne : ∀ i, i ≠ x.idx → ∀ q, (s.allocator.setReg x.idx 3 v).reg i q = s.allocator.reg i q := by
    intro i hi q; rw [hset, if_neg (fun hc => hi hc.1)]
  have hq : ∀ q, q ≠ 3 → (s.allocator.setReg x.idx 3 v).reg x.idx q = s.allocator.reg x.idx q := by
    intro q hq; rw [hset, if_neg (fun hc => hq hc.2)]
  obtain ⟨k1, k2, k3, k4, k5, k6⟩ := RBShape_br.1 h.shape
  refine ⟨RBShape_br.2 ⟨?_, ?_, ?_, ?_, ?_, ?_⟩, ?_, ?_, ?_⟩
  · exact (hq _ (by cases d <;> simp)).trans k1
  · exact (hq _ (by cases d <;> simp)).trans k2
  · exact (hq _ (by omega)).trans k3
  · exact (hset _ _).trans (if_pos ⟨rfl, rfl⟩)
  · exact k5.frame0 (fun i hi q => hne i (by rintro rfl; exact hd.xa hi) q)
  · exact k6.frame0 (fun i hi q => hne i (by rintro rfl; exact hd.xb hi) q)
  · have := h.cshape
    simp only [root_br] at this ⊢
    exact this.frame0 (fun i hi q => hne i (by rintro rfl; exact hd.xc hi) q)
  · rw [← h.ents]; cases d <;> simp
  · exact h.base.setReg _ _ (Or.inl (h.live (Or.inl (mem_ids_br.2 (Or.inl rfl)))))

theorem rset (a : NodeAllocator (RBNode K V) M 4) {i r v k q : Nat} (hi : i ≤ M) (hr : r < 4) :
    (a.setReg i r v).reg k q = if k = i ∧ q = r ∧ 1 ≤ k then v else a.reg k q := by
  by_cases hk : k = 0
  · subst hk; simp
  · rw [reg_set _ (by omega) hi hr]
    have : 1 ≤ k := by omega
    simp [this]

theorem getLeft_ok {i : Nat} (hi : i ≤ M) : s.getLeft i = .ok (s.rg i 0) :=
  NodeAllocator.getRegister_ok _ hi (by simp [LEFT])
theorem getRight_ok {i : Nat} (hi : i ≤ M) : s.getRight i = .ok (s.rg i 1) :=
  NodeAllocator.getRegister_ok _ hi (by simp [RIGHT])
theorem getParent_ok {i : Nat} (hi : i ≤ M) : s.getParent i = .ok (s.rg i 2) :=
  NodeAllocator.getRegister_ok _ hi (by simp [PARENT])
theorem getColor_ok {i : Nat} (hi : i ≤ M) : s.getColor i = .ok (s.rg i 3) :=
  NodeAllocator.getRegister_ok _ hi (by simp [COLOR])
theorem getChild_ok {i : Nat} (hi : i ≤ M) (d : Bool) : s.getChild i d.toNat = .ok (s.rg i d.toNat) :=
  NodeAllocator.getRegister_ok _ hi (by cases d <;> simp)
theorem getDir_ok {i : Nat} (hi : i ≤ M) (d : Bool) : s.getDir i d.toNat = .ok (s.rg i d.toNat) := by
  cases d
  · simp [getDir, LEFT, getLeft_ok hi]
  · simp [getDir, LEFT, getRight_ok hi]
theorem isRed_ok {i : Nat} (hi : i ≤ M) : s.isRed i = .ok (decide (s.rg i 3 = 1)) := by
  rw [isRed, NodeAllocator.getRegister_ok _ hi (by simp [COLOR])]; rfl
theorem isBlack_ok {i : Nat} (hi : i ≤ M) : s.isBlack i = .ok (decide (s.rg i 3 = 0)) := by
  rw [isBlack, NodeAllocator.getRegister_ok _ hi (by simp [COLOR])]; rfl
theorem connect_ok {p q : Nat} (hp : p ≤ M) (hq : q ≤ M) (d : Bool) :
    s.connect p q d.toNat = .ok ⟨s.root, (s.allocator.setReg p d.toNat q).setReg q 2 p⟩ := by
  rw [connect, NodeAllocator.connect_ok _ hp hq (by cases d <;> simp) (by simp [PARENT])]; rfl

theorem opposite_toNat (d : Bool) : opposite d.toNat = (!d).toNat := by cases d <;> rfl

theorem childDir_ok {p q : Nat} (hp : p ≤ M) (d : Bool) (h1 : s.rg p d.toNat = q)
    (h2 : s.rg p (!d).toNat ≠ q) : s.childDir p q = .ok d.toNat := by
  unfold RedBlackTree.childDir
  rw [getLeft_ok hp, getRight_ok hp]
  cases d
  · simp only [Bool.toNat_false] at h1
    simp only [except_bind_ok, h1, if_true]; rfl
  · simp only [Bool.toNat_true, Bool.not_true, Bool.toNat_false] at h1 h2
    simp only [except_bind_ok, h1, Ne.symm h2, if_false, if_true]; rfl

/-- reading at the node in focus -/
theorem Z.regs (h : Z s c (br d a x b) X E) : s.rg x.idx 2 = par c ∧ s.rg x.idx d.toNat = a.root ∧
    s.rg x.idx (!d).toNat = b.root ∧ s.rg x.idx 3 = x.tag := by
  obtain ⟨k1, k2, k3, k4, k5, k6⟩ := RBShape_br.1 h.shape
  exact ⟨k3, k1, k2, k4⟩

theorem Z.idx_rng (h : Z s c (br d a x b) X E) : 1 ≤ x.idx ∧ x.idx ≤ M :=
  h.rng (Or.inl (mem_ids_br.2 (Or.inl rfl)))

theorem Z.childDir (h : Z s ((d, x, b) :: c) t X E) (ht : t ≠ .nil) :
    s.childDir x.idx t.root = .ok d.toNat := by
  have hu := h.up
  obtain ⟨_, r1, r2, _⟩ := hu.regs
  refine childDir_ok hu.idx_rng.2 d r1 ?_
  intro hc
  rw [r2] at hc
  by_cases hb : b = .nil
  · subst hb; exact ht (h.root_eq_zero.1 hc.symm)
  · exact hu.dis.ab _ (root_mem ht) (hc ▸ root_mem hb)

end RedBlackTree

/-- colour of the root -/
def BT.tag : BT K V → Nat
  | .nil => 0
  | .node _ x _ => x.tag

@[simp] theorem BT.tag_nil : (BT.nil : BT K V).tag = 0 := rfl
@[simp] theorem BT.tag_br (d : Bool) (a : BT K V) (x : GN K V) (b : BT K V) : (BT.br d a x b).tag = x.tag := by
  cases d <;> rfl
@[simp] theorem BT.tag_node (a : BT K V) (x : GN K V) (b : BT K V) : (BT.node a x b).tag = x.tag := rfl

/-- colour of the node above the hole -/
def Ctx.ctag : Ctx K V → Nat
  | [] => 0
  | (_, x, _) :: _ => x.tag

namespace RedBlackTree
variable {kn : Known} {s : RedBlackTree K V M} {c : Ctx K V} {t : BT K V} {X E : List (Nat × K × V)}
  {d : Bool} {a b : BT K V} {x : GN K V}

theorem Z.tag (h : Z s c t X E) : s.rg t.root 3 = t.tag := by
  cases t with
  | nil => simp
  | node l x r => exact (Z.regs (d := false) h).2.2.2

theorem Z.ptag (h : Z s c t X E) : s.rg (par c) 3 = ctag c := by
  cases c with
  | nil => simp [par, ctag]
  | cons f c => obtain ⟨d, x, b⟩ := f; exact h.up.regs.2.2.2

theorem Z.isRed (h : Z s c t X E) : s.isRed t.root = .ok (decide (t.tag = 1)) := by
  rw [isRed_ok h.root_le, h.tag]
theorem Z.isBlack (h : Z s c t X E) : s.isBlack t.root = .ok (decide (t.tag = 0)) := by
  rw [isBlack_ok h.root_le, h.tag]
theorem Z.isRedPar (h : Z s c t X E) : s.isRed (par c) = .ok (decide (ctag c = 1)) := by
  rw [isRed_ok h.par_le, h.ptag]
theorem Z.getParent (h : Z s c t X E) : s.getParent t.root = .ok (if t.root = 0 then 0 else par c) := by
  rw [getParent_ok h.root_le]
  cases t with
  | nil => simp
  | node l x r =>
    have := Z.idx_rng (d := false) h
    have e := (Z.regs (d := false) h).1
    have h0 : ¬ (BT.node l x r).root = 0 := by rw [root_node]; omega
    rw [if_neg h0]; exact congrArg _ e
theorem Z.getParent' (h : Z s c (br d a x b) X E) : s.getParent x.idx = .ok (par c) := by
  rw [getParent_ok h.idx_rng.2, h.regs.1]
theorem Z.getChild (h : Z s c (br d a x b) X E) : s.getChild x.idx d.toNat = .ok a.root := by
  rw [getChild_ok h.idx_rng.2, h.regs.2.1]
theorem Z.getChild' (h : Z s c (br d a x b) X E) : s.getChild x.idx (!d).toNat = .ok b.root := by
  rw [getChild_ok h.idx_rng.2, h.regs.2.2.1]
theorem Z.getDir (h : Z s c (br d a x b) X E) : s.getDir x.idx d.toNat = .ok a.root := by
  rw [getDir_ok h.idx_rng.2, h.regs.2.1]
theorem Z.getDir' (h : Z s c (br d a x b) X E) : s.getDir x.idx (!d).toNat = .ok b.root := by
  rw [getDir_ok h.idx_rng.2, h.regs.2.2.1]
theorem Z.getLeft (h : Z s c (.node a x b) X E) : s.getLeft x.idx = .ok a.root := by
  rw [getLeft_ok (Z.idx_rng (d := false) h).2]; exact congrArg _ (Z.regs (d := false) h).2.1
theorem Z.getRight (h : Z s c (.node a x b) X E) : s.getRight x.idx = .ok b.root := by
  rw [getRight_ok (Z.idx_rng (d := false) h).2]; exact congrArg _ (Z.regs (d := false) h).2.2.1
theorem Z.getColor (h : Z s c (br d a x b) X E) : s.getColor x.idx = .ok x.tag := by
  rw [getColor_ok h.idx_rng.2, h.regs.2.2.2]

theorem Z.colorNode (h : Z s c (br d a x b) X E) (v : Nat) :
    ∃ s', s.colorNode x.idx v = .ok s' ∧ Z s' c (br d a (x.setTag v) b) X E := by
  refine ⟨_, ?_, h.color v⟩
  rw [RedBlackTree.colorNode, NodeAllocator.setRegister_ok _ h.idx_rng.2 (by simp [COLOR])]; rfl

theorem Z.colorBlack (h : Z s c (br d a x b) X E) :
    ∃ s', s.colorBlack x.idx = .ok s' ∧ Z s' c (br d a (x.setTag 0) b) X E := h.colorNode 0

theorem Z.colorRed (h : Z s c (br d a x b) X E) :
    ∃ s', s.colorRed x.idx = .ok s' ∧ Z s' c (br d a (x.setTag 1) b) X E := by
  have h0 : x.idx ≠ SENTINEL := by have := h.idx_rng; simp only [SENTINEL]; omega
  refine ⟨_, ?_, h.color 1⟩
  rw [RedBlackTree.colorRed]
  simp only [h0, ne_eq, not_false_iff, if_true]
  rw [NodeAllocator.setRegister_ok _ h.idx_rng.2 (by simp [COLOR])]; rfl

/-- The rotation. -/
theorem Z.rotateDir {p q : GN K V} {A B F : BT K V} (h : Z s c (br d A p (br d B q F)) X E) :
    ∃ s', s.rotateDir p.idx d.toNat = .ok (s', some q.idx) ∧ Z s' c (br d (br d A p B) q F) X E := by
  have hD := h.dis
  have hq := h.flip.down
  have hDq := hq.dis
  obtain ⟨hp1, hpM⟩ := h.idx_rng
  obtain ⟨hq1, hqM⟩ := hq.idx_rng
  obtain ⟨p1, p2, p3, p4⟩ := h.regs
  obtain ⟨q1, q2, q3, q4⟩ := hq.regs
  have hBM : B.root ≤ M := hq.down.root_le
  have hcM := h.par_le
  obtain ⟨k1, k2, k3, k4, kA, kQ⟩ := RBShape_br.1 h.shape
  obtain ⟨l1, l2, l3, l4, kB, kF⟩ := RBShape_br.1 kQ
  simp only [root_br] at p3
  have hpq : p.idx ≠ q.idx := fun e => hD.xb (mem_ids_br.2 (Or.inl e))
  have hBp : ∀ i ∈ B.ids, i ≠ p.idx := by
    rintro i hi rfl; exact hD.xb (mem_ids_br.2 (Or.inr (Or.inl hi)))
  have hBq : ∀ i ∈ B.ids, i ≠ q.idx := by rintro i hi rfl; exact hDq.xa hi
  have hFp : ∀ i ∈ F.ids, i ≠ p.idx := by
    rintro i hi rfl; exact hD.xb (mem_ids_br.2 (Or.inr (Or.inr hi)))
  have hFq : ∀ i ∈ F.ids, i ≠ q.idx := by rintro i hi rfl; exact hDq.xb hi
  have hAp : ∀ i ∈ A.ids, i ≠ p.idx := by rintro i hi rfl; exact hD.xa hi
  have hAq : ∀ i ∈ A.ids, i ≠ q.idx := by
    rintro i hi rfl; exact hD.ab _ hi (mem_ids_br.2 (Or.inl rfl))
  have hcp : ∀ i ∈ cids c, i ≠ p.idx := by rintro i hi rfl; exact hD.xc hi
  have hcq : ∀ i ∈ cids c, i ≠ q.idx := by
    rintro i hi rfl; exact hD.bc _ (mem_ids_br.2 (Or.inl rfl)) hi
  have hBr : ∀ i, 1 ≤ i → i ∉ B.ids → i ≠ B.root := by
    rintro i hi hn rfl
    by_cases hB : B = .nil
    · subst hB; simp at hi
    · exact hn (root_mem hB)
  have hcr : ∀ i, 1 ≤ i → i ∉ cids c → i ≠ par c := by
    rintro i hi hn rfl
    by_cases hB : c = []
    · subst hB; simp [par] at hi
    · exact hn (par_mem hB)
  have hrng : ∀ {i}, i ∈ (br d A p (br d B q F)).ids ∨ i ∈ cids c → 1 ≤ i := fun hi => (h.rng hi).1
  have hpB : p.idx ≠ B.root := hBr _ hp1 (fun hc => hBp _ hc rfl)
  have hqB : q.idx ≠ B.root := hBr _ hq1 (fun hc => hBq _ hc rfl)
  have hpc : p.idx ≠ par c := hcr _ hp1 hD.xc
  have hqc : q.idx ≠ par c := hcr _ hq1 (fun hc => hcq _ hc rfl)
  have hd4 : d.toNat < 4 := by cases d <;> simp
  have hd4' : (!d).toNat < 4 := by cases d <;> simp
  have hdn : d.toNat ≠ (!d).toNat := by cases d <;> simp
  have hd2 : d.toNat ≠ 2 := by cases d <;> simp
  have hd2' : (!d).toNat ≠ 2 := by cases d <;> simp
  have hd3 : d.toNat ≠ 3 := by cases d <;> simp
  have hd3' : (!d).toNat ≠ 3 := by cases d <;> simp
  have hh4 : hdir c < 4 := by
    cases c with
    | nil => simp [hdir]
    | cons f c => obtain ⟨e, y, z⟩ := f; cases e <;> simp [hdir]
  have hh2 : hdir c ≠ 2 := by
    cases c with
    | nil => simp [hdir]
    | cons f c => obtain ⟨e, y, z⟩ := f; cases e <;> simp [hdir]
  -- the state before the grandparent is linked
  let a1 := (((s.allocator.setReg q.idx d.toNat p.idx).setReg p.idx 2 q.idx).setReg p.idx (!d).toNat B.root).setReg B.root 2 p.idx
  have e1 : s.rotateDir p.idx d.toNat = (do
      let t : RedBlackTree K V M := ⟨s.root, a1⟩
      if par c ≠ SENTINEL then do
        let e ← t.childDir (par c) p.idx
        let t ← t.connect (par c) q.idx e
        return (t, some q.idx)
      else do
        let a ← t.allocator.clearRegister q.idx PARENT
        return ({ root := q.idx, allocator := a }, some q.idx)) := by
    have hq0 : ¬ q.idx = SENTINEL := by simp only [SENTINEL]; omega
    have hdd : ¬ ¬ (d.toNat = LEFT ∨ d.toNat = RIGHT) := by cases d <;> simp [LEFT, RIGHT]
    unfold RedBlackTree.rotateDir
    rw [h.getParent', opposite_toNat, h.getChild']
    simp only [except_bind_ok, root_br, hq.getChild, hq0, hdd, if_false, connect_ok hqM hpM]
    rw [show ((!d).toNat) = (!d).toNat from rfl, connect_ok (s := ⟨s.root, _⟩) hpM hBM (!d)]
    rfl
  -- the final registers
  have key : ∀ (a2 : NodeAllocator (RBNode K V) M 4) (r' : Nat),
      (∀ i r, i ≠ q.idx → i ≠ par c → a2.reg i r = a1.reg i r) →
      (∀ r, r ≠ 2 → a2.reg q.idx r = a1.reg q.idx r) → a2.reg q.idx 2 = par c →
      (∀ r, r ≠ hdir c → a2.reg (par c) r = a1.reg (par c) r) →
      (c = [] → r' = q.idx) → (c ≠ [] → r' = s.root ∧ a2.reg (par c) (hdir c) = q.idx) →
      RBase a2 (X ++ E) → Z ⟨r', a2⟩ c (br d (br d A p B) q F) X E := by
    intro a2 r' f1 f2 f3 f4 f5 f6 f7
    have g1 : ∀ i r, i ≠ p.idx → i ≠ q.idx → i ≠ B.root → a1.reg i r = s.allocator.reg i r := by
      intro i r n1 n2 n3
      simp only [a1]
      rw [rset _ hBM (by omega), if_neg (by simp [n3]), rset _ hpM hd4', if_neg (by simp [n1]),
        rset _ hpM (by omega), if_neg (by simp [n1]), rset _ hqM hd4, if_neg (by simp [n2])]
    have gF : ∀ i, 1 ≤ i → i ≠ p.idx → i ≠ q.idx → i ∉ B.ids → i ∉ cids c → ∀ r,
        a2.reg i r = s.allocator.reg i r := by
      intro i hi n1 n2 n3 n4 r
      rw [f1 i r n2 (hcr i hi n4), g1 i r n1 n2 (hBr i hi n3)]
    have gp : ∀ r, a2.reg p.idx r = if r = (!d).toNat then B.root else if r = 2 then q.idx else s.allocator.reg p.idx r := by
      intro r
      rw [f1 p.idx r hpq hpc]
      simp only [a1]
      rw [rset _ hBM (by omega), if_neg (by simp [hpB]), rset _ hpM hd4', rset _ hpM (by omega),
        rset _ hqM hd4, if_neg (c := p.idx = q.idx ∧ _) (by simp [hpq])]
      simp [hp1]
    have gq : ∀ r, r ≠ 2 → a2.reg q.idx r = if r = d.toNat then p.idx else s.allocator.reg q.idx r := by
      intro r hr
      rw [f2 r hr]
      simp only [a1]
      rw [rset _ hBM (by omega), if_neg (by simp [hqB]), rset _ hpM hd4', if_neg (by simp [Ne.symm hpq]),
        rset _ hpM (by omega), if_neg (by simp [Ne.symm hpq]), rset _ hqM hd4]
      simp [hq1]
    have gB : ∀ i ∈ B.ids, ∀ r, a2.reg i r = if i = B.root ∧ r = 2 then p.idx else s.allocator.reg i r := by
      intro i hi r
      have hi1 : 1 ≤ i := hrng (Or.inl (mem_ids_br.2 (Or.inr (Or.inr (mem_ids_br.2 (Or.inr (Or.inl hi)))))))
      have n1 := hBp i hi
      have n2 := hBq i hi
      have n3 : i ∉ cids c := hD.bc i (mem_ids_br.2 (Or.inr (Or.inl hi)))
      rw [f1 i r n2 (hcr i hi1 n3)]
      simp only [a1]
      rw [rset _ hBM (by omega), rset _ hpM hd4', if_neg (c := i = p.idx ∧ _) (by simp [n1]),
        rset _ hpM (by omega), if_neg (c := i = p.idx ∧ _) (by simp [n1]), rset _ hqM hd4, if_neg (c := i = q.idx ∧ _) (by simp [n2])]
      simp [hi1]
    have gc : ∀ i ∈ cids c, ∀ r, ¬ (i = par c ∧ r = hdir c) → a2.reg i r = s.allocator.reg i r := by
      intro i hi r hn
      have hi1 : 1 ≤ i := hrng (Or.inr hi)
      have n1 := hcp i hi
      have n2 := hcq i hi
      have n3 : i ≠ B.root := hBr i hi1 (fun hb => hD.bc i (mem_ids_br.2 (Or.inr (Or.inl hb))) hi)
      by_cases hic : i = par c
      · subst hic
        rw [f4 r (fun e => hn ⟨rfl, e⟩), g1 _ r n1 n2 n3]
      · rw [f1 i r n2 hic, g1 i r n1 n2 n3]
    refine ⟨RBShape_br.2 ⟨?_, ?_, ?_, ?_, RBShape_br.2 ⟨?_, ?_, ?_, ?_, ?_, ?_⟩, ?_⟩, ?_, ?_, f7⟩
    · exact (gq _ hd2).trans (by simp)
    · exact (gq _ hd2').trans (by rw [if_neg (Ne.symm hdn)]; exact l2)
    · exact f3
    · exact (gq _ (by omega)).trans (by rw [if_neg (Ne.symm hd3)]; exact l4)
    · exact (gp _).trans (by rw [if_neg hdn, if_neg hd2]; exact k1)
    · exact (gp _).trans (by rw [if_pos rfl])
    · exact (gp _).trans (by rw [if_neg (Ne.symm hd2'), if_pos rfl])
    · exact (gp _).trans (by rw [if_neg (Ne.symm hd3'), if_neg (by omega)]; exact k4)
    · refine kA.frame0 (fun i hi r => gF i (hrng (Or.inl (mem_ids_br.2 (Or.inr (Or.inl hi))))) (hAp i hi) (hAq i hi)
        (fun hb => hD.ab i hi (mem_ids_br.2 (Or.inr (Or.inl hb)))) (hD.ac i hi) r)
    · refine kB.frame (fun i hi r hn => ?_) (fun hn => ?_) hDq.na
      · exact (gB i hi r).trans (if_neg hn)
      · exact (gB _ (root_mem hn) 2).trans (if_pos ⟨rfl, rfl⟩)
    · refine kF.frame0 (fun i hi r => gF i (hrng (Or.inl (mem_ids_br.2 (Or.inr (Or.inr (mem_ids_br.2 (Or.inr (Or.inr hi))))))))
        (hFp i hi) (hFq i hi) (fun hb => hDq.ab i hb hi)
        (hD.bc i (mem_ids_br.2 (Or.inr (Or.inr hi)))) r)
    · refine h.cshape.frame gc (fun hn => ?_) (fun hn => ?_) hD.nc
      · rw [root_br]; exact f5 hn
      · rw [root_br]; exact f6 hn
    · rw [← h.ents]; cases d <;> simp
  have hlp : p.idx ∈ (X ++ E).map Prod.fst := h.live (Or.inl (mem_ids_br.2 (Or.inl rfl)))
  have hlq : q.idx ∈ (X ++ E).map Prod.fst := h.live (Or.inl (mem_ids_br.2 (Or.inr (Or.inr (mem_ids_br.2 (Or.inl rfl))))))
  have hlB : B.root ∈ (X ++ E).map Prod.fst ∨ B.root = 0 := by
    by_cases hB : B = .nil
    · subst hB; exact Or.inr rfl
    · exact Or.inl (h.live (Or.inl (mem_ids_br.2 (Or.inr (Or.inr (mem_ids_br.2 (Or.inr (Or.inl (root_mem hB)))))))))
  have b1 : RBase a1 (X ++ E) :=
    (((h.base.setReg _ _ (Or.inl hlq)).setReg _ _ (Or.inl hlp)).setReg _ _ (Or.inl hlp)).setReg _ _ hlB
  by_cases hc : c = []
  · subst hc
    refine ⟨⟨q.idx, a1.setReg q.idx 2 0⟩, ?_, key _ _ ?_ ?_ ?_ ?_ (fun _ => rfl) (fun hn => absurd rfl hn) (b1.setReg _ _ (Or.inl hlq))⟩
    · rw [e1]
      simp only [par, SENTINEL, ne_eq, not_true, if_false]
      rw [NodeAllocator.clearRegister_ok _ hqM (by simp [PARENT])]; rfl
    · intro i r n1 n2; rw [rset _ hqM (by omega), if_neg (by simp [n1])]
    · intro r hr; rw [rset _ hqM (by omega), if_neg (by simp [hr])]
    · rw [rset _ hqM (by omega), if_pos ⟨rfl, rfl, hq1⟩]; rfl
    · intro r _; simp [par]
  · have hc1 : 1 ≤ par c := hrng (Or.inr (par_mem hc))
    have hlc : par c ∈ (X ++ E).map Prod.fst := h.live (Or.inr (par_mem hc))
    refine ⟨⟨s.root, (a1.setReg (par c) (hdir c) q.idx).setReg q.idx 2 (par c)⟩, ?_, key _ _ ?_ ?_ ?_ ?_ (fun hn => absurd hn hc) (fun _ => ⟨rfl, ?_⟩)
      ((b1.setReg _ _ (Or.inl hlc)).setReg _ _ (Or.inl hlq))⟩
    · rw [e1]
      have : par c ≠ SENTINEL := by simp only [SENTINEL]; omega
      simp only [this, ne_eq, not_false_iff, if_true]
      have ecd : RedBlackTree.childDir (⟨s.root, a1⟩ : RedBlackTree K V M) (par c) p.idx = .ok (hdir c) := by
        have n1 := hcp _ (par_mem hc)
        have n2 := hcq _ (par_mem hc)
        have n3 : par c ≠ B.root := hBr _ hc1 (fun hb => hD.bc _ (mem_ids_br.2 (Or.inr (Or.inl hb))) (par_mem hc))
        have g1 : ∀ r, a1.reg (par c) r = s.allocator.reg (par c) r := by
          intro r
          simp only [a1]
          rw [rset _ hBM (by omega), if_neg (by simp [n3]), rset _ hpM hd4', if_neg (by simp [n1]),
            rset _ hpM (by omega), if_neg (by simp [n1]), rset _ hqM hd4, if_neg (by simp [n2])]
        cases c with
        | nil => exact absurd rfl hc
        | cons f c =>
          obtain ⟨e, y, z⟩ := f
          have o := h.childDir (br_ne_nil _ _ _ _)
          rw [root_br] at o
          simp only [par] at g1 hcM
          refine Eq.trans ?_ o
          unfold RedBlackTree.childDir
          simp only [par]
          rw [getLeft_ok hcM, getRight_ok hcM, getLeft_ok hcM, getRight_ok hcM]
          simp only [rg, g1]
      have hcon : RedBlackTree.connect (⟨s.root, a1⟩ : RedBlackTree K V M) (par c) q.idx (hdir c) =
          .ok ⟨s.root, (a1.setReg (par c) (hdir c) q.idx).setReg q.idx 2 (par c)⟩ := by
        cases c with
        | nil => exact absurd rfl hc
        | cons f c => obtain ⟨e, y, z⟩ := f; exact connect_ok (s := ⟨s.root, a1⟩) hcM hqM e
      rw [ecd, except_bind_ok, hcon]; rfl
    · intro i r n1 n2
      rw [rset _ hqM (by omega), if_neg (by simp [n1]), rset _ hcM hh4, if_neg (by simp [n2])]
    · intro r hr
      rw [rset _ hqM (by omega), if_neg (by simp [hr]), rset _ hcM hh4, if_neg (by simp [hqc])]
    · rw [rset _ hqM (by omega), if_pos ⟨rfl, rfl, hq1⟩]
    · intro r hr
      rw [rset _ hqM (by omega), if_neg (by simp [Ne.symm hqc]), rset _ hcM hh4, if_neg (by simp [hr])]
    · rw [rset _ hqM (by omega), if_neg (by simp [Ne.symm hqc]), rset _ hcM hh4, if_pos ⟨rfl, rfl, hc1⟩]

end RedBlackTree
end Sokoban
