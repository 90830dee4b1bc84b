import Verif.Proof.AVLNear
import Verif.Proof.AVLLink
import Verif.Proof.TextbookTree

/-
Rotations and rebalancing of the AVL tree.
-/
namespace Sokoban
open BT Ctx NodeAllocator Textbook
variable {K V : Type} {M : Nat}

namespace AVLTree

/-- the node values stored -/
abbrev ABase [kn : Known] (a : NodeAllocator (AVLNode K V) M 4) (E : List (Nat × K × V)) : Prop :=
  Base AVLNode.mk (fun r => r < 3) a E

/-- registers of the tree -/
abbrev rg (s : AVLTree K V M) : Nat → Nat → Nat := s.allocator.reg

/-- The memory holds the tree `t`, and the context `c` whose hole is linked to `h`; the entries in order
are `E`; `X` are nodes which are allocated but not in the tree. -/
structure Z [kn : Known] (s : AVLTree K V M) (c : Ctx K V) (h : Nat) (t : BT K V) (X E : List (Nat × K × V)) : Prop where
  shape : AShape s.rg t
  cshape : ACtx s.rg s.root c h
  ents : lft c ++ t.ents ++ rgt c = E
  base : ABase s.allocator (X ++ E)

variable {kn : Known} {s : AVLTree K V M} {c : Ctx K V} {t : BT K V} {X E : List (Nat × K × V)}
  {d : Bool} {a b : BT K V} {x : GN K V} {h n : Nat}

theorem Z.forget (hz : Z (kn := kn) s c h t X E) : Z (kn := kn.quiet) s c h t X E :=
  @Z.mk _ _ _ kn.quiet _ _ _ _ _ _ hz.shape hz.cshape hz.ents hz.base.forget

theorem Z.down (hz : Z s c x.idx (br d a x b) X E) : Z s ((d, x, b) :: c) a.root a X E := by
  obtain ⟨h1, h2, h3, h4⟩ := hz
  rw [AShape_br] at h1
  obtain ⟨k1, k2, k3, k4, k5⟩ := h1
  refine ⟨k4, ⟨k1, k2, k5, h2⟩, ?_, h4⟩
  rw [← h3]
  cases d <;> simp [lft, rgt]

theorem Z.up (hz : Z s ((d, x, b) :: c) a.root a X E) :
    Z s c x.idx (br d a (x.setTag (s.rg x.idx 2)) b) X E := by
  obtain ⟨h1, ⟨k1, k2, k3, k4⟩, h3, h4⟩ := hz
  refine ⟨AShape_br.2 ⟨k1, k2, rfl, h1, k3⟩, k4, ?_, h4⟩
  rw [← h3]
  cases d <;> simp [lft, rgt]

theorem Z.perm (hz : Z s c h t X E) : ((X ++ E).map Prod.fst).Perm (X.map Prod.fst ++ (t.ids ++ cids c)) := by
  rw [List.map_append, ← hz.ents]
  exact (perm_ids c t).append_left _

theorem Z.nd (hz : Z s c h t X E) : (t.ids ++ cids c).Nodup :=
  (List.nodup_append.1 (hz.perm.nodup_iff.1 hz.base.nodup)).2.1

theorem Z.xdis (hz : Z s c h t X E) {i : Nat} (hi : i ∈ X.map Prod.fst) : i ∉ t.ids ∧ i ∉ cids c := by
  have := (List.nodup_append.1 (hz.perm.nodup_iff.1 hz.base.nodup)).2.2 i hi
  exact ⟨fun hc => this i (by simp [hc]) rfl, fun hc => this i (by simp [hc]) rfl⟩

theorem Z.live (hz : Z s c h t X E) {i : Nat} (hi : i ∈ t.ids ∨ i ∈ cids c) : i ∈ (X ++ E).map Prod.fst := by
  rw [hz.perm.mem_iff]
  exact List.mem_append_right _ (List.mem_append.2 hi)

theorem Z.rng (hz : Z s c h t X E) {i : Nat} (hi : i ∈ t.ids ∨ i ∈ cids c) : 1 ≤ i ∧ i ≤ M :=
  hz.base.range (hz.live hi)

theorem Z.root_le (hz : Z s c h t X E) : t.root ≤ M := by
  cases t with
  | nil => simp
  | node l x r => exact (hz.rng (Or.inl (by simp))).2

theorem Z.root_eq_zero (hz : Z s c h t X E) : t.root = 0 ↔ t = .nil := by
  cases t with
  | nil => simp
  | node l x r => have := hz.rng (i := x.idx) (Or.inl (by simp)); simp; omega

/-- distinctness facts at a node -/
structure Dis (c : Ctx K V) (a : BT K V) (x : GN K V) (b : BT K V) : Prop where
  xa : x.idx ∉ a.ids
  xb : x.idx ∉ b.ids
  xc : x.idx ∉ cids c
  ab : ∀ i ∈ a.ids, i ∉ b.ids
  ac : ∀ i ∈ a.ids, i ∉ cids c
  bc : ∀ i ∈ b.ids, i ∉ cids c
  na : a.ids.Nodup
  nb : b.ids.Nodup
  nc : (cids c).Nodup

theorem Z.dis (hz : Z s c h (br d a x b) X E) : Dis c a x b := by
  have hn := (((ids_br_perm d a x b).append_right (cids c)).nodup_iff).1 hz.nd
  simp only [List.cons_append, List.nodup_cons, List.mem_append, not_or] at hn
  obtain ⟨⟨⟨n1, n2⟩, n3⟩, hn⟩ := hn
  obtain ⟨m1, m2, m3⟩ := List.nodup_append.1 hn
  obtain ⟨l1, l2, l3⟩ := List.nodup_append.1 m1
  exact ⟨n1, n2, n3, fun i hi hb => l3 i hi i hb rfl,
    fun i hi hc => m3 i (by simp [hi]) i hc rfl,
    fun i hi hc => m3 i (by simp [hi]) i hc rfl, l1, l2, m2⟩

theorem Z.idx_rng (hz : Z s c h (br d a x b) X E) : 1 ≤ x.idx ∧ x.idx ≤ M :=
  hz.rng (Or.inl (mem_ids_br.2 (Or.inl rfl)))

theorem Z.child (hz : Z s c h (br d a x b) X E) : s.rg x.idx d.toNat = a.root ∧ s.rg x.idx (!d).toNat = b.root :=
  ⟨(AShape_br.1 hz.shape).1, (AShape_br.1 hz.shape).2.1⟩

theorem rset (a : NodeAllocator (AVLNode K V) M 4) {i r v k q : Nat} (hi : 1 ≤ i ∧ i ≤ M) (hr : r < 4) :
    (a.setReg i r v).reg k q = if k = i ∧ q = r then v else a.reg k q := by
  rw [reg_setReg]; simp [hi, hr]

/-! ### elementary operations -/

theorem getField_ok {i r : Nat} (hi : i ≤ M) (hr : r < 3) : s.getField i r = .ok (s.rg i r) :=
  getRegister_ok _ hi (by omega)

theorem getField_d {i : Nat} (hi : i ≤ M) (d : Bool) : s.getField i d.toNat = .ok (s.rg i d.toNat) :=
  getRegister_ok _ hi (by cases d <;> decide)

theorem updateHeight_ok {i : Nat} (hi : 1 ≤ i ∧ i ≤ M) (hl : s.rg i 0 ≤ M) (hr : s.rg i 1 ≤ M)
    (hhl : ht s.rg (s.rg i 0) < 2 ^ 32) (hhr : ht s.rg (s.rg i 1) < 2 ^ 32) :
    s.updateHeight i = .ok ⟨s.root, s.allocator.setReg i 2 (max (ht s.rg (s.rg i 0)) (ht s.rg (s.rg i 1)))⟩ := by
  have hn : i ≠ SENTINEL := by simp only [SENTINEL]; omega
  have fin : ∀ v, s.setHeight i v = .ok ⟨s.root, s.allocator.setReg i 2 v⟩ := by
    intro v
    unfold setHeight
    rw [if_pos hn, HEIGHT, setRegister_ok _ hi.2 (by decide)]; rfl
  unfold updateHeight
  rw [LEFT, RIGHT, HEIGHT, getField_ok hi.2 (by decide), getField_ok hi.2 (by decide)]
  simp only [except_bind_ok, except_pure, except_throw, fin]
  rw [getField_ok hl (by decide), getField_ok hr (by decide)]
  unfold ht at hhl hhr ⊢
  simp only [SENTINEL]
  by_cases h0 : s.rg i 0 = 0
  · by_cases h1 : s.rg i 1 = 0
    · simp [h0, h1]
    · simp only [h0, h1, if_true, and_false, if_false, ne_eq, not_true_eq_false, not_false_iff,
        except_bind_ok] at hhr ⊢
      rw [if_neg (by omega)]
      simp
  · by_cases h1 : s.rg i 1 = 0
    · simp only [h0, h1, if_true, false_and, if_false, ne_eq, not_true_eq_false, not_false_iff,
        except_bind_ok] at hhl ⊢
      rw [if_neg (by omega)]
      simp
    · simp only [h0, h1, false_and, if_false, ne_eq, not_false_iff, if_true,
        except_bind_ok] at hhl hhr ⊢
      rw [if_neg (by omega)]
      simp only [except_bind_ok, Nat.add_max_add_right]

/-- the effect of `set_field` on a child link -/
theorem setField_ok {i v : Nat} (d : Bool) (hi : 1 ≤ i ∧ i ≤ M) (hv : v ≤ M) (ho : s.rg i (!d).toNat ≤ M)
    (hhv : ht s.rg v < 2 ^ 32) (hho : ht s.rg (s.rg i (!d).toNat) < 2 ^ 32) :
    ∃ s', s.setField i d.toNat v = .ok s' ∧ s'.root = s.root ∧
      (∀ k q, s'.rg k q = if k = i ∧ q = d.toNat then v
        else if k = i ∧ q = 2 then max (ht s.rg v) (ht s.rg (s.rg i (!d).toNat)) else s.rg k q) ∧
      (∀ L, ABase s.allocator L → i ∈ L.map Prod.fst → ABase s'.allocator L) := by
  have hn : i ≠ SENTINEL := by simp only [SENTINEL]; omega
  have hd4 : d.toNat < 4 := by cases d <;> decide
  have hd2 : d.toNat ≠ 2 := by cases d <;> decide
  let s1 : AVLTree K V M := ⟨s.root, s.allocator.setReg i d.toNat v⟩
  have r1 : ∀ k q, s1.rg k q = if k = i ∧ q = d.toNat then v else s.rg k q := fun k q => rset _ hi hd4
  have e1 : s1.rg i d.toNat = v := by rw [r1, if_pos ⟨rfl, rfl⟩]
  have e2 : s1.rg i (!d).toNat = s.rg i (!d).toNat := by rw [r1, if_neg]; cases d <;> simp
  have e3 : ∀ k, ht s1.rg k = ht s.rg k := by
    intro k
    have : s1.rg k 2 = s.rg k 2 := by rw [r1, if_neg (fun hc => hd2 hc.2.symm)]
    unfold ht; rw [this]
  have hup : s1.updateHeight i = .ok ⟨s1.root, s1.allocator.setReg i 2
      (max (ht s1.rg (s1.rg i 0)) (ht s1.rg (s1.rg i 1)))⟩ := by
    apply updateHeight_ok hi <;> cases d <;> simp only [Bool.toNat_true, Bool.toNat_false, Bool.not_true, Bool.not_false] at *
    all_goals first | rw [e3] | skip
    all_goals first | rw [e1]; assumption | rw [e2]; assumption
  refine ⟨⟨s1.root, s1.allocator.setReg i 2 (max (ht s1.rg (s1.rg i 0)) (ht s1.rg (s1.rg i 1)))⟩, ?_, ?_, ?_, ?_⟩
  · unfold setField
    rw [if_pos hn, setRegister_ok _ hi.2 hd4]
    simp only [except_bind_ok]
    rw [if_pos (by cases d <;> simp [LEFT, RIGHT])]
    exact hup
  · rfl
  · intro k q
    show (s1.allocator.setReg i 2 _).reg k q = _
    rw [rset _ hi (by decide)]
    have hm : max (ht s1.rg (s1.rg i 0)) (ht s1.rg (s1.rg i 1)) = max (ht s.rg v) (ht s.rg (s.rg i (!d).toNat)) := by
      rw [e3, e3]
      cases d <;> simp only [Bool.toNat_true, Bool.toNat_false, Bool.not_true, Bool.not_false] at *
      · rw [e1, e2]
      · rw [e1, e2, Nat.max_comm]
    rw [hm]
    have := r1 k q
    by_cases hq : k = i ∧ q = 2
    · rw [if_pos hq, if_neg (by rintro ⟨_, h⟩; exact hd2 (h.symm.trans hq.2)), if_pos hq]
    · rw [if_neg hq, if_neg hq]; exact this
  · intro L hb hL
    exact (hb.setReg _ _ (Or.inl hL)).setReg _ _ (Or.inl hL)

theorem asI32_small {n : Nat} (h : n < 2 ^ 31) : asI32 n = n := by unfold asI32; rw [if_pos h]

theorem balanceFactor_ok {l r : Nat} (hl : l ≤ M) (hr : r ≤ M) (hhl : ht s.rg l < 2 ^ 31) (hhr : ht s.rg r < 2 ^ 31) :
    s.balanceFactor l r = .ok ((ht s.rg l : Int) - ht s.rg r) := by
  have aux : ∀ {k}, k ≤ M → ht s.rg k < 2 ^ 31 →
      (if k ≠ SENTINEL then do i32 (asI32 (← s.getField k HEIGHT) + 1) else pure 0 : R Int) = .ok (ht s.rg k : Int) := by
    intro k hk hh
    unfold ht at hh ⊢
    by_cases h0 : k = 0
    · subst h0; simp [SENTINEL]
    · simp only [h0, if_false] at hh
      rw [if_pos (by simpa [SENTINEL] using h0), HEIGHT, getField_ok hk (by decide)]
      simp only [except_bind_ok, h0, if_false]
      rw [asI32_small (by omega)]
      unfold i32
      rw [if_pos (by omega)]
      simp
  unfold balanceFactor
  simp only [aux hl hhl, aux hr hhr, except_bind_ok]
  unfold i32
  rw [if_pos (by omega)]

/-! ### links of the context -/

/-- link the tree in focus to the node above it -/
theorem Z.relink (hz : Z s ((d, x, b) :: c) h t X E) (hht : ht s.rg t.root < 2 ^ 32) (hhb : ht s.rg b.root < 2 ^ 32) :
    ∃ s', s.setField x.idx d.toNat t.root = .ok s' ∧ Z s' ((d, x, b) :: c) t.root t X E ∧
      s'.root = s.root ∧ (∀ i, i ≠ x.idx → ∀ q, s'.rg i q = s.rg i q) ∧
      s'.rg x.idx 2 = max (ht s.rg t.root) (ht s.rg b.root) := by
  have hx := hz.rng (i := x.idx) (Or.inr (by simp [cids]))
  have hrb : b.root ≤ M := by
    cases b with
    | nil => simp
    | node l y r => exact (hz.rng (i := y.idx) (Or.inr (by simp [cids]))).2
  have hc := hz.cshape
  have ho : s.rg x.idx (!d).toNat = b.root := hc.2.1
  obtain ⟨s', e, hr, hg, hb⟩ := setField_ok (kn := kn) (s := s) (v := t.root) d hx hz.root_le (ho ▸ hrb) hht (ho ▸ hhb)
  have hne : ∀ i, i ≠ x.idx → ∀ q, s'.rg i q = s.rg i q := by
    intro i hi q; rw [hg]; simp [hi]
  have hnd := hz.nd
  refine ⟨s', e, ⟨?_, ?_, hz.ents, ?_⟩, hr, hne, ?_⟩
  · refine hz.shape.frame (fun i hi q => hne i ?_ q)
    rintro rfl
    exact (List.nodup_append.1 hnd).2.2 _ hi x.idx (by simp [cids]) rfl
  · refine hc.frame ?_ (by simp) (fun _ => ⟨hr, ?_⟩) (List.nodup_append.1 hnd).2.1
    · intro i _ q hq
      simp only [par, dir] at hq
      rw [hg]
      have h1 : ¬ (i = x.idx ∧ q = d.toNat) := fun hc => hq ⟨hc.1, Or.inl hc.2⟩
      have h2 : ¬ (i = x.idx ∧ q = 2) := fun hc => hq ⟨hc.1, Or.inr hc.2⟩
      rw [if_neg h1, if_neg h2]
    · show s'.rg x.idx d.toNat = _
      rw [hg, if_pos ⟨rfl, rfl⟩]
  · exact hb _ hz.base (hz.live (Or.inr (by simp [cids])))
  · rw [hg, if_neg (by cases d <;> simp), if_pos ⟨rfl, rfl⟩, ho]

/-- `update_height` at the node in focus -/
theorem Z.updateHeight (hz : Z s c h (br d a x b) X E) (ha : AVL a) (hb : AVL b)
    (hba : a.height < 2 ^ 32) (hbb : b.height < 2 ^ 32) :
    ∃ s', s.updateHeight x.idx = .ok s' ∧ Z s' c h (br d a (x.setTag (max a.height b.height)) b) X E ∧ s'.root = s.root := by
  have hx := hz.idx_rng
  have hsh := AShape_br.1 hz.shape
  have hra : a.root ≤ M := by
    cases a with
    | nil => simp
    | node l y r => exact (hz.rng (i := y.idx) (Or.inl (mem_ids_br.2 (by simp)))).2
  have hrb : b.root ≤ M := by
    cases b with
    | nil => simp
    | node l y r => exact (hz.rng (i := y.idx) (Or.inl (mem_ids_br.2 (by simp)))).2
  have ea : ht s.rg a.root = a.height := ha.ht hsh.2.2.2.1 (fun i hi => (hz.rng (Or.inl (mem_ids_br.2 (by simp [hi])))).1)
  have eb : ht s.rg b.root = b.height := hb.ht hsh.2.2.2.2 (fun i hi => (hz.rng (Or.inl (mem_ids_br.2 (by simp [hi])))).1)
  have hu : s.updateHeight x.idx = .ok ⟨s.root, s.allocator.setReg x.idx 2 (max a.height b.height)⟩ := by
    have h1 := hsh.1
    have h2 := hsh.2.1
    cases d <;> simp only [Bool.toNat_true, Bool.toNat_false, Bool.not_true, Bool.not_false] at h1 h2
    · rw [updateHeight_ok hx (h1 ▸ hra) (h2 ▸ hrb) (by rw [h1, ea]; exact hba) (by rw [h2, eb]; exact hbb),
        h1, h2, ea, eb]
    · rw [updateHeight_ok hx (h2 ▸ hrb) (h1 ▸ hra) (by rw [h2, eb]; exact hbb) (by rw [h1, ea]; exact hba),
        h1, h2, ea, eb, Nat.max_comm]
  have hg : ∀ k q, (s.allocator.setReg x.idx 2 (max a.height b.height)).reg k q =
      if k = x.idx ∧ q = 2 then max a.height b.height else s.rg k q := fun k q => rset _ hx (by decide)
  have hne : ∀ i, i ≠ x.idx → ∀ q, (s.allocator.setReg x.idx 2 (max a.height b.height)).reg i q = s.rg i q := by
    intro i hi q; rw [hg]; simp [hi]
  have hd := hz.dis
  refine ⟨_, hu, ⟨AShape_br.2 ⟨?_, ?_, ?_, ?_, ?_⟩, ?_, ?_, ?_⟩, rfl⟩
  · refine (hg _ _).trans ?_
    rw [if_neg (by cases d <;> simp)]; exact hsh.1
  · refine (hg _ _).trans ?_
    rw [if_neg (by cases d <;> simp)]; exact hsh.2.1
  · refine (hg _ _).trans ?_
    rw [if_pos ⟨rfl, rfl⟩]; rfl
  · exact hsh.2.2.2.1.frame (fun i hi q => hne i (by rintro rfl; exact hd.xa hi) q)
  · exact hsh.2.2.2.2.frame (fun i hi q => hne i (by rintro rfl; exact hd.xb hi) q)
  · exact hz.cshape.frame0 (fun i hi q => hne i (by rintro rfl; exact hd.xc hi) q)
  · rw [← hz.ents]; cases d <;> simp
  · exact hz.base.setReg _ _ (Or.inl (hz.live (Or.inl (mem_ids_br.2 (Or.inl rfl)))))

/-! ### rotations -/

/-- the rotation lifting the child in direction `d` -/
def rotD (t : AVLTree K V M) (d : Bool) (index : Nat) : R (AVLTree K V M × Nat) := do
  let child ← t.getField index d.toNat
  let inner ← t.getField child (!d).toNat
  let t ← t.setField index d.toNat inner
  let t ← t.setField child (!d).toNat index
  return (t, child)

theorem leftRotate_eq (t : AVLTree K V M) (i : Nat) : t.leftRotate i = t.rotD true i := rfl
theorem rightRotate_eq (t : AVLTree K V M) (i : Nat) : t.rightRotate i = t.rotD false i := rfl

theorem Z.rotD {B A C : BT K V} {y : GN K V} (hz : Z s c h (br d (br (!d) B y A) x C) X E)
    (hA : AVL A) (hB : AVL B) (hC : AVL C) (bA : A.height + 2 < 2 ^ 32) (bB : B.height + 2 < 2 ^ 32)
    (bC : C.height + 2 < 2 ^ 32) :
    ∃ s', s.rotD d x.idx = .ok (s', y.idx) ∧
      Z s' c h (br (!d) (br d B (x.setTag (max B.height C.height)) C)
        (y.setTag (max (max B.height C.height + 1) A.height)) A) X E := by
  have hx := hz.idx_rng
  have hd := hz.dis
  have hymem : y.idx ∈ (br (!d) B y A).ids := mem_ids_br.2 (Or.inl rfl)
  have hy := hz.rng (i := y.idx) (Or.inl (mem_ids_br.2 (Or.inr (Or.inl hymem))))
  have hmem : ∀ {i}, i ∈ A.ids ∨ i ∈ B.ids ∨ i ∈ C.ids → i ∈ (br d (br (!d) B y A) x C).ids := by
    intro i hi
    rw [mem_ids_br, mem_ids_br]
    rcases hi with h | h | h <;> simp [h]
  have hrt : ∀ {T : BT K V}, (∀ i ∈ T.ids, i ∈ (br d (br (!d) B y A) x C).ids) → T.root ≤ M := by
    intro T hT
    cases T with
    | nil => simp
    | node l z r => exact (hz.rng (i := z.idx) (Or.inl (hT _ (by simp)))).2
  have hrA : A.root ≤ M := hrt fun i hi => hmem (Or.inl hi)
  have hrB : B.root ≤ M := hrt fun i hi => hmem (Or.inr (Or.inl hi))
  have hrC : C.root ≤ M := hrt fun i hi => hmem (Or.inr (Or.inr hi))
  obtain ⟨k1, k2, k3, k4, k5⟩ := AShape_br.1 hz.shape
  rw [root_br] at k1
  obtain ⟨j1, j2, j3, j4, j5⟩ := AShape_br.1 k4
  rw [Bool.not_not] at j2
  have hpos : ∀ {i}, i ∈ A.ids ∨ i ∈ B.ids ∨ i ∈ C.ids → 1 ≤ i := fun hi => (hz.rng (Or.inl (hmem hi))).1
  have eA : ht s.rg A.root = A.height := hA.ht j5 (fun i hi => hpos (Or.inl hi))
  have eB : ht s.rg B.root = B.height := hB.ht j4 (fun i hi => hpos (Or.inr (Or.inl hi)))
  have eC : ht s.rg C.root = C.height := hC.ht k5 (fun i hi => hpos (Or.inr (Or.inr hi)))
  have hxy : x.idx ≠ y.idx := fun hc => hd.xa (hc ▸ hymem)
  have hn := ((ids_br_perm (!d) B y A).nodup_iff).1 hd.na
  simp only [List.nodup_cons, List.mem_append, not_or] at hn
  obtain ⟨⟨yB, yA⟩, hn⟩ := hn
  obtain ⟨_, _, hBA⟩ := List.nodup_append.1 hn
  have xB : x.idx ∉ B.ids := fun hc => hd.xa (mem_ids_br.2 (by simp [hc]))
  have xA : x.idx ∉ A.ids := fun hc => hd.xa (mem_ids_br.2 (by simp [hc]))
  have yC : y.idx ∉ C.ids := hd.ab _ hymem
  have yc : y.idx ∉ cids c := hd.ac _ hymem
  have hlv : ∀ {i}, i = x.idx ∨ i = y.idx → i ∈ (X ++ E).map Prod.fst := by
    rintro i (rfl | rfl)
    · exact hz.live (Or.inl (mem_ids_br.2 (Or.inl rfl)))
    · exact hz.live (Or.inl (mem_ids_br.2 (Or.inr (Or.inl hymem))))
  obtain ⟨s1, e1, r1, g1, b1⟩ := setField_ok (kn := kn) (s := s) (v := B.root) d hx hrB (k2 ▸ hrC) (by omega)
    (by rw [k2]; omega)
  rw [k2, eB, eC] at g1
  have hyx : y.idx ≠ x.idx := fun hc => hxy hc.symm
  have g1y : ∀ q, s1.rg y.idx q = s.rg y.idx q := by intro q; rw [g1]; simp [hyx]
  have hne1 : ∀ i, i ≠ x.idx → ht s1.rg i = ht s.rg i := by
    intro i hi
    have : s1.rg i 2 = s.rg i 2 := by rw [g1]; simp [hi]
    unfold ht; rw [this]
  have eA1 : ht s1.rg A.root = A.height := by
    rw [← eA]
    by_cases hAn : A = .nil
    · subst hAn; rfl
    · exact hne1 _ (fun hc => xA (hc ▸ root_mem hAn))
  have ex1 : ht s1.rg x.idx = max B.height C.height + 1 := by
    have : s1.rg x.idx 2 = max B.height C.height := by rw [g1]; cases d <;> simp
    unfold ht; rw [this, if_neg (by omega)]
  have hoA : s1.rg y.idx (!(!d)).toNat = A.root := by rw [Bool.not_not, g1y, j2]
  obtain ⟨s2, e2, r2, g2, b2⟩ := setField_ok (kn := kn) (s := s1) (v := x.idx) (!d) hy hx.2 (hoA ▸ hrA) (by omega)
    (by rw [hoA]; omega)
  rw [hoA, eA1, ex1] at g2
  have hfr : ∀ i, i ≠ x.idx → i ≠ y.idx → ∀ q, s2.rg i q = s.rg i q := by
    intro i hi hi' q; rw [g2, g1]; simp [hi, hi']
  refine ⟨s2, ?_, ⟨AShape_br.2 ⟨?_, ?_, ?_, AShape_br.2 ⟨?_, ?_, ?_, ?_, ?_⟩, ?_⟩, ?_, ?_, ?_⟩⟩
  · unfold AVLTree.rotD
    rw [getField_d hx.2, k1]
    simp only [except_bind_ok]
    rw [getField_d hy.2, j1]
    simp only [except_bind_ok, e1, e2]; rfl
  · rw [root_br]; show s2.rg y.idx (!d).toNat = x.idx
    rw [g2]; simp
  · show s2.rg y.idx (!(!d)).toNat = A.root
    rw [g2, if_neg (by cases d <;> simp), if_neg (by cases d <;> simp)]; exact hoA
  · show s2.rg y.idx 2 = _
    rw [g2, if_neg (by cases d <;> simp)]; simp
  · show s2.rg x.idx d.toNat = _
    rw [g2]; simp only [hxy, false_and, if_false]; rw [g1]; simp
  · show s2.rg x.idx (!d).toNat = _
    rw [g2]; simp only [hxy, false_and, if_false]; rw [g1, if_neg (by cases d <;> simp), if_neg (by cases d <;> simp)]
    exact k2
  · show s2.rg x.idx 2 = _
    rw [g2]; simp only [hxy, false_and, if_false]; rw [g1, if_neg (by cases d <;> simp)]; simp
  · exact j4.frame (fun i hi q => hfr i (by rintro rfl; exact xB hi) (by rintro rfl; exact yB hi) q)
  · exact k5.frame (fun i hi q => hfr i (by rintro rfl; exact hd.xb hi) (by rintro rfl; exact yC hi) q)
  · exact j5.frame (fun i hi q => hfr i (by rintro rfl; exact xA hi) (by rintro rfl; exact yA hi) q)
  · rw [r2, r1]
    exact hz.cshape.frame0 (fun i hi q => hfr i (by rintro rfl; exact hd.xc hi) (by rintro rfl; exact yc hi) q)
  · rw [← hz.ents]; cases d <;> simp
  · exact b2 _ (b1 _ hz.base (hlv (Or.inl rfl))) (hlv (Or.inr rfl))

/-- the rotations at a node whose child in direction `d` is two levels higher than the other one -/
theorem Z.heavy {B A C : BT K V} {y : GN K V} (hz : Z s c x.idx (br d (br (!d) B y A) x C) X E)
    (hy : AVL (br (!d) B y A)) (hC : AVL C) (hH : (br (!d) B y A).height = C.height + 2)
    (bC : C.height + 5 < 2 ^ 31) :
    ∃ s' t', (do
        let s ← (if A.height < B.height then do
            let (t, i) ← s.rotD (!d) y.idx
            t.setField x.idx d.toNat i
          else pure s)
        s.rotD d x.idx) = .ok (s', t'.root) ∧
      Z s' c x.idx t' X E ∧ AVL t' ∧ t'.height ≤ C.height + 3 ∧ C.height + 2 ≤ t'.height ∧
      (A.height ≠ B.height → t'.height = C.height + 2) ∧
      t'.sk = bal d (br (!d) B y A).sk x.key C.sk := by
  have hH' := hH
  rw [height_br] at hH
  rw [← height_sk, ← height_sk, sk_br] at hH'
  obtain ⟨_, h1, h2, hB, hA⟩ := AVL_br.1 hy
  by_cases hlt : A.height < B.height
  · have hBn : B ≠ .nil := by rintro rfl; simp [height] at hlt
    obtain ⟨P, z, Q, rfl⟩ := as_br hBn d
    obtain ⟨_, p1, p2, hP, hQ⟩ := AVL_br.1 hB
    rw [height_br] at hlt h1 h2 hH
    have hzd := hz.down
    rw [root_br] at hzd
    have hzd' : Z s ((d, x, C) :: c) y.idx (br (!d) (br (!(!d)) P z Q) y A) X E := by rwa [Bool.not_not]
    obtain ⟨s1, e1, z1⟩ := hzd'.rotD hQ hP hA (by omega) (by omega) (by omega)
    rw [Bool.not_not] at z1
    have a1 : AVL (br (!d) P (y.setTag (max P.height A.height)) A) :=
      AVL_br.2 ⟨rfl, by omega, by omega, hP, hA⟩
    have hYh : (br (!d) P (y.setTag (max P.height A.height)) A).height = C.height + 1 := by
      rw [height_br]; omega
    generalize hY : br (!d) P (y.setTag (max P.height A.height)) A = Y at *
    have htz : ht s1.rg z.idx < 2 ^ 32 := by
      have := (AShape_br.1 z1.shape).2.2.1
      simp only [GN.idx_setTag, GN.tag_setTag] at this
      unfold ht; rw [this]
      split <;> omega
    have htC : ht s1.rg C.root < 2 ^ 32 := by
      rw [hC.ht z1.cshape.2.2.1 (fun i hi => (z1.rng (Or.inr (by simp [cids, hi]))).1)]
      omega
    obtain ⟨s2, e2, z2, _⟩ := z1.relink (by rw [root_br]; exact htz) htC
    have z3 := z2.up
    rw [← br_not d Q, ] at z3
    obtain ⟨s3, e3, z4⟩ := z3.rotD (x := x.setTag (s2.rg x.idx 2)) a1 hQ hC (by omega) (by omega) (by omega)
    rw [root_br] at e2
    refine ⟨s3, _, ?_, z4, ?_, ?_, ?_, fun hne => ?_, ?_⟩
    · rw [if_pos (by rw [height_br]; omega)]
      simp only [e1, except_bind_ok]
      simp only [GN.idx_setTag] at e2
      simp only [e2, except_bind_ok]
      rw [root_br]; exact e3
    · exact AVL_br.2 ⟨by rw [height_br]; rfl, by rw [height_br]; omega, by rw [height_br]; omega,
        AVL_br.2 ⟨rfl, by omega, by omega, hQ, hC⟩, a1⟩
    · rw [height_br, height_br]; omega
    · rw [height_br, height_br]; omega
    · rw [height_br, height_br]; omega
    · rw [← hY]
      simp only [sk_br, GN.key_setTag] at hH' ⊢
      rw [bal_double hH' (by rw [← sk_br, height_sk, height_sk, height_br]; omega)]
  · obtain ⟨s3, e3, z4⟩ := hz.rotD hA hB hC (by omega) (by omega) (by omega)
    refine ⟨s3, _, ?_, z4, ?_, ?_, ?_, fun hne => ?_, ?_⟩
    · rw [if_neg hlt]
      simp only [except_pure, except_bind_ok]
      rw [root_br]; exact e3
    · exact AVL_br.2 ⟨by rw [height_br]; rfl, by rw [height_br]; omega, by rw [height_br]; omega,
        AVL_br.2 ⟨rfl, by omega, by omega, hB, hC⟩, hA⟩
    · rw [height_br, height_br]; omega
    · rw [height_br, height_br]; omega
    · rw [height_br, height_br]; omega
    · simp only [sk_br, GN.key_setTag]
      rw [bal_single hH' (by rw [height_sk, height_sk]; exact hlt)]

/-- the subtrees of the root differ in height -/
def Uneven : BT K V → Prop
  | .nil => False
  | .node l _ r => l.height ≠ r.height

theorem uneven_br {d : Bool} {B A : BT K V} {y : GN K V} (h : Uneven (br d B y A)) : A.height ≠ B.height := by
  cases d
  · exact fun e => h e.symm
  · exact h

/-- `rebalance` at one node -/
theorem Z.rebalanceNode {l r : BT K V} (hz : Z s c x.idx (.node l x r) X E) (hl : AVL l) (hr : AVL r)
    (h1 : l.height ≤ r.height + 2) (h2 : r.height ≤ l.height + 2) (bl : l.height + 5 < 2 ^ 31)
    (br : r.height + 5 < 2 ^ 31) :
    ∃ s' t' o, s.rebalanceNode x.idx = .ok (s', o) ∧ (AVL t' ∧ t'.sk = Tree.balance l.sk x.key r.sk) ∧ t' ≠ .nil ∧
      t'.height ≤ max l.height r.height + 1 ∧ max l.height r.height ≤ t'.height ∧
      ((l.height ≤ r.height + 1 ∧ r.height ≤ l.height + 1 ∧ t'.height = max l.height r.height + 1 ∧ o = none ∧
          t' = .node l (x.setTag (max l.height r.height)) r ∧ Z s' c t'.root t' X E) ∨
        ((l.height = r.height + 2 ∨ r.height = l.height + 2) ∧ o = some t'.root ∧ Z s' c x.idx t' X E ∧
          ((l.height = r.height + 2 → Uneven l) → (r.height = l.height + 2 → Uneven r) →
            t'.height = max l.height r.height))) := by
  have hx : 1 ≤ x.idx ∧ x.idx ≤ M := hz.rng (Or.inl (by simp))
  obtain ⟨k1, k2, k3, k4, k5⟩ := hz.shape
  have hpl : ∀ i ∈ l.ids, 1 ≤ i ∧ i ≤ M := fun i hi => hz.rng (Or.inl (by simp [hi]))
  have hpr : ∀ i ∈ r.ids, 1 ≤ i ∧ i ≤ M := fun i hi => hz.rng (Or.inl (by simp [hi]))
  have hrt : ∀ {T : BT K V}, (∀ i ∈ T.ids, 1 ≤ i ∧ i ≤ M) → T.root ≤ M := by
    intro T hT
    cases T with
    | nil => simp
    | node l z r => exact (hT z.idx (by simp)).2
  have el : ht s.rg l.root = l.height := hl.ht k4 (fun i hi => (hpl i hi).1)
  have er : ht s.rg r.root = r.height := hr.ht k5 (fun i hi => (hpr i hi).1)
  have hbf := balanceFactor_ok (s := s) (hrt hpl) (hrt hpr) (by omega) (by omega)
  unfold AVLTree.rebalanceNode
  rw [LEFT, RIGHT, getField_ok hx.2 (by decide), getField_ok hx.2 (by decide), k1, k2]
  simp only [except_bind_ok]
  rw [hbf, el, er]
  simp only [except_bind_ok]
  by_cases g1 : l.height = r.height + 2
  · have hln : l ≠ .nil := by rintro rfl; simp [height] at g1
    obtain ⟨B, y, A, rfl⟩ := as_br hln (!false)
    obtain ⟨s', t', e, z', a', b1, b2, b3, b4⟩ := Z.heavy (d := false) hz hl hr g1 (by omega)
    obtain ⟨_, _, _, hB, hA⟩ := AVL_br.1 hl
    obtain ⟨m1, m2, _, m4, m5⟩ := AShape_br.1 k4
    simp only [Bool.not_false, Bool.not_true, Bool.toNat_true, Bool.toNat_false] at m1 m2
    have hB' : ∀ i ∈ B.ids, 1 ≤ i ∧ i ≤ M := fun i hi => hpl i (mem_ids_br.2 (by simp [hi]))
    have hA' : ∀ i ∈ A.ids, 1 ≤ i ∧ i ≤ M := fun i hi => hpl i (mem_ids_br.2 (by simp [hi]))
    have eA : ht s.rg A.root = A.height := hA.ht m5 (fun i hi => (hA' i hi).1)
    have eB : ht s.rg B.root = B.height := hB.ht m4 (fun i hi => (hB' i hi).1)
    rw [height_br] at bl
    refine ⟨s', t', some t'.root, ?_, ⟨a', b4⟩, by rintro rfl; simp [height] at b2, by omega, by omega,
      Or.inr ⟨Or.inl g1, rfl, z', fun q _ => by rw [b3 (uneven_br (q g1))]; omega⟩⟩
    have hyM : y.idx ≤ M := (hpl y.idx (mem_ids_br.2 (Or.inl rfl))).2
    rw [if_pos (by omega), root_br, getField_ok hyM (by decide), getField_ok hyM (by decide), m1, m2]
    simp only [except_bind_ok]
    rw [balanceFactor_ok (hrt hA') (hrt hB') (by omega) (by omega), eA, eB]
    simp only [except_bind_ok]
    simp only [leftRotate_eq, rightRotate_eq]
    simp only [Bool.not_false, Bool.toNat_false] at e
    by_cases hlt : A.height < B.height
    · rw [if_pos hlt] at e
      rw [if_pos (by omega)]
      have e' := congrArg (fun q => q >>= fun p : AVLTree K V M × Nat => (pure (p.1, some p.2) : R _)) e
      simp only [except_bind_ok, except_pure, bind_assoc] at e' ⊢
      exact e'
    · rw [if_neg hlt] at e
      rw [if_neg (by omega)]
      have e' := congrArg (fun q => q >>= fun p : AVLTree K V M × Nat => (pure (p.1, some p.2) : R _)) e
      simp only [except_bind_ok, except_pure] at e' ⊢
      exact e'
  · rw [if_neg (by omega)]
    by_cases g2 : r.height = l.height + 2
    · have hrn : r ≠ .nil := by rintro rfl; simp [height] at g2
      obtain ⟨B, y, A, rfl⟩ := as_br hrn (!true)
      obtain ⟨s', t', e, z', a', b1, b2, b3, b4⟩ := Z.heavy (d := true) hz hr hl g2 (by omega)
      obtain ⟨_, _, _, hB, hA⟩ := AVL_br.1 hr
      obtain ⟨m1, m2, _, m4, m5⟩ := AShape_br.1 k5
      simp only [Bool.not_false, Bool.not_true, Bool.toNat_true, Bool.toNat_false] at m1 m2
      have hB' : ∀ i ∈ B.ids, 1 ≤ i ∧ i ≤ M := fun i hi => hpr i (mem_ids_br.2 (by simp [hi]))
      have hA' : ∀ i ∈ A.ids, 1 ≤ i ∧ i ≤ M := fun i hi => hpr i (mem_ids_br.2 (by simp [hi]))
      have eA : ht s.rg A.root = A.height := hA.ht m5 (fun i hi => (hA' i hi).1)
      have eB : ht s.rg B.root = B.height := hB.ht m4 (fun i hi => (hB' i hi).1)
      rw [height_br] at br
      refine ⟨s', t', some t'.root, ?_, ⟨a', b4⟩, by rintro rfl; simp [height] at b2, by omega, by omega,
        Or.inr ⟨Or.inr g2, rfl, z', fun _ q => by rw [b3 (uneven_br (q g2))]; omega⟩⟩
      have hyM : y.idx ≤ M := (hpr y.idx (mem_ids_br.2 (Or.inl rfl))).2
      rw [if_pos (by omega), root_br, getField_ok hyM (by decide), getField_ok hyM (by decide), m1, m2]
      simp only [except_bind_ok]
      rw [balanceFactor_ok (hrt hB') (hrt hA') (by omega) (by omega), eA, eB]
      simp only [except_bind_ok]
      simp only [leftRotate_eq, rightRotate_eq]
      simp only [Bool.not_true, Bool.toNat_true] at e
      by_cases hlt : A.height < B.height
      · rw [if_pos hlt] at e
        rw [if_pos (by omega)]
        have e' := congrArg (fun q => q >>= fun p : AVLTree K V M × Nat => (pure (p.1, some p.2) : R _)) e
        simp only [except_bind_ok, except_pure, bind_assoc] at e' ⊢
        exact e'
      · rw [if_neg hlt] at e
        rw [if_neg (by omega)]
        have e' := congrArg (fun q => q >>= fun p : AVLTree K V M × Nat => (pure (p.1, some p.2) : R _)) e
        simp only [except_bind_ok, except_pure] at e' ⊢
        exact e'
    · rw [if_neg (by omega)]
      obtain ⟨s', e, z', _⟩ := Z.updateHeight (d := false) hz hl hr (by omega) (by omega)
      refine ⟨s', _, none, by simp only [e, except_bind_ok]; rfl,
        ⟨(show AVL (.node l (x.setTag (max l.height r.height)) r) from ⟨rfl, by omega, by omega, hl, hr⟩),
          (bal_even (d := false) (by simp only [height_sk]; omega) (by simp only [height_sk]; omega)).symm⟩,
        by simp, ?_, ?_, Or.inl ⟨by omega, by omega, rfl, rfl, rfl, z'⟩⟩
      · simp [height]
      · simp only [height]; omega

/-! ### the loop -/

/-- the path entry fields of the hole of a context -/
def parOf : Ctx K V → Option Nat
  | [] => none
  | (_, x, _) :: _ => some x.idx

/-- direction of the hole in a path entry -/
def dirOf : Ctx K V → Option Nat
  | [] => none
  | (d, _, _) :: _ => some d.toNat

/-- path entries of the nodes above the hole -/
def pathOf : Ctx K V → List Ancestor
  | [] => []
  | (_, x, _) :: c => (parOf c, dirOf c, x.idx) :: pathOf c

theorem Z.len_le (hz : Z s c h t X E) : t.ents.length ≤ M := by
  have h1 := hz.base.le
  rw [← hz.ents] at h1
  simp only [List.length_append] at h1
  omega

theorem Z.sib_le (hz : Z s ((d, x, b) :: c) h t X E) : b.ents.length ≤ M := by
  have h1 := hz.base.le
  rw [← hz.ents] at h1
  cases d <;> simp [lft, rgt] at h1 <;> omega

/-- linking the result of the rotations -/
theorem Z.link {i : Nat} (hM : M + 1 < 2 ^ 32) (hz : Z s c i t X E) (ht : AVL t) (htn : t ≠ .nil)
    (hC : ∀ d x b c', c = (d, x, b) :: c' → AVL b) :
    ∃ s', (match parOf c with
        | some parent => do s.setField parent (← unwrap (dirOf c)) t.root
        | none => do
          let t' := { s with root := t.root }
          t'.updateHeight t.root : R (AVLTree K V M)) = .ok s' ∧ Z s' c t.root t X E := by
  have hh := ht.height_lt (by have := hz.len_le; omega)
  cases c with
  | nil =>
    simp only [parOf]
    have hz' : Z ({ s with root := t.root } : AVLTree K V M) [] t.root t X E := ⟨hz.shape, rfl, hz.ents, hz.base⟩
    cases t with
    | nil => exact absurd rfl htn
    | node l x r =>
      obtain ⟨h1, _, _, h4, h5⟩ := ht
      simp only [height] at hh
      obtain ⟨s', e, z', _⟩ := Z.updateHeight (d := false) hz' h4 h5 (by omega) (by omega)
      rw [← h1, GN.setTag_self] at z'
      exact ⟨s', e, z'⟩
  | cons f c =>
    obtain ⟨d, x, b⟩ := f
    have hb := hC _ _ _ _ rfl
    have hbh := hb.height_lt (by have := hz.sib_le; omega)
    obtain ⟨s', e, z', _⟩ := hz.relink
      (by rw [ht.ht hz.shape (fun i hi => (hz.rng (Or.inl hi)).1)]; omega)
      (by rw [hb.ht hz.cshape.2.2.1 (fun i hi => (hz.rng (Or.inr (by simp [cids, hi]))).1)]; omega)
    exact ⟨s', by simpa only [parOf, dirOf, unwrap, except_bind_ok] using e, z'⟩

/-- `rebalance` along the path above the focus -/
theorem Z.rebalance (hM : M + 1 < 2 ^ 32) : ∀ {c : Ctx K V} {s : AVLTree K V M} {t : BT K V} {h0 : Nat},
    Z s c t.root t X E → AVL t → CAVL c h0 → t.height ≤ h0 + 1 → h0 ≤ t.height + 1 →
    ∃ s' t', s.rebalance (pathOf c) = .ok s' ∧ Z s' [] t'.root t' X E ∧ AVL t' ∧ t'.sk = balUp c t.sk := by
  intro c
  induction c with
  | nil => intro s t h0 hz ha _ _ _; exact ⟨s, t, rfl, hz, ha, rfl⟩
  | cons f c ih =>
    obtain ⟨d, x, b⟩ := f
    intro s t h0 hz ha hc h1 h2
    obtain ⟨hb, c1, c2, hc⟩ := hc
    have hzu := hz.up
    have bt := ha.height_lt (by have := hz.len_le; omega)
    have bb := hb.height_lt (by have := hz.sib_le; omega)
    have key : ∃ s' t' o, s.rebalanceNode x.idx = .ok (s', o) ∧ (AVL t' ∧ t'.sk = bal d t.sk x.key b.sk) ∧ t' ≠ .nil ∧
      t'.height ≤ max t.height b.height + 1 ∧ max t.height b.height ≤ t'.height ∧
      ((t'.height = max t.height b.height + 1 ∧ o = none ∧ Z s' c t'.root t' X E) ∨
        ((t.height = b.height + 2 ∨ b.height = t.height + 2) ∧ o = some t'.root ∧ Z s' c x.idx t' X E)) := by
      cases d
      · obtain ⟨s', t', o, e, a', n', b1, b2, hcase⟩ := Z.rebalanceNode (x := x.setTag (s.rg x.idx 2)) hzu ha hb (by omega) (by omega)
          (by omega) (by omega)
        refine ⟨s', t', o, e, a', n', b1, b2, ?_⟩
        rcases hcase with ⟨_, _, g3, g4, _, g5⟩ | ⟨g1, g2, g3, _⟩
        · exact Or.inl ⟨g3, g4, g5⟩
        · exact Or.inr ⟨g1, g2, g3⟩
      · obtain ⟨s', t', o, e, a', n', b1, b2, hcase⟩ := Z.rebalanceNode (x := x.setTag (s.rg x.idx 2)) hzu hb ha (by omega) (by omega)
          (by omega) (by omega)
        refine ⟨s', t', o, e, a', n', by omega, by omega, ?_⟩
        rcases hcase with ⟨_, _, g3, g4, _, g5⟩ | ⟨g1, g2, g3, _⟩
        · exact Or.inl ⟨by omega, g4, g5⟩
        · exact Or.inr ⟨by omega, g2, g3⟩
    obtain ⟨s1, t1, o, e1, ⟨a1, k1⟩, n1, b1, b2, hcase⟩ := key
    have hsib : ∀ d x b c', c = (d, x, b) :: c' → AVL b := by
      rintro d' x' b' c' rfl; exact hc.1
    rcases hcase with ⟨g1, rfl, g3⟩ | ⟨g1, rfl, g3⟩
    · obtain ⟨s', t', e, z', a', k'⟩ := ih g3 a1 hc (by omega) (by omega)
      exact ⟨s', t', by simp only [pathOf, AVLTree.rebalance, e1, except_bind_ok, except_pure]; exact e, z', a', by rw [k', k1]; rfl⟩
    · obtain ⟨s2, e2, z2⟩ := g3.link hM a1 n1 hsib
      obtain ⟨s', t', e, z', a', k'⟩ := ih z2 a1 hc (by omega) (by omega)
      refine ⟨s', t', ?_, z', a', by rw [k', k1]; rfl⟩
      simp only [pathOf, AVLTree.rebalance, e1, except_bind_ok]
      have e3 := congrArg (fun q : R (AVLTree K V M) => q >>= fun t => t.rebalance (pathOf c)) e2
      exact e3.trans e

/-- an additional entry for the node in focus, which is balanced, changes nothing -/
theorem Z.rebalance_self (hM : M + 1 < 2 ^ 32) {p q : Option Nat} {h0 : Nat} (hz : Z s c t.root t X E) (ht : AVL t)
    (htn : t ≠ .nil) (hc : CAVL c h0) (h1 : t.height ≤ h0 + 1) (h2 : h0 ≤ t.height + 1) :
    ∃ s' t', s.rebalance ((p, q, t.root) :: pathOf c) = .ok s' ∧ Z s' [] t'.root t' X E ∧ AVL t' ∧
      t'.sk = balUp c t.sk := by
  have hh := ht.height_lt (by have := hz.len_le; omega)
  cases t with
  | nil => exact absurd rfl htn
  | node l x r =>
    obtain ⟨a1, a2, a3, a4, a5⟩ := ht
    simp only [height] at hh h1 h2
    obtain ⟨s1, t1, o, e1, ⟨a', _⟩, n', b1, b2, hcase⟩ := Z.rebalanceNode hz a4 a5 (by omega) (by omega) (by omega) (by omega)
    rcases hcase with ⟨_, _, g3, rfl, g4, g5⟩ | ⟨g1, _⟩
    · obtain ⟨s', t', e, z', a'', k'⟩ := Z.rebalance hM g5 a' hc (by omega) (by omega)
      exact ⟨s', t', by simp only [root_node, AVLTree.rebalance, e1, except_bind_ok, except_pure]; exact e, z', a'', by rw [k', g4]; rfl⟩
    · omega

theorem near_link {i : Nat} (h : (match parOf c with
        | some parent => do s.setField parent (← unwrap (dirOf c)) i
        | none => do
          let t' := { s with root := i }
          t'.updateHeight i : R (AVLTree K V M)) = .ok s') : Near 1 s s' := by
  split at h
  · obtain ⟨_, _, h⟩ := ok_bind h
    exact near_links (links_setField h)
  · exact (near_links (s := ⟨i, s.allocator⟩) (links_updateHeight h)).mono (by simp)

/-- `rebalance` along the path above the focus after an insertion: at most one node is rotated -/
theorem Z.near_rebalance (hM : M + 1 < 2 ^ 32) : ∀ {c : Ctx K V} {s : AVLTree K V M} {t : BT K V} {h0 : Nat},
    Z s c t.root t X E → AVL t → CAVL c h0 → s.rebalance (pathOf c) = .ok s' →
    (t.height = h0 → Near 0 s s') ∧ (t.height = h0 + 1 → Uneven t ∨ t.height = 1 → Near 6 s s') := by
  intro c
  induction c with
  | nil => intro s t h0 hz ha _ he; cases he; exact ⟨fun _ => .refl _, fun _ _ => .refl _⟩
  | cons f c ih =>
    obtain ⟨d, x, b⟩ := f
    intro s t h0 hz ha hc he
    obtain ⟨hb, c1, c2, hc⟩ := hc
    by_cases hor : t.height = h0 ∨ t.height = h0 + 1
    case neg => exact ⟨fun h => absurd (Or.inl h) hor, fun h => absurd (Or.inr h) hor⟩
    have hzu := hz.up
    have bt := ha.height_lt (by have := hz.len_le; omega)
    have bb := hb.height_lt (by have := hz.sib_le; omega)
    have key : ∃ s' t' o, s.rebalanceNode x.idx = .ok (s', o) ∧ AVL t' ∧ t' ≠ .nil ∧
      ((t'.height = max t.height b.height + 1 ∧ o = none ∧ (t.height ≠ b.height → Uneven t') ∧ Z s' c t'.root t' X E) ∨
        ((t.height = b.height + 2 ∨ b.height = t.height + 2) ∧ o = some t'.root ∧ Z s' c x.idx t' X E ∧
          (b.height < t.height → Uneven t → t'.height = max t.height b.height))) := by
      cases d
      · obtain ⟨s', t', o, e, a', n', b1, b2, hcase⟩ := Z.rebalanceNode (x := x.setTag (s.rg x.idx 2)) hzu ha hb (by omega) (by omega)
          (by omega) (by omega)
        refine ⟨s', t', o, e, a'.1, n', ?_⟩
        rcases hcase with ⟨_, _, g3, g4, g6, g5⟩ | ⟨g1, g2, g3, g4⟩
        · exact Or.inl ⟨g3, g4, fun h => by rw [g6]; exact h, g5⟩
        · exact Or.inr ⟨g1, g2, g3, fun h h' => g4 (fun _ => h') (by omega)⟩
      · obtain ⟨s', t', o, e, a', n', b1, b2, hcase⟩ := Z.rebalanceNode (x := x.setTag (s.rg x.idx 2)) hzu hb ha (by omega) (by omega)
          (by omega) (by omega)
        refine ⟨s', t', o, e, a'.1, n', ?_⟩
        rcases hcase with ⟨_, _, g3, g4, g6, g5⟩ | ⟨g1, g2, g3, g4⟩
        · exact Or.inl ⟨by omega, g4, fun h => by rw [g6]; exact h.symm, g5⟩
        · exact Or.inr ⟨by omega, g2, g3, fun h h' => by rw [g4 (by omega) (fun _ => h')]; omega⟩
    obtain ⟨s1, t1, o, e1, a1, n1, hcase⟩ := key
    have hsib : ∀ d x b c', c = (d, x, b) :: c' → AVL b := by
      rintro d' x' b' c' rfl; exact hc.1
    simp only [pathOf, AVLTree.rebalance, e1, except_bind_ok] at he
    obtain ⟨q1, q2⟩ := near_rebalanceNode e1
    rcases hcase with ⟨g1, rfl, gu, g3⟩ | ⟨g1, rfl, g3, gh⟩
    · obtain ⟨i1, i2⟩ := ih g3 a1 hc he
      have n0 := q1 rfl
      constructor
      · intro hh
        exact n0.trans (i1 (by omega))
      · intro hh hu
        by_cases hge : b.height ≤ h0
        · exact (n0.trans (i2 (by omega) (Or.inl (gu (by omega))))).mono (by omega)
        · exact (n0.trans (i1 (by omega))).mono (by omega)
    · obtain ⟨s2, e2, z2⟩ := g3.link hM a1 n1 hsib
      obtain ⟨s3, e2', he⟩ := ok_bind he
      have := e2'.symm.trans e2
      cases this
      obtain ⟨i1, i2⟩ := ih z2 a1 hc he
      constructor
      · intro hh; omega
      · intro hh hu
        have hth := gh (by omega) (hu.resolve_right (by omega))
        exact ((q2.trans (near_link e2')).trans (i1 (by omega)))

end AVLTree
end Sokoban
