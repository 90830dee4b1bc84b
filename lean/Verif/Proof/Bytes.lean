import Verif.Spec.Bytes
import Verif.Proof.Layout

namespace Sokoban.Bytes
open Layout

theorem Rep.Lawful.pos {T : Type} {A : Rep T} (h : A.Lawful) : 0 < A.align := by
  obtain ⟨k, hk⟩ := h.align
  rw [hk]; exact Nat.pow_pos (by omega)

/-! ### Words -/

theorem readLE_congr : ∀ (n : Nat) (m m' : Mem), (∀ k < n, m k = m' k) → readLE m n = readLE m' n
  | 0, _, _, _ => rfl
  | n + 1, m, m', h => by
    simp only [readLE]
    rw [h 0 (by omega), readLE_congr n (m.from 1) (m'.from 1) (fun k hk => h (1 + k) (by omega))]

theorem byteOf_succ (v k : Nat) : byteOf v (1 + k) = byteOf (v / 256) k := by
  unfold byteOf
  congr 1
  rw [Nat.pow_add, Nat.pow_one, Nat.div_div_eq_div_mul]

theorem readLE_byteOf : ∀ (n v : Nat), readLE (fun k => byteOf v k) n = v % 256 ^ n
  | 0, v => by simp [readLE, Nat.mod_one]
  | n + 1, v => by
    have : Mem.from (fun k => byteOf v k) 1 = fun k => byteOf (v / 256) k := by
      funext k; exact byteOf_succ v k
    simp only [readLE]
    rw [this, readLE_byteOf n (v / 256)]
    have h0 : (byteOf v 0).val = v % 256 := by simp [byteOf]
    rw [h0, Nat.pow_succ, Nat.mul_comm (256 ^ n) 256, Nat.mod_mul]

theorem readLE_write (n v : Nat) (m : Mem) :
    readLE (fun k => if k < n then byteOf v k else m k) n = v % 256 ^ n := by
  rw [← readLE_byteOf]
  exact readLE_congr n _ _ (fun k hk => by simp [hk])

theorem lawful_word {n : Nat} (hn : ∃ k, n = 2 ^ k) : (word n).Lawful where
  align := hn
  dvd := Nat.dvd_refl _
  congr m m' h := readLE_congr n m m' h
  readWrite v m hv := by
    show readLE _ n = v
    exact (readLE_write n v m).trans (Nat.mod_eq_of_lt hv)
  frame v m k hk := by
    have : ¬ k < n := Nat.not_lt.2 hk
    simp [word, this]

theorem lawful_u32 : u32.Lawful := lawful_word ⟨2, rfl⟩
theorem lawful_u64 : u64.Lawful := lawful_word ⟨3, rfl⟩

theorem lawful_uint {n a : Nat} (ha : ∃ k, a = 2 ^ k) (hd : a ∣ n) : (uint n a).Lawful where
  align := ha
  dvd := hd
  congr m m' h := by
    show BitVec.ofNat _ _ = BitVec.ofNat _ _
    rw [readLE_congr n m m' h]
  readWrite v m _ := by
    show BitVec.ofNat (8 * n) (readLE (fun k => if k < n then byteOf v.toNat k else m k) n) = v
    rw [readLE_write]
    apply BitVec.eq_of_toNat_eq
    have : (256 : Nat) ^ n = 2 ^ (8 * n) := by rw [Nat.pow_mul]
    rw [this, BitVec.toNat_ofNat, Nat.mod_mod]
    exact Nat.mod_eq_of_lt v.isLt
  frame v m k hk := by
    have : ¬ k < n := Nat.not_lt.2 hk
    simp [uint, this]

theorem lawful_pad {n a : Nat} (ha : ∃ k, a = 2 ^ k) (hd : a ∣ n) : (pad n a).Lawful where
  align := ha
  dvd := hd
  congr _ _ _ := rfl
  readWrite _ _ _ := rfl
  frame _ _ _ _ := rfl

/-! ### Arrays -/

section Array
variable {T : Type} {A : Rep T}

theorem patch_lt {m m' : Mem} {off k : Nat} (h : k < off) : m.patch off m' k = m k := by
  have : ¬ off ≤ k := by omega
  simp [Mem.patch, this]

theorem patch_from (m m' : Mem) (off : Nat) : (m.patch off m').from off = m' := by
  funext k; simp [Mem.patch, Mem.from]

/-- Patching with what a type wrote changes nothing beyond that type. -/
theorem patch_write_ge (hA : A.Lawful) (v : T) (m : Mem) {off k : Nat} (h : off + A.size ≤ k) :
    m.patch off (A.write v (m.from off)) k = m k := by
  have h1 : off ≤ k := by omega
  simp only [Mem.patch, h1, if_true]
  rw [hA.frame _ _ _ (by omega)]
  simp only [Mem.from]
  congr 1; omega

theorem writeArray_ge (hA : A.Lawful) (f : Nat → T) : ∀ (n : Nat) (m : Mem) (k : Nat), n * A.size ≤ k →
    writeArray A f n m k = m k
  | 0, _, _, _ => rfl
  | n + 1, m, k, h => by
    have h2 : n * A.size + A.size ≤ k := by rw [Nat.add_mul, Nat.one_mul] at h; exact h
    simp only [writeArray]
    rw [patch_write_ge hA _ _ h2]
    exact writeArray_ge hA f n m k (by omega)

theorem read_writeArray (hA : A.Lawful) (f : Nat → T) (m : Mem) : ∀ (n i : Nat), i < n → A.Valid (f i) →
    A.read ((writeArray A f n m).from (i * A.size)) = f i
  | 0, _, h, _ => by omega
  | n + 1, i, h, hv => by
    simp only [writeArray]
    by_cases e : i = n
    · subst e
      rw [patch_from]
      exact hA.readWrite _ _ hv
    · have hi : i < n := by omega
      rw [← read_writeArray hA f m n i hi hv]
      apply hA.congr
      intro k hk
      simp only [Mem.from]
      apply patch_lt
      have : (i + 1) * A.size ≤ n * A.size := Nat.mul_le_mul_right _ hi
      rw [Nat.add_mul, Nat.one_mul] at this
      omega

theorem lawful_array (hA : A.Lawful) (n : Nat) : (array A n).Lawful where
  align := hA.align
  dvd := Nat.dvd_trans hA.dvd (Nat.dvd_mul_left _ _)
  congr m m' h := by
    apply Vector.ext
    intro i hi
    simp only [array, Vector.getElem_ofFn]
    apply hA.congr
    intro k hk
    apply h
    show i * A.size + k < n * A.size
    have : (i + 1) * A.size ≤ n * A.size := Nat.mul_le_mul_right _ hi
    rw [Nat.add_mul, Nat.one_mul] at this
    omega
  readWrite v m hv := by
    apply Vector.ext
    intro i hi
    simp only [array, Vector.getElem_ofFn]
    rw [read_writeArray hA _ m n i hi]
    · simp [hi]
    · simp only [hi, dif_pos]; exact hv i hi
  frame v m k hk := writeArray_ge hA _ n m k hk

end Array

/-! ### Structures -/

/-- As `Rep.Lawful`, for a structure under construction. -/
structure Fields.Lawful {S : Type} (F : Fields S) : Prop where
  align : ∃ k, F.align = 2 ^ k
  congr : ∀ m m' : Mem, (∀ k < F.stop, m k = m' k) → F.read m = F.read m'
  readWrite : ∀ v m, F.Valid v → F.read (F.write v m) = v
  frame : ∀ v m k, F.stop ≤ k → F.write v m k = m k

namespace Fields
variable {S T : Type} {F : Fields S} {A : Rep T}

theorem lawful_nil : nil.Lawful where
  align := ⟨0, rfl⟩
  congr _ _ _ := rfl
  readWrite _ _ _ := rfl
  frame _ _ _ _ := rfl

theorem stop_le_off (hA : A.Lawful) : F.stop ≤ F.off A := le_roundUp hA.pos

theorem lawful_add (hF : F.Lawful) (hA : A.Lawful) : (F.add A).Lawful where
  align := by
    obtain ⟨k, hk⟩ := hF.align
    obtain ⟨l, hl⟩ := hA.align
    show ∃ j, max F.align A.align = 2 ^ j
    rcases Nat.le_total F.align A.align with h | h
    · exact ⟨l, by rw [Nat.max_eq_right h, hl]⟩
    · exact ⟨k, by rw [Nat.max_eq_left h, hk]⟩
  congr m m' h := by
    have hle := stop_le_off (F := F) hA
    show (_, _) = (_, _)
    rw [hF.congr m m' (fun k hk => h k (by show k < F.off A + A.size; omega)),
      hA.congr (m.from (F.off A)) (m'.from (F.off A)) (fun k hk => h _ (by show F.off A + k < F.off A + A.size; omega))]
  readWrite v m hv := by
    have hle := stop_le_off (F := F) hA
    obtain ⟨s, t⟩ := v
    show (F.read _, A.read _) = (s, t)
    simp only [add]
    rw [patch_from, hA.readWrite _ _ hv.2]
    rw [hF.congr _ (F.write s m) (fun k hk => patch_lt (by omega)), hF.readWrite _ _ hv.1]
  frame v m k hk := by
    have hle := stop_le_off (F := F) hA
    have hk' : F.off A + A.size ≤ k := hk
    simp only [add]
    rw [patch_write_ge hA _ _ hk', hF.frame _ _ _ (by omega)]

theorem lawful_close (hF : F.Lawful) {f : S → T} {g : T → S} (hfg : ∀ t, f (g t) = t) : (F.close f g).Lawful where
  align := hF.align
  dvd := dvd_roundUp _ _
  congr m m' h := by
    have hpos : 0 < F.align := by
      obtain ⟨k, hk⟩ := hF.align
      rw [hk]; exact Nat.pow_pos (by omega)
    show f _ = f _
    rw [hF.congr m m' (fun k hk => h k (Nat.lt_of_lt_of_le hk (le_roundUp hpos)))]
  readWrite v m hv := by
    show f (F.read (F.write (g v) m)) = v
    rw [hF.readWrite _ _ hv, hfg]
  frame v m k hk := by
    have hpos : 0 < F.align := by
      obtain ⟨k, hk⟩ := hF.align
      rw [hk]; exact Nat.pow_pos (by omega)
    exact hF.frame _ _ _ (Nat.le_trans (le_roundUp hpos) hk)

end Fields

open Fields

/-! ### The types of the crate -/

section Types
variable {T K V : Type} {A : Rep T} {C : Rep K} {D : Rep V}

theorem lawful_node (hA : A.Lawful) (N : Nat) : (node A N).Lawful :=
  lawful_close (lawful_add (lawful_add lawful_nil (lawful_array lawful_u32 N)) hA) (fun _ => rfl)

theorem lawful_nodeAllocator (hA : A.Lawful) (M N : Nat) : (nodeAllocator A M N).Lawful :=
  lawful_close (lawful_add (lawful_add (lawful_add (lawful_add lawful_nil lawful_u64) lawful_u32) lawful_u32)
    (lawful_array (lawful_node hA N) M)) (fun _ => rfl)

theorem lawful_dequeHead : dequeHead.Lawful :=
  lawful_add (lawful_add (lawful_add lawful_nil lawful_u64) lawful_u32) lawful_u32

theorem lawful_deque (hA : A.Lawful) (M : Nat) : (deque A M).Lawful :=
  lawful_close (lawful_add lawful_dequeHead (lawful_nodeAllocator hA M 2)) (fun _ => rfl)

theorem lawful_entry (hC : C.Lawful) (hD : D.Lawful) : (entry C D).Lawful :=
  lawful_add (lawful_add lawful_nil hC) hD

theorem lawful_hashNode (hC : C.Lawful) (hD : D.Lawful) : (hashNode C D).Lawful :=
  lawful_close (lawful_entry hC hD) (fun _ => rfl)

theorem lawful_hashHead (B : Nat) : (hashHead B).Lawful := lawful_add lawful_nil (lawful_array lawful_u32 B)

theorem lawful_hashTable (hC : C.Lawful) (hD : D.Lawful) (B M : Nat) : (hashTable C D B M).Lawful :=
  lawful_close (lawful_add (lawful_hashHead B) (lawful_nodeAllocator (lawful_hashNode hC hD) M 4)) (fun _ => rfl)

theorem lawful_rbNode (hC : C.Lawful) (hD : D.Lawful) : (rbNode C D).Lawful :=
  lawful_close (lawful_entry hC hD) (fun _ => rfl)

theorem lawful_rbHead : rbHead.Lawful :=
  lawful_add (lawful_add lawful_nil lawful_u32) (lawful_pad ⟨2, rfl⟩ ⟨3, rfl⟩)

theorem lawful_redBlackTree (hC : C.Lawful) (hD : D.Lawful) (M : Nat) : (redBlackTree C D M).Lawful :=
  lawful_close (lawful_add lawful_rbHead (lawful_nodeAllocator (lawful_rbNode hC hD) M 4)) (fun _ => rfl)

theorem lawful_avlNode (hC : C.Lawful) (hD : D.Lawful) : (avlNode C D).Lawful :=
  lawful_close (lawful_entry hC hD) (fun _ => rfl)

theorem lawful_avlHead : avlHead.Lawful := lawful_add lawful_nil lawful_u64

theorem lawful_avlTree (hC : C.Lawful) (hD : D.Lawful) (M : Nat) : (avlTree C D M).Lawful :=
  lawful_close (lawful_add lawful_avlHead (lawful_nodeAllocator (lawful_avlNode hC hD) M 4)) (fun _ => rfl)

theorem lawful_u128 {a : Nat} (ha : IsAlign128 a) : (u128 a).Lawful := by
  rcases ha with rfl | rfl
  · exact lawful_uint ⟨3, rfl⟩ ⟨2, rfl⟩
  · exact lawful_uint ⟨4, rfl⟩ ⟨1, rfl⟩

theorem lawful_critbitNode {a : Nat} (ha : IsAlign128 a) : (critbitNode a).Lawful :=
  lawful_close (lawful_add (lawful_add (lawful_add lawful_nil (lawful_u128 ha)) lawful_u64)
    (lawful_pad ⟨3, rfl⟩ ⟨1, rfl⟩)) (fun _ => rfl)

theorem lawful_critbitHead : critbitHead.Lawful :=
  lawful_add (lawful_add (lawful_add lawful_nil (lawful_pad ⟨3, rfl⟩ ⟨1, rfl⟩)) lawful_u32) (lawful_pad ⟨2, rfl⟩ ⟨1, rfl⟩)

theorem lawful_critbit {a : Nat} (ha : IsAlign128 a) (hD : D.Lawful) (N M : Nat) : (critbit a D N M).Lawful :=
  lawful_close (lawful_add (lawful_add lawful_critbitHead (lawful_nodeAllocator (lawful_critbitNode ha) N 4))
    (lawful_nodeAllocator hD M 4)) (fun _ => rfl)

end Types

end Sokoban.Bytes
