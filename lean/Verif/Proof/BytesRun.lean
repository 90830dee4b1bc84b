import Verif.Proof.Bytes
import Verif.Proof.Words

namespace Sokoban.Bytes
open Layout Fields

section Generic
variable {S Op Out : Type} {A : Rep S}

theorem load_short {s : Slice} (h : s.len < A.size) : load A s = .error .indexOutOfBounds := by
  simp [load, h]

theorem load_misaligned {s : Slice} (h : A.size ≤ s.len) (ha : ¬ A.align ∣ s.addr) : load A s = .ok none := by
  have h1 : ¬ s.len < A.size := by omega
  have h2 : s.addr % A.align ≠ 0 := fun e => ha (Nat.dvd_of_mod_eq_zero e)
  simp [load, tryFromBytes, h1, h2]

theorem load_fits {s : Slice} (h : s.Fits A) : load A s = .ok (some (A.read s.mem)) := by
  have h1 : ¬ s.len < A.size := Nat.not_lt.2 h.1
  have h2 : s.addr % A.align = 0 := Nat.mod_eq_zero_of_dvd h.2
  simp [load, tryFromBytes, h1, h2]

theorem fits_of_load {s : Slice} {t : S} (h : load A s = .ok (some t)) : s.Fits A ∧ A.read s.mem = t := by
  by_cases h1 : s.len < A.size
  · rw [load_short h1] at h; cases h
  · by_cases h2 : A.align ∣ s.addr
    · have hf : s.Fits A := ⟨by omega, h2⟩
      rw [load_fits hf] at h
      cases h; exact ⟨hf, rfl⟩
    · rw [load_misaligned (by omega) h2] at h; cases h

theorem load_store (hA : A.Lawful) {s : Slice} {t : S} (hf : s.Fits A) (hv : A.Valid t) :
    load A (store A s t) = .ok (some t) := by
  have : (store A s t).Fits A := hf
  rw [load_fits this]
  simp only [store]
  rw [hA.readWrite _ _ hv]

theorem callAt_fits {step : S → Op → R (S × Out)} {s : Slice} {t : S} (h : load A s = .ok (some t)) (op : Op) :
    callAt A step s op = (step t op >>= fun r => pure (store A s r.1, r.2)) := by
  unfold callAt
  rw [h]; rfl

theorem runAt_shows (hA : A.Lawful) {I : S → Prop} {D : Op → Prop} (hI : ∀ t, I t → A.Valid t)
    {step : S → Op → R (S × Out)} (hs : ∀ t op, I t → D op → Post (step t op) (fun r => I r.1)) :
    ∀ (hist : List ((Slice → Slice) × Op)) (s : Slice) (t : S), load A s = .ok (some t) → I t →
      (∀ x ∈ hist, Keeps A x.1 ∧ D x.2) →
      Shows A (run step t (hist.map Prod.snd)) (runAt A step s hist)
  | [], s, t, hl, _, _ => ⟨s, rfl, hl⟩
  | (f, op) :: hist, s, t, hl, ht, hk => by
    obtain ⟨hf, hr⟩ := fits_of_load hl
    obtain ⟨⟨hkeep, hD⟩, hk'⟩ := List.forall_mem_cons.1 hk
    obtain ⟨hf', hb⟩ := hkeep s hf
    have hl' : load A (f s) = .ok (some t) := by
      rw [load_fits hf', hA.congr _ _ hb, hr]
    have hc := callAt_fits (step := step) hl' op
    have hp := hs t op ht hD
    simp only [List.map_cons, run, runAt]
    rw [hc]
    cases e : step t op with
    | error p => exact rfl
    | ok r =>
      obtain ⟨t', o⟩ := r
      have ht' : I t' := hp _ e
      have hl2 := load_store hA hf' (hI t' ht')
      have ih := runAt_shows hA hI hs hist (store A (f s) t') t' hl2 ht' hk'
      simp only [except_bind_ok, pure_bind]
      revert ih
      cases e2 : run step t' (hist.map Prod.snd) with
      | error p =>
        intro ih
        have ih : runAt A step (store A (f s) t') hist = .error p := ih
        rw [ih]; exact rfl
      | ok r2 =>
        obtain ⟨t2, os⟩ := r2
        rintro ⟨s2, e3, l2⟩
        rw [e3]
        exact ⟨s2, rfl, l2⟩

theorem newFromSlice_short (init : Nat → S → R S) {s : Slice} (h : s.len < A.size) :
    newFromSlice A init s = .error .indexOutOfBounds := by
  unfold newFromSlice; rw [load_short h]; rfl

theorem newFromSlice_misaligned (init : Nat → S → R S) {s : Slice} (h : A.size ≤ s.len) (ha : ¬ A.align ∣ s.addr) :
    newFromSlice A init s = .error .unwrapNone := by
  unfold newFromSlice; rw [load_misaligned h ha]; rfl

theorem newFromSlice_fits (init : Nat → S → R S) {s : Slice} (h : s.Fits A) :
    newFromSlice A init s = (init s.addr (A.read s.mem) >>= fun t => pure (store A s t)) := by
  unfold newFromSlice; rw [load_fits h]; rfl

theorem read_zero (hA : A.Lawful) {s : Slice} (h : s.Zero A) : A.read s.mem = A.read zeroMem :=
  hA.congr _ _ h

end Generic

/-! ### The layout assertion does not depend on the address of an aligned allocator -/

theorem assert_base {p : Params} (hr : ∃ k, p.tAlign = 2 ^ k) {base : Nat} (hb : p.selfAlign ∣ base) :
    p.assertProperAlignment base = p.assertProperAlignment 0 := by
  obtain ⟨k, hk⟩ := hr
  have ht : p.tAlign ∣ p.selfAlign := by
    unfold Params.selfAlign Params.nodeAlign
    rw [hk, ← Nat.max_assoc]; exact (pow_dvd_max (k := k) 3).1
  have hd : p.tAlign ∣ base := Nat.dvd_trans ht hb
  have hm : ∀ x, (base + x) % p.tAlign = (0 + x) % p.tAlign := by
    intro x
    obtain ⟨c, rfl⟩ := hd
    rw [Nat.mul_add_mod, Nat.zero_add]
  have key : p.assertProperAlignment base = .ok () ↔ p.assertProperAlignment 0 = .ok () := by
    rw [Params.assert_iff, Params.assert_iff]
    simp only [Nat.add_assoc, hm, Nat.mod_eq_zero_of_dvd hb, Nat.zero_mod]
    constructor <;> rintro ⟨h1, h2, h3, h4, h5⟩ <;> exact ⟨h1, h2, h3, by omega, h5⟩
  rcases Params.assert_cases (p := p) base with h | h <;> rcases Params.assert_cases (p := p) 0 with h' | h'
  · rw [h, h']
  · rw [key.1 h] at h'; cases h'
  · rw [key.2 h'] at h; cases h
  · rw [h, h']

section Alloc
variable {T : Type} {A : Rep T}

theorem align_nodeAllocator (M N : Nat) : (nodeAllocator A M N).align = (params A M N).selfAlign := by
  show max (max (max (max 1 8) 4) 4) (max (max 1 4) A.align) = max 8 (max 4 A.align)
  simp only [show max (max (max 1 8) 4) 4 = 8 from rfl, show max 1 4 = 4 from rfl]

theorem size_nodeAllocator (M N : Nat) : (nodeAllocator A M N).size = (params A M N).selfSize := by
  have hn : (node A N).align = (params A M N).nodeAlign := rfl
  have h0 : roundUp 0 4 = 0 := rfl
  have hs : (node A N).size = (params A M N).nodeSize := by
    show roundUp (roundUp (roundUp 0 4 + N * 4) A.align + A.size) _ = roundUp (roundUp (4 * N) A.align + A.size) _
    rw [h0, Nat.zero_add, Nat.mul_comm N 4]
    rfl
  show roundUp (roundUp (roundUp (roundUp (roundUp 0 8 + 8) 4 + 4) 4 + 4) (node A N).align + M * (node A N).size)
    (nodeAllocator A M N).align = _
  rw [align_nodeAllocator, hs, hn]
  rfl

theorem initialiseAt_eq (hA : A.Lawful) {M N addr : Nat} (hN : 1 ≤ N) (ha : (nodeAllocator A M N).align ∣ addr)
    (a : NodeAllocator T M N) :
    initialiseAt A addr a = ((params A M N).assertProperAlignment 0 >>= fun _ => a.initialise) := by
  unfold initialiseAt
  rw [assert_base (p := params A M N) hA.align (by rw [← align_nodeAllocator]; exact ha)]
  simp [rassert, hN]

theorem read_zero_nodeAllocator (M N : Nat) :
    (nodeAllocator A M N).read zeroMem = NodeAllocator.zeroed (A.read zeroMem) := by
  have hz : ∀ off, zeroMem.from off = zeroMem := fun _ => rfl
  have h4 : readLE zeroMem 4 = 0 := rfl
  have h8 : readLE zeroMem 8 = 0 := rfl
  simp only [nodeAllocator, close, add, nil, array, node, u32, u64, word, hz, h4, h8, NodeAllocator.zeroed]
  congr 1
  apply Vector.ext
  intro i hi
  simp only [Vector.getElem_ofFn, Vector.getElem_replicate]
  congr 1
  apply Vector.ext
  intro r hr
  simp [SENTINEL]

theorem dvd_off {S : Type} (F : Fields S) (B : Rep T) : B.align ∣ F.off B := dvd_roundUp _ _

theorem dvd_add_align {S : Type} {F : Fields S} {B : Rep T} (hF : F.Lawful) (hB : B.Lawful) :
    B.align ∣ (F.add B).align ∧ F.align ∣ (F.add B).align := by
  obtain ⟨k, hk⟩ := hF.align
  obtain ⟨l, hl⟩ := hB.align
  show B.align ∣ max F.align B.align ∧ F.align ∣ max F.align B.align
  rw [hk, hl]
  exact pow_dvd_max k

theorem valid_nodeAllocator {M N : Nat} {P : T → Prop} (hP : ∀ v, P v → A.Valid v) {a : NodeAllocator T M N}
    (h : a.InRange P) : (nodeAllocator A M N).Valid a := by
  refine ⟨⟨⟨⟨trivial, ?_⟩, ?_⟩, ?_⟩, fun i hi => ⟨⟨trivial, fun r hr => ?_⟩, ?_⟩⟩
  · exact h.size
  · exact h.bumpIndex
  · exact h.freeListHead
  · exact (h.nodes i hi).1 r hr
  · exact hP _ (h.nodes i hi).2

end Alloc

end Sokoban.Bytes
