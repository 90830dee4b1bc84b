import Verif.Proof.AllocHist
import Verif.Proof.Layout

/-
Property theorems C01-C08 (node allocator) and C54, C55 (layout assertions).

`Reach z a tr` (Spec/Alloc.lean): a client history obeying the contract "only mention
indices in use" started from `NodeAllocator::new()` and produced allocator `a` and the
events `tr`. `live`, `freed`, `lastVal`, `lastReg` are computed from the events alone.
-/
namespace Sokoban.Props
open AllocSpec NodeAllocator
variable {T : Type} {M N : Nat}

/-- C01: an index returned by `add_node` is in `1..=MAX_SIZE` and not in use. -/
theorem C01_add_node_fresh (hN : 0 < N) {z : T} {a : NodeAllocator T M N}
    {tr : List (Event T)} (h : Reach z a tr) {v : T} {a' : NodeAllocator T M N} {i : Nat}
    (hadd : a.addNode v = .ok (a', i)) :
    1 ≤ i ∧ i ≤ M ∧ i ∉ live tr := by
  have hh := h.hinv hN
  by_cases hf : (live tr).length < usable M
  · obtain ⟨a2, j, e, _, hnl, h1, h2, _⟩ := addNode_usable hh.inv hN hf v
    rw [e] at hadd; cases hadd
    exact ⟨h1, h2, hnl⟩
  · have := hh.inv.live_le_usable
    rw [addNode_usable_full hh.inv (by omega) v] at hadd; cases hadd

/-- C01, second form: no index is ever in use twice. -/
theorem C01_live_nodup (hN : 0 < N) {z : T} {a : NodeAllocator T M N}
    {tr : List (Event T)} (h : Reach z a tr) : (live tr).Nodup ∧ ∀ i ∈ live tr, 1 ≤ i ∧ i ≤ M :=
  ⟨(List.nodup_append.1 (h.hinv hN).inv.nodup).2.1, fun _ hi => (h.hinv hN).inv.live_range hi⟩

/-- C02: every index in use holds the value and the registers last written to it. -/
theorem C02_live_nodes_undisturbed (hN : 0 < N) {z : T}
    {a : NodeAllocator T M N} {tr : List (Event T)} (h : Reach z a tr) {i : Nat} (hi : i ∈ live tr) :
    (∃ v, a.getValue i = .ok v ∧ lastVal tr i = some v) ∧
    ∀ r, r < N → a.getRegister i r = .ok (lastReg tr i r) := by
  have hh := h.hinv hN
  have ⟨h1, h2⟩ := hh.inv.live_range hi
  obtain ⟨v, hv⟩ := a.val?_isSome h1 h2
  refine ⟨⟨v, getValue_ok a hv, ?_⟩, fun r hr => ?_⟩
  · rw [← hh.vals i hi, hv]
  · rw [getRegister_ok a h2 hr, hh.regs i hi r hr]

/-- C02, second form: `remove_node(i)` returns the value last stored at `i`. -/
theorem C02_remove_returns_value (hN : 0 < N) {z : T}
    {a : NodeAllocator T M N} {tr : List (Event T)} (h : Reach z a tr) {i : Nat} (hi : i ∈ live tr) :
    ∃ a' v, a.removeNode i = .ok (a', some v) ∧ lastVal tr i = some v := by
  have hh := h.hinv hN
  obtain ⟨a', v, e, hv, _⟩ := removeNode_spec hh.inv hN hi
  exact ⟨a', v, e, by rw [← hh.vals i hi, hv]⟩

/-- C03: `size` is the number of indices in use; `add_node` panics exactly when that number
is `MAX_SIZE`; and no other legal call ever panics (no overflow, no bad index). -/
theorem C03_size_exact (hM : M + 1 < 2 ^ 32) (hN : 0 < N) {z : T} {a : NodeAllocator T M N}
    {tr : List (Event T)} (h : Reach z a tr) :
    a.size = (live tr).length ∧ a.size ≤ M ∧
    (∀ v, a.addNode v = .error .bufferFull ↔ a.size = M) ∧
    (∀ op e, Legal N tr op → call a op = .error e →
      e = .bufferFull ∧ a.size = M ∧ ∃ v, op = .add v) := by
  have hh := h.hinv hN
  have hle := hh.inv.live_le
  refine ⟨hh.inv.size, by rw [hh.inv.size]; exact hle, fun v => ⟨fun he => ?_, fun he => ?_⟩, ?_⟩
  · apply Classical.byContradiction
    intro hne
    rw [hh.inv.size] at hne
    obtain ⟨a2, j, e, _⟩ := addNode_spec hh.inv hM hN (by omega) v
    rw [e] at he; cases he
  · exact addNode_full hh.inv hM (by rw [← hh.inv.size]; exact he) v
  · intro op e hl he
    rcases call_spec hh hN hl with ⟨⟨v, hop⟩, hfull, hc⟩ | ⟨a', out, hc, _⟩
    · rw [usable_eq hM] at hfull
      subst hop
      simp only [call, addNode_full hh.inv hM hfull v, except_bind_error] at he
      cases he
      exact ⟨rfl, by rw [hh.inv.size]; exact hfull, v, rfl⟩
    · rw [hc] at he; cases he

/-- C03, second form: from any reachable state any `MAX_SIZE - size` values can be added, at
distinct indices not in use, and after them `add_node` panics: no slot ever leaks. -/
theorem C03_no_leak (hM : M + 1 < 2 ^ 32) (hN : 0 < N) {z : T} {a : NodeAllocator T M N}
    {tr : List (Event T)} (h : Reach z a tr) (vs : List T) (hv : vs.length = M - a.size) (w : T) :
    ∃ a' is, addAll a vs = .ok (a', is) ∧ is.length = vs.length ∧ (is ++ live tr).Nodup ∧
      a'.addNode w = .error .bufferFull := by
  have hh := h.hinv hN
  have hle := hh.inv.live_le
  rw [hh.inv.size] at hv
  obtain ⟨a', is, free', e, hlen, hnd, hinv⟩ := addAll_spec hN hh.inv vs (by rw [usable_eq hM]; omega)
  exact ⟨a', is, e, hlen, hnd, addNode_full hinv hM (by simp; omega) w⟩

/-- C65, allocator: without any bound on `MAX_SIZE`, C03 holds with `usable MAX_SIZE` in the place of
`MAX_SIZE`. Also `capacity` is not what can be held exactly if `MAX_SIZE + 1 ≥ 2^32`. -/
theorem C65_alloc_usable (hN : 0 < N) {z : T} {a : NodeAllocator T M N}
    {tr : List (Event T)} (h : Reach z a tr) :
    a.size = (live tr).length ∧ a.size ≤ usable M ∧
    (∀ v e, a.addNode v = .error e ↔ a.size = usable M ∧ e = fullPanic M) ∧
    (∀ op e, Legal N tr op → call a op = .error e → e = fullPanic M ∧ a.size = usable M ∧ ∃ v, op = .add v) ∧
    (∀ (vs : List T) (w : T), vs.length = usable M - a.size →
      ∃ a' is, addAll a vs = .ok (a', is) ∧ is.length = vs.length ∧ (is ++ live tr).Nodup ∧
        a'.addNode w = .error (fullPanic M)) ∧
    (usable M = M ↔ M + 1 < 2 ^ 32) := by
  have hh := h.hinv hN
  have hle := hh.inv.live_le_usable
  refine ⟨hh.inv.size, by rw [hh.inv.size]; exact hle, fun v e => ⟨fun he => ?_, fun ⟨he, h2⟩ => ?_⟩, ?_, ?_, ?_⟩
  · by_cases hf : (live tr).length < usable M
    · obtain ⟨a2, j, e2, _⟩ := addNode_usable hh.inv hN hf v
      rw [e2] at he; cases he
    · have hl : (live tr).length = usable M := by omega
      rw [addNode_usable_full hh.inv hl v] at he
      cases he
      exact ⟨by rw [hh.inv.size]; exact hl, rfl⟩
  · rw [h2]; exact addNode_usable_full hh.inv (by rw [← hh.inv.size]; exact he) v
  · intro op e hl he
    rcases call_spec hh hN hl with ⟨hop, hfull, hc⟩ | ⟨a', out, hc, _⟩
    · rw [hc] at he; cases he
      exact ⟨rfl, by rw [hh.inv.size]; exact hfull, hop⟩
    · rw [hc] at he; cases he
  · intro vs w hv
    rw [hh.inv.size] at hv
    obtain ⟨a', is, free', e, hlen, hnd, hinv⟩ := addAll_spec hN hh.inv vs (by omega)
    exact ⟨a', is, e, hlen, hnd, addNode_usable_full hinv (by simp; omega) w⟩
  · constructor
    · intro h; unfold usable at h; omega
    · exact usable_eq

/-- C04: `add_node` hands out the most recently freed pending index; only when none is pending
the index following the number of indices in use, which no event so far has mentioned as added. -/
theorem C04_lifo_reuse (hN : 0 < N) {z : T} {a : NodeAllocator T M N}
    {tr : List (Event T)} (h : Reach z a tr) {v : T} {a' : NodeAllocator T M N} {i : Nat}
    (hadd : a.addNode v = .ok (a', i)) :
    (∀ j js, freed tr = j :: js → i = j) ∧
    (freed tr = [] → i = (live tr).length + 1 ∧ ∀ w, Event.added i w ∉ tr) := by
  have hh := h.hinv hN
  by_cases hf : (live tr).length < usable M
  · obtain ⟨a2, j, e, hj, _⟩ := addNode_usable hh.inv hN hf v
    rw [e] at hadd; cases hadd
    refine ⟨fun k ks hk => by rw [hj, hk]; rfl, fun hnil => ?_⟩
    have hl := hh.inv.length_eq
    have hbp := hh.inv.bump_pos
    rw [hnil] at hj hl
    simp at hj hl
    refine ⟨by omega, fun w hw => ?_⟩
    have := hh.ever _ w hw
    omega
  · have := hh.inv.live_le_usable
    rw [addNode_usable_full hh.inv (by omega) v] at hadd; cases hadd

/-- C05: if the client clears registers before freeing, every node handed out has all its
registers zero. -/
theorem C05_zeroed_registers (hN : 0 < N) {z : T} {a : NodeAllocator T M N}
    {tr : List (Event T)} (h : ReachClean z a tr) {v : T} {a' : NodeAllocator T M N} {i : Nat}
    (hadd : a.addNode v = .ok (a', i)) :
    ∀ r, r < N → a'.getRegister i r = .ok SENTINEL := by
  have hreach := h.reach
  have hcall : call a (.add v) = .ok (a', .index i) := by simp [call, hadd]
  have hfresh := C01_add_node_fresh hN hreach hadd
  have hreach' : Reach z a' (.added i v :: tr) := hreach.step (op := .add v) trivial hcall
  intro r hr
  rw [(C02_live_nodes_undisturbed hN hreach' (i := i) (by simp [live])).2 r hr]
  simp only [lastReg]
  by_cases h0 : r = 0
  · simp [h0, SENTINEL]
  · rw [if_neg (by tauto), h.zero hN i r hfresh.2.2 h0 hr]; rfl

/-- C06: `initialize` turns zeroed memory into a new allocator, succeeds only when all three
header words are zero, and panics at every point of every later history. -/
theorem C06_initialize_once (hN : 0 < N) (z : T) :
    (zeroed z : NodeAllocator T M N).initialise = .ok (new z) ∧
    (∀ a a' : NodeAllocator T M N, a.initialise = .ok a' →
      a.size = 0 ∧ a.bumpIndex = 0 ∧ a.freeListHead = 0) ∧
    (∀ (a : NodeAllocator T M N) (tr : List (Event T)), Reach z a tr →
      a.initialise = .error .reinit) := by
  refine ⟨?_, ?_, ?_⟩
  · have : (1 ≤ N) := hN
    simp [initialise, rassert, zeroed, new, this]
  · intro a a' ha
    unfold initialise rassert at ha
    have : decide (N ≥ 1) = true := decide_eq_true hN
    rw [this] at ha
    simp only [if_true, except_bind_ok] at ha
    split at ha
    · assumption
    · simp at ha
  · intro a tr hr
    have hb := (hr.hinv hN).inv.bump_pos
    unfold initialise rassert
    have : decide (N ≥ 1) = true := decide_eq_true hN
    rw [this]
    simp only [if_true, except_bind_ok]
    rw [if_neg (by omega)]; rfl

/-- C07: when the alignment assertions pass for an allocator at address `base`, every value slot
is aligned for `T`, lies inside the struct directly behind the node's registers, and the memory
of different nodes does not overlap. -/
theorem C07_slots_aligned (p : Layout.Params) (hp : p.Rustic) (base : Nat)
    (h : p.assertProperAlignment base = .ok ()) :
    (∀ i, 1 ≤ i → i ≤ p.maxSize →
      p.slotAddr base i % p.tAlign = 0 ∧
      p.slotAddr base i = p.regAddr base i + 4 * p.numRegs ∧
      base + 16 ≤ p.regAddr base i ∧
      p.slotAddr base i + p.tSize ≤ base + p.selfSize) ∧
    (∀ i j, 1 ≤ i → i < j → p.slotAddr base i + p.tSize ≤ p.regAddr base j) := by
  have f := Layout.Params.facts hp h
  have hna : 0 < p.nodeAlign := by unfold Layout.Params.nodeAlign; omega
  have hns : p.tAlign ∣ p.nodeSize := Nat.dvd_trans f.node_t (Layout.dvd_roundUp _ _)
  have hge : p.valOff + p.tSize ≤ p.nodeSize := Layout.le_roundUp hna
  refine ⟨fun i h1 h2 => ⟨?_, ?_, ?_, ?_⟩, fun i j h1 hij => ?_⟩
  · apply Nat.mod_eq_zero_of_dvd
    unfold Layout.Params.slotAddr
    rw [f.nodesOff, f.valOff]
    exact Nat.dvd_add (Nat.dvd_add (Nat.dvd_add f.base_t f.t16)
      (Nat.dvd_trans hns (Nat.dvd_mul_left _ _))) f.regs
  · unfold Layout.Params.slotAddr Layout.Params.regAddr; rw [f.valOff]
  · unfold Layout.Params.regAddr; rw [f.nodesOff]; omega
  · have hss : p.nodesOff + p.maxSize * p.nodeSize ≤ p.selfSize := by
      apply Layout.le_roundUp; unfold Layout.Params.selfAlign; omega
    have : (i - 1) * p.nodeSize + p.nodeSize ≤ p.maxSize * p.nodeSize := by
      rw [← Nat.succ_mul]; exact Nat.mul_le_mul_right _ (by omega)
    unfold Layout.Params.slotAddr; omega
  · have : (i - 1) * p.nodeSize + p.nodeSize ≤ (j - 1) * p.nodeSize := by
      rw [← Nat.succ_mul]; exact Nat.mul_le_mul_right _ (by omega)
    unfold Layout.Params.slotAddr Layout.Params.regAddr; omega

/-- C08: a double free is not detected: after add, add, remove 1, remove 1 two consecutive
`add_node` calls return the same index. -/
theorem C08_double_free :
    ∃ (a1 a2 a3 a4 a5 a6 : NodeAllocator Nat 4 2) (i : Nat),
      (new 0 : NodeAllocator Nat 4 2).addNode 10 = .ok (a1, 1) ∧
      a1.addNode 20 = .ok (a2, 2) ∧
      a2.removeNode 1 = .ok (a3, some 10) ∧
      a3.removeNode 1 = .ok (a4, some 10) ∧
      a4.addNode 30 = .ok (a5, i) ∧
      a5.addNode 40 = .ok (a6, i) ∧
      -- the first of the two values is lost
      a6.getValue i = .ok 40 := by
  refine ⟨_, _, _, _, _, _, 1, rfl, rfl, rfl, rfl, rfl, rfl, rfl⟩

/-- C54, positive part: for `T` with alignment at least 4 the assertions guarantee that nodes
are packed without padding: stride = 4 * NUM_REGISTERS + size_of::<T>(). -/
theorem C54_no_padding_between_nodes (p : Layout.Params) (hp : p.Rustic) (base : Nat)
    (h : p.assertProperAlignment base = .ok ()) (h4 : 4 ≤ p.tAlign) :
    p.nodeSize = 4 * p.numRegs + p.tSize ∧
    (∀ i, 1 ≤ i → p.slotAddr base (i + 1) = p.slotAddr base i + p.nodeSize) := by
  have f := Layout.Params.facts hp h
  have hna : p.nodeAlign = p.tAlign := by unfold Layout.Params.nodeAlign; omega
  refine ⟨?_, fun i hi => ?_⟩
  · unfold Layout.Params.nodeSize
    rw [f.valOff, hna]
    exact Layout.roundUp_eq f.tpos (Nat.dvd_add f.regs f.tsize)
  · unfold Layout.Params.slotAddr
    have : i + 1 - 1 = (i - 1) + 1 := by omega
    rw [this, Nat.succ_mul]; omega

/-- C54, deviation: the assertions accept `T` with alignment below 4 whose nodes then contain
padding bytes, although the code declares the allocator `Pod` (node_allocator.rs:161-167).
Witness: `T = [u8; 9]` with two registers; stride 20, contents 17. -/
theorem C54_padding_not_excluded :
    ∃ (p : Layout.Params) (base : Nat), p.Rustic ∧ p.assertProperAlignment base = .ok () ∧
      4 * p.numRegs + p.tSize < p.nodeSize :=
  ⟨⟨9, 1, 2, 3⟩, 64, ⟨⟨0, rfl⟩, ⟨9, rfl⟩⟩, rfl, by decide⟩

/-- C55: element types of size 1..7 are refused at every address: the constructor (and
`initialize`) panics. -/
theorem C55_small_values_refused (p : Layout.Params) (base : Nat) (h1 : 0 < p.tSize)
    (h2 : p.tSize < 8) : p.assertProperAlignment base = .error .assertion := by
  have hne : p.assertProperAlignment base ≠ .ok () := by
    intro h
    obtain ⟨_, _, h3, _⟩ := (Layout.Params.assert_iff base).1 h
    unfold Layout.Params.selfAlign at h3
    omega
  exact (Layout.Params.assert_cases base).resolve_left hne

/-! ### non-vacuity -/

/-- The hypotheses of C01-C04 are met by a non-trivial history: add, add, write a register,
remove the first, add again. -/
example : ∃ (a : NodeAllocator Nat 4 2) (tr : List (Event Nat)), Reach 0 a tr ∧
    live tr = [1, 2] ∧ freed tr = [] ∧ lastVal tr 1 = some 12 ∧ lastReg tr 2 1 = 7 ∧
    (∃ a' , a.addNode 13 = .ok (a', 3)) :=
  ⟨_, _, .step (op := .add 12) (.step (op := .remove 1) (.step (op := .setRegister 2 7 1)
    (.step (op := .add 11) (.step (op := .add 10) .new trivial rfl) trivial rfl)
    ⟨Or.inl (by decide), by decide⟩ rfl) (by decide : 1 ∈ [2, 1]) rfl) trivial rfl,
    rfl, rfl, rfl, rfl, _, rfl⟩

/-- A history with a pending freed index (for C04) which obeys the documented rule (for C05). -/
example : ∃ (a : NodeAllocator Nat 4 2) (tr : List (Event Nat)), ReachClean 0 a tr ∧
    live tr = [2] ∧ freed tr = [1] ∧ (∃ a' , a.addNode 13 = .ok (a', 1)) :=
  ⟨_, _, .step (op := .remove 1) (.step (op := .clearRegister 1 1) (.step (op := .connect 1 2 1 0)
    (.step (op := .add 11) (.step (op := .add 10) .new trivial trivial rfl) trivial trivial rfl)
    ⟨Or.inl (by decide), Or.inl (by decide), by decide, by decide⟩ trivial rfl)
    ⟨Or.inl (by decide), by decide⟩ trivial rfl) (by decide : 1 ∈ [2, 1])
    (by intro r hr; (have : r = 0 ∨ r = 1 := by omega); rcases this with rfl | rfl <;> rfl) rfl,
    rfl, rfl, _, rfl⟩

/-- A full allocator is reachable (C03). -/
example : ∃ (a : NodeAllocator Nat 1 1) (tr : List (Event Nat)), Reach 0 a tr ∧
    live tr = [1] ∧ a.addNode 13 = .error .bufferFull :=
  ⟨_, _, .step (op := .add 12) .new trivial rfl, rfl, rfl⟩

/-- The assertions pass for `T = (u64, u64)` (size 16, alignment 8), 4 registers (C07, C54);
and a `u32` value is refused (C55). -/
example : (⟨16, 8, 4, 10⟩ : Layout.Params).Rustic ∧
    (⟨16, 8, 4, 10⟩ : Layout.Params).assertProperAlignment 64 = .ok () ∧
    (⟨4, 4, 2, 10⟩ : Layout.Params).assertProperAlignment 64 = .error .assertion :=
  ⟨⟨⟨3, rfl⟩, ⟨2, rfl⟩⟩, rfl, rfl⟩

end Sokoban.Props
