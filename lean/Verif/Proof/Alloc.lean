import Verif.Spec.Alloc
import Mathlib.Tactic.Tauto

/-
Helper lemmas about the allocator: a total view of registers and values, pure versions
of the mutators, and the free-list invariant.
-/
namespace Sokoban

@[simp] theorem except_bind_ok {ε α β : Type} (x : α) (f : α → Except ε β) :
    (Except.ok x >>= f) = f x := rfl
@[simp] theorem except_bind_error {ε α β : Type} (e : ε) (f : α → Except ε β) :
    ((Except.error e : Except ε α) >>= f) = Except.error e := rfl
@[simp] theorem except_pure {ε α : Type} (x : α) : (pure x : Except ε α) = Except.ok x := rfl
@[simp] theorem except_throw {ε α : Type} (e : ε) : (throw e : Except ε α) = Except.error e := rfl

namespace NodeAllocator
open AllocSpec (usable fullPanic)
variable {T : Type} {M N : Nat}

/-- total view of a register (0 when out of range) -/
def reg (a : NodeAllocator T M N) (i r : Nat) : Nat :=
  if h : (1 ≤ i ∧ i ≤ M) ∧ r < N then (a.nodes[i - 1]'(by omega)).registers[r]'h.2 else 0

/-- total view of a value -/
def val? (a : NodeAllocator T M N) (i : Nat) : Option T :=
  if h : 1 ≤ i ∧ i ≤ M then some (a.nodes[i - 1]'(by omega)).value else none

/-- pure register write (no-op when out of range) -/
def setReg (a : NodeAllocator T M N) (i r v : Nat) : NodeAllocator T M N :=
  if h : (1 ≤ i ∧ i ≤ M) ∧ r < N then
    { a with nodes := a.nodes.set (i - 1)
              { a.nodes[i - 1]'(by omega) with
                registers := (a.nodes[i - 1]'(by omega)).registers.set r v h.2 } (by omega) }
  else a

/-- pure value write (no-op when out of range) -/
def setVal (a : NodeAllocator T M N) (i : Nat) (v : T) : NodeAllocator T M N :=
  if h : 1 ≤ i ∧ i ≤ M then
    { a with nodes := a.nodes.set (i - 1) { a.nodes[i - 1]'(by omega) with value := v } (by omega) }
  else a

@[simp] theorem reg_zero (a : NodeAllocator T M N) (r : Nat) : a.reg 0 r = 0 := by
  simp [reg]

@[simp] theorem size_setReg (a : NodeAllocator T M N) (i r v : Nat) :
    (a.setReg i r v).size = a.size := by unfold setReg; split <;> rfl
@[simp] theorem bump_setReg (a : NodeAllocator T M N) (i r v : Nat) :
    (a.setReg i r v).bumpIndex = a.bumpIndex := by unfold setReg; split <;> rfl
@[simp] theorem head_setReg (a : NodeAllocator T M N) (i r v : Nat) :
    (a.setReg i r v).freeListHead = a.freeListHead := by unfold setReg; split <;> rfl
@[simp] theorem size_setVal (a : NodeAllocator T M N) (i : Nat) (v : T) :
    (a.setVal i v).size = a.size := by unfold setVal; split <;> rfl
@[simp] theorem bump_setVal (a : NodeAllocator T M N) (i : Nat) (v : T) :
    (a.setVal i v).bumpIndex = a.bumpIndex := by unfold setVal; split <;> rfl
@[simp] theorem head_setVal (a : NodeAllocator T M N) (i : Nat) (v : T) :
    (a.setVal i v).freeListHead = a.freeListHead := by unfold setVal; split <;> rfl

theorem reg_setReg (a : NodeAllocator T M N) (i r v k s : Nat) :
    (a.setReg i r v).reg k s =
      if (k = i ∧ s = r) ∧ (1 ≤ i ∧ i ≤ M) ∧ r < N then v else a.reg k s := by
  unfold setReg reg
  by_cases h : (1 ≤ i ∧ i ≤ M) ∧ r < N
  · simp only [dif_pos h]
    by_cases hk : (1 ≤ k ∧ k ≤ M) ∧ s < N
    · simp only [dif_pos hk]
      simp only [Vector.getElem_set]
      by_cases hki : k = i
      · subst hki
        by_cases hs : s = r
        · subst hs; simp [h]
        · have : r ≠ s := fun e => hs e.symm
          simp [hs, this]
      · have : ¬ (i - 1 = k - 1) := by omega
        simp [this, hki]
    · simp only [dif_neg hk]
      rw [if_neg]
      rintro ⟨⟨rfl, rfl⟩, _⟩; exact hk h
  · simp only [dif_neg h]
    rw [if_neg]; rintro ⟨_, h'⟩; exact h h'

@[simp] theorem val?_setReg (a : NodeAllocator T M N) (i r v k : Nat) :
    (a.setReg i r v).val? k = a.val? k := by
  unfold setReg val?
  by_cases h : (1 ≤ i ∧ i ≤ M) ∧ r < N
  · simp only [dif_pos h]
    by_cases hk : 1 ≤ k ∧ k ≤ M
    · simp only [dif_pos hk, Vector.getElem_set]
      by_cases hki : i - 1 = k - 1
      · simp [hki]
      · simp [hki]
    · simp only [dif_neg hk]
  · simp only [dif_neg h]

@[simp] theorem reg_setVal (a : NodeAllocator T M N) (i : Nat) (v : T) (k s : Nat) :
    (a.setVal i v).reg k s = a.reg k s := by
  unfold setVal reg
  by_cases h : 1 ≤ i ∧ i ≤ M
  · simp only [dif_pos h]
    by_cases hk : (1 ≤ k ∧ k ≤ M) ∧ s < N
    · simp only [dif_pos hk, Vector.getElem_set]
      by_cases hki : i - 1 = k - 1
      · simp [hki]
      · simp [hki]
    · simp only [dif_neg hk]
  · simp only [dif_neg h]

theorem val?_setVal (a : NodeAllocator T M N) (i : Nat) (v : T) (k : Nat) :
    (a.setVal i v).val? k = if k = i ∧ 1 ≤ i ∧ i ≤ M then some v else a.val? k := by
  unfold setVal val?
  by_cases h : 1 ≤ i ∧ i ≤ M
  · simp only [dif_pos h]
    by_cases hk : 1 ≤ k ∧ k ≤ M
    · simp only [dif_pos hk, Vector.getElem_set]
      by_cases hki : k = i
      · subst hki; simp [h]
      · have : ¬ (i - 1 = k - 1) := by omega
        simp [this, hki]
    · simp only [dif_neg hk]
      rw [if_neg]; rintro ⟨rfl, h'⟩; exact hk h'
  · simp only [dif_neg h]
    rw [if_neg]; rintro ⟨_, h'⟩; exact h h'

/-! ### checked operations as pure operations -/

theorem get_ok (a : NodeAllocator T M N) {i : Nat} (h1 : 1 ≤ i) (h2 : i ≤ M) :
    a.get i = .ok (a.nodes[i - 1]'(by omega)) := by
  unfold get; rw [dif_pos (by omega)]

theorem getRegister_ok (a : NodeAllocator T M N) {i r : Nat} (hi : i ≤ M) (hr : r < N) :
    a.getRegister i r = .ok (a.reg i r) := by
  unfold getRegister SENTINEL
  by_cases h : i = 0
  · subst h; simp
  · have h1 : 1 ≤ i := by omega
    simp only [ne_eq, h, not_false_iff, if_true, get_ok a h1 hi, except_bind_ok, Node.getRegister,
      dif_pos hr, reg]
    rw [dif_pos ⟨⟨h1, hi⟩, hr⟩]

theorem putReg_ok (a : NodeAllocator T M N) {i r v : Nat} (h1 : 1 ≤ i) (hi : i ≤ M) (hr : r < N) :
    (do a.put i (← (← a.get i).setRegister r v) : R _) = .ok (a.setReg i r v) := by
  simp only [get_ok a h1 hi, except_bind_ok, Node.setRegister, dif_pos hr, put]
  rw [dif_pos (by omega)]
  unfold setReg
  rw [dif_pos ⟨⟨h1, hi⟩, hr⟩]

theorem setReg_zero (a : NodeAllocator T M N) (r v : Nat) : a.setReg 0 r v = a := by
  unfold setReg; rw [dif_neg (by omega)]

theorem setRegister_ok (a : NodeAllocator T M N) {i r v : Nat} (hi : i ≤ M) (hr : r < N) :
    a.setRegister i v r = .ok (a.setReg i r v) := by
  unfold setRegister SENTINEL
  by_cases h : i = 0
  · subst h; simp [setReg_zero]
  · have h1 : 1 ≤ i := by omega
    simp only [ne_eq, h, not_false_iff, if_true]
    exact putReg_ok a h1 hi hr

theorem clearRegister_ok (a : NodeAllocator T M N) {i r : Nat} (hi : i ≤ M) (hr : r < N) :
    a.clearRegister i r = .ok (a.setReg i r 0) := by
  unfold clearRegister SENTINEL
  by_cases h : i = 0
  · subst h; simp [setReg_zero]
  · have h1 : 1 ≤ i := by omega
    simp only [ne_eq, h, not_false_iff, if_true]
    exact putReg_ok a h1 hi hr

theorem connect_ok (a : NodeAllocator T M N) {i j r s : Nat} (hi : i ≤ M) (hj : j ≤ M)
    (hr : r < N) (hs : s < N) :
    a.connect i j r s = .ok ((a.setReg i r j).setReg j s i) := by
  have := a.setRegister_ok (v := j) hi hr
  have h2 := (a.setReg i r j).setRegister_ok (v := i) hj hs
  unfold setRegister at this h2
  unfold connect
  simp only [except_pure] at this h2 ⊢
  rw [this]; simp only [except_bind_ok]; rw [h2]

theorem disconnect_ok (a : NodeAllocator T M N) {i j r s : Nat} (hi : i ≤ M) (hj : j ≤ M)
    (hr : r < N) (hs : s < N) :
    a.disconnect i j r s = .ok ((a.setReg i r 0).setReg j s 0) := by
  unfold disconnect SENTINEL
  by_cases h : i = 0
  · subst h
    simp only [ne_eq, not_true_eq_false, if_false, except_pure, except_bind_ok, setReg_zero]
    by_cases h' : j = 0
    · subst h'; simp [setReg_zero]
    · simp only [h', not_false_iff, if_true]
      exact clearRegister_ok _ hj hs
  · simp only [ne_eq, h, not_false_iff, if_true, clearRegister_ok a hi hr, except_bind_ok, except_pure]
    by_cases h' : j = 0
    · subst h'; simp [setReg_zero]
    · simp only [h', not_false_iff, if_true]
      exact clearRegister_ok _ hj hs

theorem val?_isSome (a : NodeAllocator T M N) {i : Nat} (h1 : 1 ≤ i) (h2 : i ≤ M) :
    ∃ x, a.val? i = some x := by
  unfold val?; rw [dif_pos ⟨h1, h2⟩]; exact ⟨_, rfl⟩

theorem val?_range (a : NodeAllocator T M N) {i : Nat} {x : T} (h : a.val? i = some x) :
    1 ≤ i ∧ i ≤ M := by
  unfold val? at h; split at h
  · assumption
  · cases h

theorem getValue_ok (a : NodeAllocator T M N) {i : Nat} {x : T} (h : a.val? i = some x) :
    a.getValue i = .ok x := by
  have ⟨h1, h2⟩ := a.val?_range h
  unfold getValue
  rw [get_ok a h1 h2]
  unfold val? at h; rw [dif_pos ⟨h1, h2⟩] at h
  simp only [Option.some.injEq] at h
  simp [h]

theorem setValue_ok (a : NodeAllocator T M N) {i : Nat} (v : T) (h1 : 1 ≤ i) (h2 : i ≤ M) :
    a.setValue i v = .ok (a.setVal i v) := by
  unfold setValue
  rw [get_ok a h1 h2]
  simp only [except_bind_ok, put]
  rw [dif_pos (by omega)]
  unfold setVal; rw [dif_pos ⟨h1, h2⟩]; rfl

/-! ### the free list invariant -/

/-- `l` is the chain of free indices starting at `h`, linked by register 0, ending at `bump`. -/
def FreeChain (a : NodeAllocator T M N) : Nat → List Nat → Prop
  | h, [] => h = a.bumpIndex
  | h, i :: l => h = i ∧ FreeChain a (a.reg i 0) l

theorem FreeChain.frame {a a' : NodeAllocator T M N} (hb : a'.bumpIndex = a.bumpIndex) :
    ∀ {l : List Nat} {h : Nat}, (∀ i ∈ l, a'.reg i 0 = a.reg i 0) → a.FreeChain h l → a'.FreeChain h l
  | [], h, _, hc => by simpa [FreeChain, hb] using hc
  | i :: l, h, hf, hc => by
    refine ⟨hc.1, ?_⟩
    rw [hf i (by simp)]
    exact FreeChain.frame hb (fun j hj => hf j (by simp [hj])) hc.2

theorem usable_le (M : Nat) : usable M ≤ M := by
  unfold usable; have := Nat.mod_le M (2 ^ 32); omega
theorem usable_lt (M : Nat) : usable M + 1 < 2 ^ 32 := by
  unfold usable; omega
theorem usable_eq (hM : M + 1 < 2 ^ 32) : usable M = M := by
  unfold usable; rw [Nat.mod_eq_of_lt (by omega)]; omega

/-- Allocator invariant: `free` is the free list (most recently freed first), `live` the
allocated indices. -/
structure AInv (a : NodeAllocator T M N) (free live : List Nat) : Prop where
  chain : a.FreeChain a.freeListHead free
  nodup : (free ++ live).Nodup
  mem : ∀ i, i ∈ free ++ live ↔ 1 ≤ i ∧ i < a.bumpIndex
  size : a.size = live.length
  bump_pos : 1 ≤ a.bumpIndex
  bump_le : a.bumpIndex ≤ usable M + 1

namespace AInv
variable {a : NodeAllocator T M N} {free live : List Nat}

/-- the free list is determined by the registers -/
theorem free_unique {free' live' : List Nat} (h : AInv a free live) (h' : AInv a free' live') : free = free' := by
  have : ∀ (l l' : List Nat) (x : Nat), a.FreeChain x l → a.FreeChain x l' → (∀ i ∈ l, i ≠ a.bumpIndex) → (∀ i ∈ l', i ≠ a.bumpIndex) → l = l' := by
    intro l
    induction l with
    | nil =>
      intro l' x h1 h2 _ n2
      cases l' with
      | nil => rfl
      | cons y l' => exact absurd (h2.1.symm.trans h1) (n2 y (by simp))
    | cons y l ih =>
      intro l' x h1 h2 n1 n2
      cases l' with
      | nil => exact absurd (h1.1.symm.trans h2) (n1 y (by simp))
      | cons z l' =>
        obtain ⟨rfl, h1⟩ := h1
        obtain ⟨rfl, h2⟩ := h2
        rw [ih l' _ h1 h2 (fun i hi => n1 i (by simp [hi])) (fun i hi => n2 i (by simp [hi]))]
  refine this _ _ _ h.chain h'.chain (fun i hi => ?_) (fun i hi => ?_)
  · have := (h.mem i).1 (by simp [hi]); omega
  · have := (h'.mem i).1 (by simp [hi]); omega

theorem live_range (h : AInv a free live) {i : Nat} (hi : i ∈ live) : 1 ≤ i ∧ i ≤ M := by
  have := (h.mem i).1 (by simp [hi])
  have := h.bump_le
  have := usable_le M
  omega

theorem length_eq (h : AInv a free live) : free.length + live.length = a.bumpIndex - 1 := by
  have hp : (free ++ live).Perm (List.range' 1 (a.bumpIndex - 1)) := by
    rw [List.perm_ext_iff_of_nodup h.nodup List.nodup_range']
    intro i
    rw [h.mem i, List.mem_range'_1]
    have := h.bump_pos
    omega
  have := hp.length_eq
  simpa using this

theorem live_le_usable (h : AInv a free live) : live.length ≤ usable M := by
  have := h.length_eq; have := h.bump_le; omega

theorem live_le (h : AInv a free live) : live.length ≤ M :=
  Nat.le_trans h.live_le_usable (usable_le M)

theorem perm (h : AInv a free live) {live' : List Nat} (hp : live.Perm live') :
    AInv a free live' where
  chain := h.chain
  nodup := (List.Perm.nodup_iff (List.Perm.append_left free hp)).1 h.nodup
  mem i := by rw [← h.mem i]; simp only [List.mem_append, hp.mem_iff]
  size := by rw [h.size, hp.length_eq]
  bump_pos := h.bump_pos
  bump_le := h.bump_le

theorem not_live_of_free (h : AInv a free live) {i : Nat} (hi : i ∈ free) : i ∉ live := by
  intro hl
  have := h.nodup
  rw [List.nodup_append] at this
  exact this.2.2 i hi i hl rfl

/-- writing registers of live nodes (or of nothing) keeps the invariant -/
theorem setReg (h : AInv a free live) {i : Nat} (r v : Nat) (hi : i ∈ live ∨ i = 0) :
    AInv (a.setReg i r v) free live where
  chain := by
    rw [head_setReg]
    refine FreeChain.frame (by simp) ?_ h.chain
    intro j hj
    rw [reg_setReg, if_neg]
    rintro ⟨⟨rfl, _⟩, ⟨h1, _⟩, _⟩
    rcases hi with hi | hi
    · exact h.not_live_of_free hj hi
    · omega
  nodup := h.nodup
  mem i := by rw [h.mem i]; simp
  size := by simp [h.size]
  bump_pos := by simp [h.bump_pos]
  bump_le := by simp [h.bump_le]

theorem setVal (h : AInv a free live) (i : Nat) (v : T) : AInv (a.setVal i v) free live where
  chain := by
    rw [head_setVal]
    exact FreeChain.frame (by simp) (fun j _ => by simp) h.chain
  nodup := h.nodup
  mem i := by rw [h.mem i]; simp
  size := by simp [h.size]
  bump_pos := by simp [h.bump_pos]
  bump_le := by simp [h.bump_le]

end AInv

theorem new_AInv (z : T) : AInv (new z : NodeAllocator T M N) [] [] where
  chain := by simp [FreeChain, new]
  nodup := by simp
  mem i := by simp [new]; omega
  size := by simp [new]
  bump_pos := by simp [new]
  bump_le := by simp [new]

theorem reg_new (z : T) (i r : Nat) : (new z : NodeAllocator T M N).reg i r = 0 := by
  unfold reg new; split <;> simp [SENTINEL]

/-- What `add_node` does under the invariant when there is room. -/
theorem addNode_usable {a : NodeAllocator T M N} {free live : List Nat} (h : AInv a free live)
    (hN : 0 < N) (hlt : live.length < usable M) (v : T) :
    ∃ a' i, a.addNode v = .ok (a', i) ∧ i = free.headD a.bumpIndex ∧ i ∉ live ∧ 1 ≤ i ∧ i ≤ M ∧
      AInv a' free.tail (i :: live) ∧
      (∀ k r, a'.reg k r = if k = i ∧ r = 0 ∧ free ≠ [] then 0 else a.reg k r) ∧
      (∀ k, a'.val? k = if k = i then some v else a.val? k) := by
  have hbl := h.bump_le
  have hbp := h.bump_pos
  have hlen := h.length_eq
  have hsz := h.size
  have hul := usable_le M
  have hut := usable_lt M
  cases free with
  | nil =>
    have hhd : a.freeListHead = a.bumpIndex := h.chain
    have hbu : a.bumpIndex ≤ usable M := by simp at hlen; omega
    have hb : a.bumpIndex ≤ M := by omega
    let a1 : NodeAllocator T M N :=
      { a with bumpIndex := a.bumpIndex + 1, freeListHead := a.bumpIndex + 1 }
    have hset : (do let n ← a1.get a.bumpIndex; a1.put a.bumpIndex (n.setValue v) : R _)
        = .ok (a1.setVal a.bumpIndex v) := setValue_ok a1 v hbp hb
    let a2 : NodeAllocator T M N := { a1.setVal a.bumpIndex v with size := a.size + 1 }
    have hr2 : ∀ k r, a2.reg k r = a.reg k r := by
      intro k r
      have : a2.reg k r = (a1.setVal a.bumpIndex v).reg k r := rfl
      rw [this, reg_setVal]; rfl
    have hv2 : ∀ k, a2.val? k = if k = a.bumpIndex then some v else a.val? k := by
      intro k
      have : a2.val? k = (a1.setVal a.bumpIndex v).val? k := rfl
      rw [this, val?_setVal]
      by_cases hk : k = a.bumpIndex
      · simp [hk, hbp, hb]
      · simp [hk]; rfl
    have hnl : a.bumpIndex ∉ live := by
      intro hl
      have := (h.mem a.bumpIndex).1 (by simp [hl]); omega
    refine ⟨a2, a.bumpIndex, ?_, by simp, hnl, hbp, hb, ?_, ?_, hv2⟩
    · unfold addNode
      have e1 : ¬ (a.bumpIndex = (M + 1) % 2 ^ 32) := by unfold usable at hbu; omega
      have e2 : ¬ (a.bumpIndex + 1 ≥ 2 ^ 32) := by omega
      have e3 : ¬ (a.size + 1 ≥ 2 ^ 64) := by omega
      simp only [hhd, if_true, if_neg e1, if_neg e2, except_pure, except_bind_ok]
      have hput := hset
      rw [get_ok a1 hbp hb] at hput
      rw [get_ok _ hbp hb]
      simp only [except_bind_ok] at hput ⊢
      have e5 : (a1.setVal a.bumpIndex v).size = a.size := by rw [size_setVal]
      have e4 : ¬ ((a1.setVal a.bumpIndex v).size + 1 ≥ 2 ^ 64) := by
        rw [size_setVal]; exact e3
      refine (congrArg (fun x : R (NodeAllocator T M N) => x >>= _) hput).trans ?_
      simp only [except_bind_ok, if_neg e4]
      rw [e5]
    · have hbump2 : a2.bumpIndex = a.bumpIndex + 1 := by
        have : a2.bumpIndex = (a1.setVal a.bumpIndex v).bumpIndex := rfl
        rw [this, bump_setVal]
      have hhead2 : a2.freeListHead = a.bumpIndex + 1 := by
        have : a2.freeListHead = (a1.setVal a.bumpIndex v).freeListHead := rfl
        rw [this, head_setVal]
      refine ⟨?_, ?_, ?_, ?_, ?_, ?_⟩
      · simp [FreeChain, hbump2, hhead2]
      · simp only [List.tail_nil, List.nil_append, List.nodup_cons]
        exact ⟨hnl, by simpa using h.nodup⟩
      · intro i
        have := h.mem i
        simp only [List.nil_append, List.tail_nil, List.mem_cons] at this ⊢
        rw [this, hbump2]; omega
      · have : a2.size = a.size + 1 := rfl
        rw [this, hsz]; simp
      · rw [hbump2]; omega
      · rw [hbump2]; omega
    · intro k r
      rw [hr2, if_neg]; simp
  | cons i free =>
    have hhd : a.freeListHead = i := h.chain.1
    have hi := (h.mem i).1 (by simp)
    have hne : ¬ (a.freeListHead = a.bumpIndex) := by rw [hhd]; omega
    have hiM : i ≤ M := by omega
    let a1 : NodeAllocator T M N := { a with freeListHead := a.reg i 0 }
    have hget : (do (← a.get i).getFreeListRegister : R Nat) = .ok (a.reg i 0) := by
      have := getRegister_ok a hiM hN
      unfold getRegister SENTINEL at this
      rw [if_pos (by omega)] at this
      exact this
    have hput : (do let n ← (← a.get i).setFreeListRegister SENTINEL; a1.put i n : R _)
        = .ok (a1.setReg i 0 0) := by
      have := putReg_ok a1 (r := 0) (v := 0) hi.1 hiM hN
      exact this
    have hset := setValue_ok (a1.setReg i 0 0) v hi.1 hiM
    unfold setValue at hset
    let a2 : NodeAllocator T M N := { (a1.setReg i 0 0).setVal i v with size := a.size + 1 }
    have hr2 : ∀ k r, a2.reg k r = if k = i ∧ r = 0 then 0 else a.reg k r := by
      intro k r
      have : a2.reg k r = ((a1.setReg i 0 0).setVal i v).reg k r := rfl
      rw [this, reg_setVal, reg_setReg]
      have : a1.reg k r = a.reg k r := rfl
      rw [this]
      simp [hi.1, hiM, hN]
    have hv2 : ∀ k, a2.val? k = if k = i then some v else a.val? k := by
      intro k
      have : a2.val? k = ((a1.setReg i 0 0).setVal i v).val? k := rfl
      rw [this, val?_setVal, val?_setReg]
      have : a1.val? k = a.val? k := rfl
      rw [this]
      simp [hi.1, hiM]
    have hnl : i ∉ live := h.not_live_of_free (by simp)
    have hsz2 : live.length < 2 ^ 64 - 1 := by omega
    refine ⟨a2, i, ?_, by simp, hnl, hi.1, hiM, ?_, ?_, hv2⟩
    · unfold addNode
      simp only [hne, if_false]
      simp only [hhd]
      have hg := get_ok a hi.1 hiM
      rw [hg] at hget hput ⊢
      simp only [except_bind_ok] at hget hput ⊢
      rw [hget]
      simp only [except_bind_ok]
      have hput' : (do let n ← (a.nodes[i-1]'(by omega)).setFreeListRegister SENTINEL; ({ a with freeListHead := a.reg i 0 } : NodeAllocator T M N).put i n : R _)
        = .ok (a1.setReg i 0 0) := hput
      rw [hput']
      simp only [except_bind_ok]
      rw [get_ok _ hi.1 hiM] at hset ⊢
      simp only [except_bind_ok] at hset ⊢
      rw [hset]
      have e5 : ((a1.setReg i 0 0).setVal i v).size = a.size := by rw [size_setVal, size_setReg]
      have e4 : ¬ (((a1.setReg i 0 0).setVal i v).size + 1 ≥ 2 ^ 64) := by
        rw [e5]; omega
      simp only [except_bind_ok, if_neg e4, except_pure]
      rw [e5]
    · have hbump2 : a2.bumpIndex = a.bumpIndex := by
        have : a2.bumpIndex = ((a1.setReg i 0 0).setVal i v).bumpIndex := rfl
        rw [this, bump_setVal, bump_setReg]
      have hhead2 : a2.freeListHead = a.reg i 0 := by
        have : a2.freeListHead = ((a1.setReg i 0 0).setVal i v).freeListHead := rfl
        rw [this, head_setVal, head_setReg]
      have hnd := h.nodup
      simp only [List.cons_append, List.nodup_cons] at hnd
      refine ⟨?_, ?_, ?_, ?_, ?_, ?_⟩
      · rw [hhead2]
        refine FreeChain.frame hbump2 ?_ h.chain.2
        intro j hj
        rw [hr2, if_neg]
        rintro ⟨rfl, _⟩
        exact hnd.1 (by simpa using Or.inl hj)
      · simp only [List.tail_cons]
        have : (free ++ i :: live).Perm (i :: (free ++ live)) := List.perm_middle
        rw [this.nodup_iff, List.nodup_cons]; exact hnd
      · intro j
        rw [hbump2, ← h.mem j]
        simp only [List.tail_cons, List.mem_append, List.mem_cons]
        tauto
      · have : a2.size = a.size + 1 := rfl
        rw [this, hsz]; simp
      · rw [hbump2]; exact hbp
      · rw [hbump2]; exact hbl
    · intro k r
      rw [hr2]
      simp

theorem addNode_spec {a : NodeAllocator T M N} {free live : List Nat} (h : AInv a free live)
    (hM : M + 1 < 2 ^ 32) (hN : 0 < N) (hlt : live.length < M) (v : T) :
    ∃ a' i, a.addNode v = .ok (a', i) ∧ i = free.headD a.bumpIndex ∧ i ∉ live ∧ 1 ≤ i ∧ i ≤ M ∧
      AInv a' free.tail (i :: live) ∧
      (∀ k r, a'.reg k r = if k = i ∧ r = 0 ∧ free ≠ [] then 0 else a.reg k r) ∧
      (∀ k, a'.val? k = if k = i then some v else a.val? k) :=
  addNode_usable h hN (by rw [usable_eq hM]; exact hlt) v

/-- `add_node` on a full allocator panics. -/
theorem addNode_usable_full {a : NodeAllocator T M N} {free live : List Nat} (h : AInv a free live)
    (hfull : live.length = usable M) (v : T) : a.addNode v = .error (fullPanic M) := by
  have hbl := h.bump_le
  have hlen := h.length_eq
  have hf : free = [] := by
    cases free with
    | nil => rfl
    | cons => simp at hlen; omega
  subst hf
  have hhd : a.freeListHead = a.bumpIndex := h.chain
  have hb : a.bumpIndex = usable M + 1 := by have := h.bump_pos; simp at hlen; omega
  unfold addNode fullPanic
  by_cases h0 : (M + 1) % 2 ^ 32 = 0
  · have e1 : ¬ (a.bumpIndex = (M + 1) % 2 ^ 32) := by omega
    have e2 : a.bumpIndex + 1 ≥ 2 ^ 32 := by unfold usable at hb; omega
    simp only [hhd, if_true, if_neg e1, if_pos e2, if_pos h0, except_throw, except_bind_error]
  · have e1 : a.bumpIndex = (M + 1) % 2 ^ 32 := by unfold usable at hb; omega
    simp only [hhd, if_true, if_pos e1, if_neg h0, except_throw, except_bind_error]

theorem addNode_full {a : NodeAllocator T M N} {free live : List Nat} (h : AInv a free live)
    (hM : M + 1 < 2 ^ 32) (hfull : live.length = M) (v : T) :
    a.addNode v = .error .bufferFull := by
  rw [addNode_usable_full h (by rw [usable_eq hM]; exact hfull) v]
  unfold fullPanic
  rw [if_neg (by rw [Nat.mod_eq_of_lt hM]; omega)]

/-- What `remove_node` does to a live node under the invariant. -/
theorem removeNode_spec {a : NodeAllocator T M N} {free live : List Nat} (h : AInv a free live)
    (hN : 0 < N) {i : Nat} (hi : i ∈ live) :
    ∃ a' v, a.removeNode i = .ok (a', some v) ∧ a.val? i = some v ∧
      AInv a' (i :: free) (live.erase i) ∧
      (∀ k r, a'.reg k r = if k = i ∧ r = 0 then a.freeListHead else a.reg k r) ∧
      (∀ k, a'.val? k = a.val? k) := by
  have ⟨h1, h2⟩ := h.live_range hi
  have hpos : 0 < live.length := List.length_pos_of_mem hi
  obtain ⟨v, hv⟩ := a.val?_isSome h1 h2
  let a1 := a.setReg i 0 a.freeListHead
  let a2 : NodeAllocator T M N := { a1 with freeListHead := i, size := a.size - 1 }
  have hr2 : ∀ k r, a2.reg k r = if k = i ∧ r = 0 then a.freeListHead else a.reg k r := by
    intro k r
    have : a2.reg k r = a1.reg k r := rfl
    rw [this, reg_setReg]; simp [h1, h2, hN]
  have hv2 : ∀ k, a2.val? k = a.val? k := by
    intro k
    have : a2.val? k = a1.val? k := rfl
    rw [this, val?_setReg]
  have hb2 : a2.bumpIndex = a.bumpIndex := by
    have : a2.bumpIndex = a1.bumpIndex := rfl
    rw [this, bump_setReg]
  have hnd := h.nodup
  have hperm : live.Perm (i :: live.erase i) := List.perm_cons_erase hi
  have hnd' : (free ++ i :: live.erase i).Nodup :=
    ((List.Perm.append_left free hperm).nodup_iff).1 hnd
  have hp2 : (free ++ i :: live.erase i).Perm (i :: (free ++ live.erase i)) := List.perm_middle
  refine ⟨a2, v, ?_, hv, ⟨?_, ?_, ?_, ?_, ?_, ?_⟩, hr2, hv2⟩
  · unfold removeNode SENTINEL
    rw [if_neg (by omega)]
    have hput := putReg_ok a (r := 0) (v := a.freeListHead) h1 h2 hN
    simp only [get_ok a h1 h2, except_bind_ok] at hput ⊢
    unfold Node.setFreeListRegister
    have hput' : (do let n ← (a.nodes[i-1]'(by omega)).setRegister 0 a.freeListHead; a.put i n : R _) = .ok a1 := hput
    have hs1 : a1.size = a.size := by simp [a1]
    have e1 : ¬ (a1.size = 0) := by rw [hs1, h.size]; omega
    have hg2 : a2.getValue i = .ok v := getValue_ok a2 (by rw [hv2]; exact hv)
    unfold getValue at hg2
    have hreg : ∃ n', (a.nodes[i-1]'(by omega)).setRegister 0 a.freeListHead = .ok n' := by
      unfold Node.setRegister; rw [dif_pos hN]; exact ⟨_, rfl⟩
    obtain ⟨n', hn'⟩ := hreg
    rw [hn'] at hput' ⊢
    simp only [except_bind_ok] at hput' ⊢
    rw [hput']
    simp only [except_bind_ok, if_neg e1]
    simp only [hs1]
    change (do let n ← a2.get i; pure (a2, some n.value) : R _) = _
    rw [get_ok a2 h1 h2] at hg2 ⊢
    simp only [except_bind_ok, except_pure, Except.ok.injEq] at hg2 ⊢
    rw [hg2]
  · refine ⟨rfl, ?_⟩
    rw [hr2]; simp only [and_self, if_true]
    refine FreeChain.frame hb2 ?_ h.chain
    intro j hj
    rw [hr2, if_neg]
    rintro ⟨rfl, _⟩
    exact h.not_live_of_free hj hi
  · simp only [List.cons_append]
    exact (hp2.nodup_iff).1 hnd'
  · intro j
    rw [hb2, ← h.mem j]
    simp only [List.cons_append, List.mem_cons, List.mem_append]
    have := hperm.mem_iff (a := j)
    simp only [List.mem_cons] at this
    rw [this]; tauto
  · have : a2.size = a.size - 1 := rfl
    rw [this, h.size, List.length_erase_of_mem hi]
  · rw [hb2]; exact h.bump_pos
  · rw [hb2]; exact h.bump_le

/-- `initialize` on an allocator in use panics. -/
theorem reinit_of_inv {a : NodeAllocator T M N} {free live : List Nat} (h : AInv a free live)
    (hN : 0 < N := by omega) : a.initialise = .error .reinit := by
  have hb := h.bump_pos
  unfold initialise rassert
  have : decide (N ≥ 1) = true := decide_eq_true hN
  rw [this]
  simp only [if_true, except_bind_ok]
  rw [if_neg (by omega)]; rfl

theorem removeNode_zero (a : NodeAllocator T M N) : a.removeNode 0 = .ok (a, none) := by
  simp [removeNode, SENTINEL]

/-- Registers in `S` of nodes that are not live are zero (register 0 only for nodes that
were never allocated, since the free list uses it). -/
def Clean (a : NodeAllocator T M N) (S : Nat → Prop) (live : List Nat) : Prop :=
  ∀ i r, i ∉ live → S r → (r ≠ 0 ∨ a.bumpIndex ≤ i) → a.reg i r = 0

/-- writing a value leaves every register alone -/
theorem setValue_frame {a a' : NodeAllocator T M N} {i : Nat} {v : T} (h : a.setValue i v = .ok a') (j r : Nat) :
    a'.getRegister j r = a.getRegister j r := by
  have hi : 1 ≤ i ∧ i ≤ M := by
    refine Classical.byContradiction fun hc => ?_
    have : ∃ e, a.get i = .error e := by
      unfold get
      split
      · omega
      · exact ⟨_, rfl⟩
    obtain ⟨e, he⟩ := this
    unfold setValue at h
    rw [he] at h; cases h
  rw [setValue_ok a v hi.1 hi.2] at h
  cases h
  by_cases hj : j ≤ M ∧ r < N
  · rw [getRegister_ok _ hj.1 hj.2, getRegister_ok _ hj.1 hj.2, reg_setVal]
  · unfold getRegister get setVal
    rw [dif_pos hi]
    by_cases h0 : j ≠ SENTINEL
    · rw [if_pos h0, if_pos h0]
      split
      · next hjm =>
        have hr : ¬ r < N := by omega
        simp [Node.getRegister, hr]
      · rfl
    · rw [if_neg h0, if_neg h0]

end NodeAllocator
end Sokoban

namespace Sokoban.NodeAllocator
variable {T : Type} {M N : Nat}

theorem Clean.perm {a : NodeAllocator T M N} {S : Nat → Prop} {live live' : List Nat}
    (hc : Clean a S live) (hp : live.Perm live') : Clean a S live' :=
  fun i r hi hS hr => hc i r (fun h => hi (hp.mem_iff.1 h)) hS hr

theorem Clean.setReg {a : NodeAllocator T M N} {S : Nat → Prop} {live : List Nat}
    (hc : Clean a S live) {i : Nat} (r v : Nat) (hi : i ∈ live ∨ i = 0) :
    Clean (a.setReg i r v) S live := by
  intro k s hk hS hs
  rw [reg_setReg, if_neg]
  · exact hc k s hk hS (by simpa using hs)
  · rintro ⟨⟨rfl, _⟩, ⟨h1, _⟩, _⟩
    rcases hi with hi | hi
    · exact hk hi
    · omega

theorem Clean.setVal {a : NodeAllocator T M N} {S : Nat → Prop} {live : List Nat}
    (hc : Clean a S live) (i : Nat) (v : T) : Clean (a.setVal i v) S live := by
  intro k s hk hS hs
  rw [reg_setVal]; exact hc k s hk hS (by simpa using hs)

theorem new_Clean (z : T) (S : Nat → Prop) : Clean (new z : NodeAllocator T M N) S [] :=
  fun i r _ _ _ => reg_new z i r

/-- `add_node` together with zeroed registers of the new node. -/
theorem addNode_clean {a : NodeAllocator T M N} {free live : List Nat} {S : Nat → Prop}
    (h : AInv a free live) (hc : Clean a S live)
    (hM : M + 1 < 2 ^ 32) (hN : 0 < N) (hlt : live.length < M) (v : T) :
    ∃ a' i, a.addNode v = .ok (a', i) ∧ i = free.headD a.bumpIndex ∧ i ∉ live ∧ 1 ≤ i ∧ i ≤ M ∧
      AInv a' free.tail (i :: live) ∧ Clean a' S (i :: live) ∧
      (∀ r, S r → a'.reg i r = 0) ∧
      (∀ k r, k ≠ i → a'.reg k r = a.reg k r) ∧
      (∀ k r, r ≠ 0 → a'.reg k r = a.reg k r) ∧
      (∀ k, a'.val? k = if k = i then some v else a.val? k) := by
  obtain ⟨a', i, h1, h2, h3, h4, h5, h6, h7, h8⟩ := addNode_spec h hM hN hlt v
  have hz : ∀ r, S r → a'.reg i r = 0 := by
    intro r hS
    rw [h7]
    by_cases hr : r = 0
    · subst hr
      by_cases hf : free = []
      · rw [if_neg (by simp [hf])]
        refine hc i 0 h3 hS (Or.inr ?_)
        subst hf; simp at h2; omega
      · simp [hf]
    · rw [if_neg (by simp [hr])]
      exact hc i r h3 hS (Or.inl hr)
  have hother : ∀ k r, k ≠ i → a'.reg k r = a.reg k r := by
    intro k r hk; rw [h7, if_neg (by simp [hk])]
  have hb : a.bumpIndex ≤ a'.bumpIndex := by
    have e1 := h.length_eq; have e2 := h6.length_eq
    have := h6.bump_pos
    have := h.bump_pos
    cases free <;> simp at e1 e2 <;> omega
  refine ⟨a', i, h1, h2, h3, h4, h5, h6, ?_, hz, hother, ?_, h8⟩
  · intro k r hk hS hr
    simp only [List.mem_cons, not_or] at hk
    rw [hother k r hk.1]
    exact hc k r hk.2 hS (hr.imp id (fun h => by omega))
  · intro k r hr; rw [h7, if_neg (by simp [hr])]

/-- `remove_node` together with cleanness, given that the registers were cleared. -/
theorem removeNode_clean {a : NodeAllocator T M N} {free live : List Nat} {S : Nat → Prop}
    (h : AInv a free live) (hc : Clean a S live)
    (hN : 0 < N) {i : Nat} (hi : i ∈ live) (hz : ∀ r, S r → r ≠ 0 → a.reg i r = 0) :
    ∃ a' v, a.removeNode i = .ok (a', some v) ∧ a.val? i = some v ∧
      AInv a' (i :: free) (live.erase i) ∧ Clean a' S (live.erase i) ∧ a'.freeListHead = i ∧
      (∀ k r, k ≠ i → a'.reg k r = a.reg k r) ∧
      (∀ k r, r ≠ 0 → a'.reg k r = a.reg k r) ∧
      (∀ k, a'.val? k = a.val? k) := by
  obtain ⟨a', v, h1, h2, h3, h4, h5⟩ := removeNode_spec h hN hi
  have hother : ∀ k r, k ≠ i → a'.reg k r = a.reg k r := by
    intro k r hk; rw [h4, if_neg (by simp [hk])]
  have hr0 : ∀ k r, r ≠ 0 → a'.reg k r = a.reg k r := by
    intro k r hr; rw [h4, if_neg (by simp [hr])]
  have hb : a'.bumpIndex = a.bumpIndex := by
    have e1 := h.length_eq; have e2 := h3.length_eq
    have := h3.bump_pos
    have := h.bump_pos
    rw [List.length_erase_of_mem hi] at e2
    have hpos : 0 < live.length := List.length_pos_of_mem hi
    simp at e2; omega
  refine ⟨a', v, h1, h2, h3, ?_, h3.chain.1, hother, hr0, h5⟩
  intro k r hk hS hr
  by_cases hki : k = i
  · subst hki
    have hlt : k < a'.bumpIndex := ((h3.mem k).1 (by simp)).2
    have hr' : r ≠ 0 := by
      rcases hr with hr | hr
      · exact hr
      · omega
    rw [hr0 k r hr']; exact hz r hS hr'
  · rw [hother k r hki]
    refine hc k r (fun hl => hk ?_) hS (by rw [← hb]; exact hr)
    exact (List.mem_erase_of_ne hki).2 hl

end Sokoban.NodeAllocator

namespace Sokoban.NodeAllocator
variable {T : Type} {M N : Nat}

/-- register write seen from a proper index -/
theorem reg_setReg' (a : NodeAllocator T M N) {i r v k s : Nat} (hk : k ≠ 0) (hi : i ≤ M) (hr : r < N) :
    (a.setReg i r v).reg k s = if k = i ∧ s = r then v else a.reg k s := by
  rw [reg_setReg]
  by_cases h : k = i ∧ s = r
  · rw [if_pos h, if_pos ⟨h, ⟨by omega, hi⟩, hr⟩]
  · rw [if_neg h, if_neg (fun hc => h hc.1)]

end Sokoban.NodeAllocator
