import Verif.Proof.BytesNew
import Verif.Proof.PeakMap
import Verif.Spec.Resize

/-
A structure whose last field is the array of nodes, read from the same bytes with another number of nodes.
-/
namespace Sokoban
open NodeAllocator

/-- two allocators with the same contents as far as they are in use -/
structure NodeAllocator.Alike {T : Type} {M M' N : Nat} (a : NodeAllocator T M N) (a' : NodeAllocator T M' N)
    (S : Nat → Prop) : Prop where
  size : a'.size = a.size
  bump : a'.bumpIndex = a.bumpIndex
  free : a'.freeListHead = a.freeListHead
  room : a.bumpIndex ≤ M' + 1
  reg : ∀ i r, i < a.bumpIndex ∨ S r → a'.reg i r = a.reg i r
  val : ∀ i, i < a.bumpIndex → a'.val? i = a.val? i

namespace NodeAllocator.Alike
variable {T : Type} {M M' N : Nat} {a : NodeAllocator T M N} {a' : NodeAllocator T M' N} {S : Nat → Prop}
  {free live : List Nat}

private theorem chain (h : Alike a a' S) : ∀ {l : List Nat} {x : Nat}, (∀ i ∈ l, i < a.bumpIndex) → a.FreeChain x l →
    a'.FreeChain x l
  | [], _, _, hc => by
    have : _ = a.bumpIndex := hc
    exact this.trans h.bump.symm
  | i :: l, _, hl, hc => by
    refine ⟨hc.1, ?_⟩
    rw [h.reg i 0 (Or.inl (hl i (by simp)))]
    exact chain h (fun j hj => hl j (by simp [hj])) hc.2

theorem ainv (h : Alike a a' S) (hM : M' + 1 < 2 ^ 32) (hi : AInv a free live) : AInv a' free live where
  chain := by
    rw [h.free]
    exact h.chain (fun i hf => ((hi.mem i).1 (by simp [hf])).2) hi.chain
  nodup := hi.nodup
  mem i := by rw [hi.mem i, h.bump]
  size := by rw [h.size, hi.size]
  bump_pos := by rw [h.bump]; exact hi.bump_pos
  bump_le := by rw [h.bump, usable_eq hM]; exact h.room

theorem clean (h : Alike a a' S) (hc : Clean a S live) : Clean a' S live := by
  intro i r hl hs hb
  rw [h.reg i r (Or.inr hs)]
  exact hc i r hl hs (by rw [← h.bump]; exact hb)

theorem live_val (h : Alike a a' S) (hi : AInv a free live) {i : Nat} (hl : i ∈ live) : a'.val? i = a.val? i :=
  h.val i ((hi.mem i).1 (by simp [hl])).2

end NodeAllocator.Alike

namespace Bytes
open Layout Fields

theorem readLE_lt : ∀ (n : Nat) (m : Mem), readLE m n < 256 ^ n
  | 0, _ => by simp [readLE]
  | n + 1, m => by
    have := readLE_lt n (m.from 1)
    have h0 := (m 0).isLt
    simp only [readLE]
    rw [Nat.pow_succ]
    omega

theorem readLE_eq_zero : ∀ (n : Nat) (m : Mem), readLE m n = 0 ↔ ∀ k < n, m k = 0
  | 0, _ => by simp [readLE]
  | n + 1, m => by
    have ih := readLE_eq_zero n (m.from 1)
    simp only [readLE]
    constructor
    · intro h k hk
      have h1 : (m 0).val = 0 := by omega
      have h2 : readLE (m.from 1) n = 0 := by omega
      cases k with
      | zero => exact Fin.ext h1
      | succ k =>
        have := ih.1 h2 k (by omega)
        rw [Nat.add_comm]; exact this
    · intro h
      have h1 : m 0 = 0 := h 0 (by omega)
      have h2 := ih.2 fun k hk => h (1 + k) (by omega)
      rw [h1, h2]; rfl

section Node
variable {T : Type} {B : Rep T} {N : Nat}

theorem node_register (m : Mem) {r : Nat} (hr : r < N) : ((node B N).read m).registers[r] = readLE (m.from (4 * r)) 4 := by
  simp only [node, Fields.close, Fields.add, array, Vector.getElem_ofFn]
  show readLE ((m.from (roundUp 0 4)).from (r * 4)) 4 = _
  rw [show roundUp 0 4 = 0 from rfl, show r * 4 = 4 * r from Nat.mul_comm _ _]
  congr 1
  funext k
  show m (0 + (4 * r + k)) = m (4 * r + k)
  rw [Nat.zero_add]

theorem node_size (hB : B.Lawful) : 4 * N ≤ (node B N).size := by
  show 4 * N ≤ roundUp (roundUp (roundUp 0 4 + N * 4) B.align + B.size) (max (max 1 4) B.align)
  have h1 : roundUp 0 4 + N * 4 ≤ roundUp (roundUp 0 4 + N * 4) B.align := le_roundUp hB.pos
  have h2 : roundUp (roundUp 0 4 + N * 4) B.align + B.size ≤
      roundUp (roundUp (roundUp 0 4 + N * 4) B.align + B.size) (max (max 1 4) B.align) := le_roundUp (by omega)
  have h0 : roundUp 0 4 = 0 := rfl
  omega

end Node

/-- how the structures `S M` lie in memory: something that does not depend on the capacity up to offset `base`, and then
the nodes -/
structure Flex {S : Nat → Type} (A : (M : Nat) → Rep (S M)) {T : Type} {N : Nat} (B : Rep T)
    (al : (M : Nat) → S M → NodeAllocator T M N) (base : Nat) (Same : (M M' : Nat) → S M → S M' → Prop) : Prop where
  lawful : ∀ M, (A M).Lawful
  lawfulB : B.Lawful
  nodes : ∀ M m i (h : i < M), (al M ((A M).read m)).nodes[i] = (node B N).read (m.from (base + i * (node B N).size))
  head : ∀ M M' m m', (∀ k < base, m' k = m k) → Same M M' ((A M).read m) ((A M').read m') ∧
    (al M' ((A M').read m')).size = (al M ((A M).read m)).size ∧
    (al M' ((A M').read m')).bumpIndex = (al M ((A M).read m)).bumpIndex ∧
    (al M' ((A M').read m')).freeListHead = (al M ((A M).read m)).freeListHead
  frame : ∀ M t m k, base + M * (node B N).size ≤ k → (A M).write t m k = m k
  size : ∀ M, base + M * (node B N).size ≤ (A M).size

namespace Flex
variable {S : Nat → Type} {A : (M : Nat) → Rep (S M)} {T : Type} {N : Nat} {B : Rep T}
    {al : (M : Nat) → S M → NodeAllocator T M N} {base : Nat} {Same : (M M' : Nat) → S M → S M' → Prop}

theorem reg (F : Flex A B al base Same) {M i r : Nat} (m : Mem) (h1 : 1 ≤ i) (h2 : i ≤ M) (hr : r < N) :
    (al M ((A M).read m)).reg i r = readLE (m.from (base + (i - 1) * (node B N).size + 4 * r)) 4 := by
  unfold NodeAllocator.reg
  rw [dif_pos ⟨⟨h1, h2⟩, hr⟩]
  have := F.nodes M m (i - 1) (by omega)
  simp only [this, node_register _ hr]
  congr 1
  funext k
  simp only [Mem.from]
  congr 1
  omega

/-- the bytes of the registers in `R` of the slots from `b` on are zero, as far as the slice goes -/
def Quiet (B : Rep T) (N base : Nat) (R : Nat → Prop) (b : Nat) (s : Slice) : Prop :=
  ∀ i r j, b ≤ i → R r → r < N → j < 4 → base + (i - 1) * (node B N).size + 4 * r + j < s.len →
    s.mem (base + (i - 1) * (node B N).size + 4 * r + j) = 0

private theorem slot_le {i M sz : Nat} (h1 : 1 ≤ i) (h2 : i ≤ M) : (i - 1) * sz + sz ≤ M * sz := by
  obtain ⟨j, rfl⟩ : ∃ j, i = j + 1 := ⟨i - 1, by omega⟩
  calc (j + 1 - 1) * sz + sz = (j + 1) * sz := by rw [Nat.add_sub_cancel, Nat.add_mul, Nat.one_mul]
    _ ≤ M * sz := Nat.mul_le_mul_right _ h2

/-- reading a reallocated buffer with another capacity -/
theorem alike (F : Flex A B al base Same) {R : Nat → Prop} {M M' b : Nat} {s s' : Slice} (hf : s.Fits (A M)) (hf' : s'.Fits (A M'))
    (hb : (al M ((A M).read s.mem)).bumpIndex = b) (hM : b ≤ M + 1) (hM' : b ≤ M' + 1)
    (hk : ∀ k, k < s.len → k < s'.len → s'.mem k = s.mem k) (hz : ∀ k, s.len ≤ k → k < s'.len → s'.mem k = 0)
    (hq : Quiet B N base R b s) :
    Same M M' ((A M).read s.mem) ((A M').read s'.mem) ∧
    Alike (al M ((A M).read s.mem)) (al M' ((A M').read s'.mem)) R ∧ Quiet B N base R b s' := by
  have e1 := F.size M
  have e2 := F.size M'
  have l1 := hf.1
  have l2 := hf'.1
  have hns := node_size (N := N) F.lawfulB
  have hq' : Quiet B N base R b s' := by
    intro i r j hi hr hN hj hl
    by_cases h : base + (i - 1) * (node B N).size + 4 * r + j < s.len
    · rw [hk _ h hl]; exact hq i r j hi hr hN hj h
    · exact hz _ (by omega) hl
  obtain ⟨h1, h2, h3, h4⟩ := F.head M M' s.mem s'.mem fun k hk' => hk k (by omega) (by omega)
  refine ⟨h1, ⟨h2, h3, h4, by omega, fun i r hir => ?_, fun i hi => ?_⟩, hq'⟩
  · by_cases hr : r < N
    swap
    · unfold NodeAllocator.reg
      rw [dif_neg (fun hc => hr hc.2), dif_neg (fun hc => hr hc.2)]
    by_cases h0 : 1 ≤ i
    swap
    · unfold NodeAllocator.reg
      rw [dif_neg (fun hc => h0 hc.1.1), dif_neg (fun hc => h0 hc.1.1)]
    by_cases hib : i < b
    · have s1 := slot_le (sz := (node B N).size) h0 (show i ≤ M by omega)
      have s2 := slot_le (sz := (node B N).size) h0 (show i ≤ M' by omega)
      rw [F.reg _ h0 (by omega) hr, F.reg _ h0 (by omega) hr]
      apply readLE_congr
      intro k hk4
      exact hk _ (by omega) (by omega)
    · have hR : R r := by
        rcases hir with h | h
        · omega
        · exact h
      have key : ∀ {M : Nat} {s : Slice}, s.Fits (A M) → Quiet B N base R b s → (al M ((A M).read s.mem)).reg i r = 0 := by
        intro M s hf hq
        by_cases hiM : i ≤ M
        · have s1 := slot_le (sz := (node B N).size) h0 hiM
          have := hf.1
          have := F.size M
          rw [F.reg _ h0 hiM hr, readLE_eq_zero]
          intro k hk4
          exact hq i r k (by omega) hR hr hk4 (by omega)
        · unfold NodeAllocator.reg
          rw [dif_neg (fun hc => hiM hc.1.2)]
      rw [key hf hq, key hf' hq']
  · unfold NodeAllocator.val?
    by_cases h0 : 1 ≤ i
    · have s1 := slot_le (sz := (node B N).size) h0 (show i ≤ M by omega)
      have s2 := slot_le (sz := (node B N).size) h0 (show i ≤ M' by omega)
      rw [dif_pos ⟨h0, by omega⟩, dif_pos ⟨h0, by omega⟩]
      rw [F.nodes M' _ (i - 1) (by omega), F.nodes M _ (i - 1) (by omega)]
      congr 2
      apply (lawful_node F.lawfulB N).congr
      intro k hk4
      exact hk _ (by omega) (by omega)
    · rw [dif_neg (fun hc => h0 hc.1), dif_neg (fun hc => h0 hc.1)]

/-- what writing a state leaves quiet -/
theorem quiet_write (F : Flex A B al base Same) {R : Nat → Prop} {M b b' : Nat} {s s' : Slice} (hl : s'.len = s.len)
    (hb0 : 1 ≤ b) (hb : b ≤ b') (hm : ∀ k, base + M * (node B N).size ≤ k → s'.mem k = s.mem k)
    (hc : ∀ i r, R r → b' ≤ i → (al M ((A M).read s'.mem)).reg i r = 0) (hq : Quiet B N base R b s) :
    Quiet B N base R b' s' := by
  intro i r j hi hr hN hj hlt
  by_cases hiM : i ≤ M
  · have := hc i r hr hi
    rw [F.reg _ (by omega) hiM hN, readLE_eq_zero] at this
    exact this j hj
  · have h1 : M * (node B N).size ≤ (i - 1) * (node B N).size := Nat.mul_le_mul_right _ (by omega)
    rw [hm _ (by omega)]
    exact hq i r j (by omega) hr hN hj (by omega)

end Flex

theorem runAt_frame {S Op Out : Type} {A : Rep S} {step : S → Op → R (S × Out)} {lo : Nat}
    (hA : ∀ t m k, lo ≤ k → A.write t m k = m k) : ∀ (ops : List Op) (s s' : Slice) (os : List Out),
    runAt A step s (ops.map fun op => (id, op)) = .ok (s', os) →
    s'.addr = s.addr ∧ s'.len = s.len ∧ ∀ k, lo ≤ k → s'.mem k = s.mem k
  | [], s, s', os, h => by cases h; exact ⟨rfl, rfl, fun _ _ => rfl⟩
  | op :: ops, s, s', os, h => by
    simp only [List.map_cons, runAt, id] at h
    cases e1 : callAt A step s op with
    | error p => rw [e1] at h; cases h
    | ok q =>
      obtain ⟨s1, o⟩ := q
      rw [e1] at h
      simp only [except_bind_ok] at h
      cases e2 : runAt A step s1 (ops.map fun op => (id, op)) with
      | error p => rw [e2] at h; cases h
      | ok q =>
        obtain ⟨s2, os2⟩ := q
        rw [e2] at h
        cases h
        obtain ⟨i1, i2, i3⟩ := runAt_frame hA ops s1 _ _ e2
        unfold callAt at e1
        cases e3 : load A s with
        | error p => rw [e3] at e1; cases e1
        | ok y =>
          cases y with
          | none => rw [e3] at e1; cases e1
          | some t =>
            rw [e3] at e1
            cases e4 : step t op with
            | error p => simp only [except_bind_ok, unwrap, e4] at e1; cases e1
            | ok r =>
              simp only [except_bind_ok, unwrap, e4] at e1
              cases e1
              exact ⟨i1, i2, fun k hk => (i3 k hk).trans (hA _ _ k hk)⟩

/-- a structure that follows a specification and whose allocator is in order -/
structure Works {S : Nat → Type} {A : (M : Nat) → Rep (S M)} {T : Type} {N : Nat} {B : Rep T}
    {al : (M : Nat) → S M → NodeAllocator T M N} {base : Nat} {Same : (M M' : Nat) → S M → S M' → Prop}
    (_F : Flex A B al base Same) {X Op Out : Type} (Rg : Nat → Prop) (step : (M : Nat) → S M → Op → R (S M × Out))
    (spec : Nat → X → Op → Out → X → Prop) (len : (M : Nat) → S M → Nat) (Cap : Nat → Prop) (I : (M : Nat) → S M → Prop)
    (H : Nat → (M : Nat) → S M → X → Prop) (able : Nat → X → List Op → Prop) : Prop where
  valid : ∀ M t, I M t → (A M).Valid t
  range : ∀ M M' m m', (∀ k < base, m' k = m k) → I M ((A M).read m) → I M' ((A M').read m')
  post : ∀ M t op, I M t → Post (step M t op) (fun r => I M r.1)
  sess : ∀ n M t x ops, Cap M → H (n + ops.length) M t x → able M x ops → ∃ t' os x', run (step M) t ops = .ok (t', os) ∧
    H n M t' x' ∧ Trace (spec M) x ops os x' ∧
    (al M t').bumpIndex = max (al M t).bumpIndex (peak (len M) (step M) t ops + 1)
  clean : ∀ n M t x, H n M t x → ∀ i r, Rg r → (al M t).bumpIndex ≤ i → (al M t).reg i r = 0
  bump : ∀ n M t x, H n M t x → 1 ≤ (al M t).bumpIndex ∧ (al M t).bumpIndex ≤ M + 1
  resize : ∀ n M M' t t' x, Cap M' → H n M t x → Same M M' t t' → Alike (al M t) (al M' t') Rg → H n M' t' x

/-- the calls of the sessions are ones that the specification can follow -/
def Able {X Op Out : Type} (spec : Nat → X → Op → Out → X → Prop) (able : Nat → X → List Op → Prop) :
    X → List (Session Op) → Prop
  | _, [] => True
  | x, s :: ss => able s.cap x s.ops ∧ ∀ os x1, Trace (spec s.cap) x s.ops os x1 → Able spec able x1 ss

namespace Works
variable {S : Nat → Type} {A : (M : Nat) → Rep (S M)} {T : Type} {N : Nat} {B : Rep T}
    {al : (M : Nat) → S M → NodeAllocator T M N} {base : Nat} {Same : (M M' : Nat) → S M → S M' → Prop}
    {F : Flex A B al base Same} {X Op Out : Type} {Rg : Nat → Prop} {step : (M : Nat) → S M → Op → R (S M × Out)}
    {spec : Nat → X → Op → Out → X → Prop} {len : (M : Nat) → S M → Nat} {Cap : Nat → Prop} {I : (M : Nat) → S M → Prop}
    {H : Nat → (M : Nat) → S M → X → Prop} {able : Nat → X → List Op → Prop}

/-- the buffer holds `x` with bump index `b` -/
def In (_W : Works F Rg step spec len Cap I H able) (n b : Nat) (s : Slice) (x : X) : Prop :=
  ∃ M t, load (A M) s = .ok (some t) ∧ I M t ∧ H n M t x ∧ (al M t).bumpIndex = b ∧ Flex.Quiet B N base Rg b s

/-- one session -/
theorem session (W : Works F Rg step spec len Cap I H able) {n b : Nat} {s : Slice} {x : X} {y : Session Op}
    (h : W.In (n + y.ops.length) b s x) (hc : Cap y.cap) (hr : Realloc y.move) (hf : (y.move s).Fits (A y.cap))
    (hb : b ≤ y.cap + 1) (ha : able y.cap x y.ops) :
    ∃ t s' os x' b', load (A y.cap) (y.move s) = .ok (some t) ∧
      runAt (A y.cap) (step y.cap) (y.move s) (y.ops.map fun op => (id, op)) = .ok (s', os) ∧
      Trace (spec y.cap) x y.ops os x' ∧ W.In n b' s' x' ∧ b' ≤ y.cap + 1 ∧
      b' = max b (peak (len y.cap) (step y.cap) t y.ops + 1) := by
  obtain ⟨M, t0, hl, hi, hh, hbm, hq⟩ := h
  obtain ⟨hfM, rfl⟩ := fits_of_load hl
  obtain ⟨b0, b1⟩ := W.bump _ _ _ _ hh
  obtain ⟨k1, k2⟩ := hr s
  have e1 := F.size M
  have e2 := F.size y.cap
  obtain ⟨hs, hal, hq'⟩ := F.alike hfM hf hbm (by omega) hb k1 k2 hq
  have hl' := load_fits hf
  have hfM1 := hfM.1
  have hf1 := hf.1
  have hi' : I y.cap ((A y.cap).read (y.move s).mem) := W.range M y.cap s.mem _ (fun k hk => k1 k (by omega) (by omega)) hi
  have hh' := W.resize _ _ _ _ _ _ hc hh hs hal
  obtain ⟨t', os, x', hrun, hh2, htr, hbp⟩ := W.sess n y.cap _ x y.ops hc hh' ha
  have hsh := runAt_shows (F.lawful y.cap) (W.valid y.cap) (step := step y.cap) (D := fun _ => True)
    (fun t op h _ => W.post y.cap t op h) (y.ops.map fun op => (id, op)) (y.move s) _ hl' hi'
    (fun z hz => by
      obtain ⟨op, _, rfl⟩ := List.mem_map.1 hz
      exact ⟨fun s hs => ⟨hs, fun _ _ => rfl⟩, trivial⟩)
  have hmap : (y.ops.map fun op => ((id : Slice → Slice), op)).map Prod.snd = y.ops := by
    rw [List.map_map]; exact List.map_id _
  rw [hmap, hrun] at hsh
  obtain ⟨s', hra, hl2⟩ := hsh
  obtain ⟨f1, f2, f3⟩ := runAt_frame (lo := base + y.cap * (node B N).size) (F.frame y.cap) y.ops _ _ _ hra
  obtain ⟨hf2, hrd⟩ := fits_of_load hl2
  have hi2 : I y.cap t' :=
    run_post (D := fun _ => True) (fun t op h _ => W.post y.cap t op h) y.ops _ hi' (fun _ _ => trivial) _ hrun
  have hb' : (al y.cap ((A y.cap).read (y.move s).mem)).bumpIndex = b := by rw [hal.bump, hbm]
  rw [hb'] at hbp
  refine ⟨_, s', os, x', _, hl', hra, htr, ⟨y.cap, t', hl2, hi2, hh2, rfl, ?_⟩, (W.bump _ _ _ _ hh2).2, hbp⟩
  refine F.quiet_write (s := y.move s) f2 (by omega) (by omega) f3 ?_ hq'
  intro i r hr hi
  rw [hrd]
  exact W.clean _ _ _ _ hh2 i r hr hi

/-- any number of sessions -/
theorem sessions (W : Works F Rg step spec len Cap I H able) : ∀ (xs : List (Session Op)) (p : Nat) (s : Slice) (x : X),
    W.In (calls xs) (p + 1) s x → Roomy A len step Cap p s xs → Able spec able x xs →
    ∃ s' outs x', runSessions A step s xs = .ok (s', outs) ∧ SessTrace spec x xs outs x'
  | [], p, s, x, h, _, _ => ⟨s, [], x, rfl, rfl⟩
  | y :: ys, p, s, x, h, hr, ha => by
    obtain ⟨r1, r2, r3, r4, r5⟩ := hr
    obtain ⟨t, s1, os, x1, b', hl, hra, htr, hin, _, hb⟩ := W.session (n := calls ys) (y := y)
      (by rw [Nat.add_comm]; simpa [calls] using h) r2 r3 r4 (by omega) ha.1
    have hb2 : b' = max p (peak (len y.cap) (step y.cap) t y.ops) + 1 := by omega
    rw [hb2] at hin
    obtain ⟨s2, outs, x2, e, htr2⟩ := W.sessions ys _ s1 x1 hin (r5 _ _ _ hl hra) (ha.2 _ _ htr)
    exact ⟨s2, os :: outs, x2, by simp only [runSessions, hra, except_bind_ok, e]; rfl, x1, htr, htr2⟩

/-- growing needs no condition on the number of elements -/
theorem roomy (W : Works F Rg step spec len Cap I H able) : ∀ (xs : List (Session Op)) (c p : Nat) (s : Slice) (x : X),
    W.In (calls xs) (p + 1) s x → p ≤ c → Growing A Cap c xs → Able spec able x xs → Roomy A len step Cap p s xs
  | [], _, _, _, _, _, _, _, _ => trivial
  | y :: ys, c, p, s, x, h, hp, hg, ha => by
    obtain ⟨r1, r2, r3, r4, r5⟩ := hg
    obtain ⟨t, s1, os, x1, b', hl, hra, htr, hin, hle, hb⟩ := W.session (n := calls ys) (y := y)
      (by rw [Nat.add_comm]; simpa [calls] using h) r2 r3 (r4 s) (by omega) ha.1
    have hb2 : b' = max p (peak (len y.cap) (step y.cap) t y.ops) + 1 := by omega
    rw [hb2] at hin hle
    refine ⟨by omega, r2, r3, r4 s, fun t' s' outs hl' hra' => ?_⟩
    rw [hl] at hl'; cases hl'
    rw [hra] at hra'; cases hra'
    exact W.roomy ys _ _ s1 x1 hin (by omega) r5 (ha.2 _ _ htr)

/-- a fresh structure in a zeroed buffer -/
theorem fresh (W : Works F Rg step spec len Cap I H able) {n M : Nat} {s0 s : Slice} {t : S M} {x : X} (hz : ∀ k < s0.len, s0.mem k = 0)
    (hl : load (A M) s = .ok (some t)) (hlen : s.len = s0.len) (hm : ∀ k, base + M * (node B N).size ≤ k → s.mem k = s0.mem k)
    (hi : I M t) (hh : H n M t x) (hb : (al M t).bumpIndex = 1) : W.In n 1 s x := by
  refine ⟨M, t, hl, hi, hh, hb, ?_⟩
  obtain ⟨hf, rfl⟩ := fits_of_load hl
  refine F.quiet_write (s := s0) (b := 1) hlen (by omega) (by omega) hm ?_ ?_
  · intro i r hr hi
    exact W.clean _ _ _ _ hh i r hr (by omega)
  · intro i r j _ _ _ _ hlt
    exact hz _ hlt

end Works
end Bytes
end Sokoban
