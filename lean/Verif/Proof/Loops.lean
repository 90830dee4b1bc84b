import Verif.Proof.Hostile
import Verif.Proof.Near
import Verif.Proof.TreeIter
import Verif.Model.HashTable
import Verif.Model.RedBlack
import Verif.Model.AVL
import Verif.Model.Critbit

/-
A loop that follows links in a memory of `M` nodes and has not ended after `M + 1` iterations never ends.
Nothing is assumed about the memory.
-/
namespace Sokoban
open NodeAllocator

namespace Loops
variable {σ α : Type} {M : Nat} {nx : Nat → Option Nat}

/-- the walk from `i` ends after `n` steps -/
def Ends (nx : Nat → Option Nat) : Nat → Nat → Prop
  | 0, i => nx i = none
  | n + 1, i => ∃ j, nx i = some j ∧ Ends nx n j

theorem Ends.unique : ∀ {n m i : Nat}, Ends nx n i → Ends nx m i → n = m
  | 0, 0, _, _, _ => rfl
  | 0, m + 1, _, h, ⟨j, h', _⟩ => by rw [show nx _ = none from h] at h'; cases h'
  | n + 1, 0, _, ⟨j, h', _⟩, h => by rw [show nx _ = none from h] at h'; cases h'
  | n + 1, m + 1, _, ⟨j, h1, h2⟩, ⟨k, k1, k2⟩ => by
    rw [h1] at k1; cases k1
    rw [Ends.unique h2 k2]

theorem Ends.visited (hr : ∀ i j, nx i = some j → (1 ≤ i ∧ i ≤ M) ∨ j = i) : ∀ {n i : Nat}, Ends nx n i →
    ∃ L : List Nat, L.length = n ∧ L.Nodup ∧ ∀ x ∈ L, (1 ≤ x ∧ x ≤ M) ∧ ∃ m, m ≤ n ∧ Ends nx m x
  | 0, _, _ => ⟨[], rfl, List.nodup_nil, by simp⟩
  | n + 1, i, h => by
    obtain ⟨j, h1, h2⟩ := h
    obtain ⟨L, l1, l2, l3⟩ := Ends.visited hr h2
    refine ⟨i :: L, by simp [l1], List.nodup_cons.2 ⟨fun hi => ?_, l2⟩, ?_⟩
    · obtain ⟨_, m, hm, he⟩ := l3 i hi
      have := Ends.unique he (show Ends nx (n + 1) i from ⟨j, h1, h2⟩)
      omega
    · intro x hx
      rcases List.mem_cons.1 hx with rfl | hx
      · refine ⟨?_, n + 1, Nat.le_refl _, j, h1, h2⟩
        rcases hr x j h1 with h | rfl
        · exact h
        · have := Ends.unique (show Ends nx (n + 1) j from ⟨j, h1, h2⟩) h2
          omega
      · obtain ⟨h, m, hm, he⟩ := l3 x hx
        exact ⟨h, m, by omega, he⟩

theorem Ends.le (hr : ∀ i j, nx i = some j → (1 ≤ i ∧ i ≤ M) ∨ j = i) {n i : Nat} (h : Ends nx n i) : n ≤ M := by
  obtain ⟨L, l1, l2, l3⟩ := h.visited hr
  rw [← l1]
  exact nodup_len l2 fun x hx => (l3 x hx).1

/-- `f n s` runs a loop for `n` iterations; the position `key s` decides whether and where it goes on -/
theorem exact {f : Nat → σ → R α} {key : σ → Nat} (hr : ∀ i j, nx i = some j → (1 ≤ i ∧ i ≤ M) ∨ j = i)
    (h0 : ∀ s, f 0 s = .error .diverge)
    (hs : ∀ s, (nx (key s) = none ∧ ∃ r, ∀ n, f (n + 1) s = r) ∨
      ∃ s', nx (key s) = some (key s') ∧ ∀ n, f (n + 1) s = f n s') {n : Nat} (hn : M + 1 ≤ n) (s : σ) :
    f n s = f (M + 1) s := by
  have fin : ∀ (m : Nat) (s : σ), Ends nx m (key s) → ∃ r, ∀ n, m < n → f n s = r := by
    intro m
    induction m with
    | zero =>
      intro s h
      rcases hs s with ⟨_, r, hr⟩ | ⟨s', h', _⟩
      · refine ⟨r, fun n hn => ?_⟩
        obtain ⟨n, rfl⟩ : ∃ n', n = n' + 1 := ⟨n - 1, by omega⟩
        exact hr n
      · rw [show nx _ = none from h] at h'; cases h'
    | succ m ih =>
      intro s ⟨j, h1, h2⟩
      rcases hs s with ⟨h', _⟩ | ⟨s', h', e⟩
      · rw [h1] at h'; cases h'
      · rw [h1] at h'; cases h'
        obtain ⟨r, hr⟩ := ih s' h2
        refine ⟨r, fun n hn => ?_⟩
        obtain ⟨n, rfl⟩ : ∃ n', n = n' + 1 := ⟨n - 1, by omega⟩
        rw [e]; exact hr n (by omega)
  have inf : ∀ (n : Nat) (s : σ), (∀ m, ¬ Ends nx m (key s)) → f n s = .error .diverge := by
    intro n
    induction n with
    | zero => intro s _; exact h0 s
    | succ n ih =>
      intro s h
      rcases hs s with ⟨h', _⟩ | ⟨s', h', e⟩
      · exact absurd h' (h 0)
      · rw [e]
        exact ih s' fun m hm => h (m + 1) ⟨_, h', hm⟩
  by_cases hex : ∃ m, Ends nx m (key s)
  · obtain ⟨m, hm⟩ := hex
    have hle := hm.le hr
    obtain ⟨r, hr⟩ := fin m s hm
    rw [hr n (by omega), hr (M + 1) (by omega)]
  · have : ∀ m, ¬ Ends nx m (key s) := fun m hm => hex ⟨m, hm⟩
    rw [inf n s this, inf (M + 1) s this]

/-- the next position; none when a computation fails -/
def go : R Nat → Option Nat
  | .ok j => some j
  | .error _ => none

/-- the next position; none at `SENTINEL` -/
def goNZ : R Nat → Option Nat
  | .ok j => if j = SENTINEL then none else some j
  | .error _ => none

theorem go_some {x : R Nat} {j : Nat} (h : go x = some j) : x = .ok j := by
  cases x <;> simp_all [go]

theorem goNZ_some {x : R Nat} {j : Nat} (h : goNZ x = some j) : x = .ok j ∧ j ≠ 0 := by
  cases x with
  | error p => cases h
  | ok k =>
    simp only [goNZ] at h
    by_cases hk : k = SENTINEL
    · rw [if_pos hk] at h; cases h
    · rw [if_neg hk] at h; cases h; exact ⟨rfl, hk⟩

theorem value_range {T : Type} {M N : Nat} {a : NodeAllocator T M N} {i : Nat} {x : T} (h : a.getValue i = .ok x) :
    1 ≤ i ∧ i ≤ M := by
  unfold NodeAllocator.getValue NodeAllocator.get at h
  split at h
  · omega
  · cases h

theorem register_range {T : Type} {M N : Nat} {a : NodeAllocator T M N} {i r v : Nat} (h : a.getRegister i r = .ok v)
    (hv : v ≠ 0) : 1 ≤ i ∧ i ≤ M := by
  unfold NodeAllocator.getRegister at h
  split at h
  · obtain ⟨n, hn, _⟩ := ok_bind h
    unfold NodeAllocator.get at hn
    split at hn
    · omega
    · cases hn
  · cases h; exact absurd rfl hv

theorem getValue_ofNodes {T : Type} {M N : Nat} (f : Nat → Node T N) {i : Nat} (h1 : 1 ≤ i) (h2 : i ≤ M) :
    (NodeAllocator.ofNodes f : NodeAllocator T M N).getValue i = .ok (f i).value := by
  unfold NodeAllocator.getValue
  rw [NodeAllocator.get_ofNodes f h1 h2]; rfl

end Loops
open Loops

namespace HashTable
variable {K V : Type} {B M : Nat} [BEq K] {h : HashTable K V B M}

theorem findLoop_exact_any (k : K) {n : Nat} (hn : M + 1 ≤ n) (i : Nat) : h.findLoop k n i = h.findLoop k (M + 1) i := by
  refine Loops.exact (f := h.findLoop k) (key := id)
    (nx := fun i => if i = SENTINEL then none else go (do
      let node ← h.getNode i
      if node.key == k then throw .diverge
      h.getNext i)) ?_ (fun _ => rfl) ?_ hn i
  · intro i j hj
    dsimp only at hj
    split at hj
    · cases hj
    · obtain ⟨x, hx, _⟩ := ok_bind (go_some hj)
      exact Or.inl (value_range hx)
  · intro i
    simp only [id, findLoop]
    by_cases h0 : i = SENTINEL
    · exact Or.inl ⟨by rw [if_pos h0], _, fun n => by rw [if_pos h0]⟩
    · simp only [if_neg h0]
      cases hx : h.getNode i with
      | error p => exact Or.inl ⟨rfl, .error p, fun n => rfl⟩
      | ok x =>
        simp only [except_bind_ok]
        by_cases hk : (x.key == k) = true
        · exact Or.inl ⟨by rw [if_pos hk]; rfl, .ok i, fun n => by rw [if_pos hk]; rfl⟩
        · simp only [if_neg hk]
          cases hy : h.getNext i with
          | error p => exact Or.inl ⟨rfl, .error p, fun n => rfl⟩
          | ok y => exact Or.inr ⟨y, rfl, fun n => rfl⟩

omit [BEq K] in
theorem skip_exact_any : ∀ (n m : Nat) (it : Iter), it.bucket < B → B ≤ it.bucket + n → B ≤ it.bucket + m →
    Iter.skip h n it = Iter.skip h m it := by
  intro n
  induction n with
  | zero => intro m it h1 h2 _; omega
  | succ n ih =>
    intro m it h1 h2 h3
    obtain ⟨m, rfl⟩ : ∃ m', m = m' + 1 := ⟨m - 1, by omega⟩
    simp only [Iter.skip]
    by_cases hs : it.node ≠ SENTINEL
    · rw [if_pos hs, if_pos hs]
    · rw [if_neg hs, if_neg hs]
      by_cases hb : it.bucket + 1 = B
      · rw [if_pos hb, if_pos hb]
      · rw [if_neg hb, if_neg hb]
        cases h.bucket (it.bucket + 1) with
        | error p => rfl
        | ok x =>
          simp only [except_bind_ok]
          exact ih m _ (show it.bucket + 1 < B by omega) (show B ≤ it.bucket + 1 + n by omega)
            (show B ≤ it.bucket + 1 + m by omega)

omit [BEq K] in
theorem skip_ends : ∀ (n : Nat) (it : Iter), it.bucket < B → B ≤ it.bucket + n → Iter.skip h n it ≠ .error .diverge := by
  intro n
  induction n with
  | zero => intro it h1 h2; omega
  | succ n ih =>
    intro it h1 h2
    simp only [Iter.skip]
    by_cases hs : it.node ≠ SENTINEL
    · rw [if_pos hs]; exact nofun
    · rw [if_neg hs]
      by_cases hb : it.bucket + 1 = B
      · rw [if_pos hb]; exact nofun
      · rw [if_neg hb]
        unfold bucket
        rw [dif_pos (show it.bucket + 1 < B by omega)]
        exact ih _ (show it.bucket + 1 < B by omega) (show B ≤ it.bucket + 1 + n by omega)

theorem loop_find {z : HashNode K V} {k : K} (hk : (z.key == k) = false) (hM : 1 ≤ M) (n : Nat) :
    (loop z : HashTable K V B M).findLoop k n 1 = .error .diverge := by
  induction n with
  | zero => rfl
  | succ n ih =>
    have h1 : (loop z : HashTable K V B M).getNext 1 = .ok 1 := NodeAllocator.getRegister_ofNodes _ (Nat.le_refl 1) hM
    have h2 : (loop z : HashTable K V B M).getNode 1 = .ok z := getValue_ofNodes _ (Nat.le_refl 1) hM
    simp [findLoop, h1, h2, hk, ih, SENTINEL]

theorem loop_get {hash : K → Nat} {z : HashNode K V} {k : K} (hk : (z.key == k) = false) (hB : 0 < B) (hM : 1 ≤ M) :
    (loop z : HashTable K V B M).get hash k = .error .diverge := by
  have hb : bucketIndex B hash k = .ok (hash k % B) := by simp [bucketIndex]; omega
  have h1 : (loop z : HashTable K V B M).bucket (hash k % B) = .ok 1 := by
    unfold bucket
    rw [dif_pos (Nat.mod_lt _ hB)]
    simp [loop]
  simp [get, hb, h1, loop_find hk hM]

end HashTable

namespace RedBlackTree
variable {K V : Type} {M : Nat} {t : RedBlackTree K V M}

theorem findMin_exact_any {n : Nat} (hn : M + 1 ≤ n) (i : Nat) : t.findMin n i = t.findMin (M + 1) i := by
  refine Loops.exact (f := t.findMin) (key := id) (nx := fun i => goNZ (t.getLeft i)) ?_ (fun _ => rfl) ?_ hn i
  · intro i j hj
    exact Or.inl (register_range (goNZ_some hj).1 (goNZ_some hj).2)
  · intro i
    simp only [id, findMin]
    cases t.getLeft i with
    | error p => exact Or.inl ⟨rfl, .error p, fun n => rfl⟩
    | ok l =>
      simp only [except_bind_ok, goNZ]
      by_cases hl : l = SENTINEL
      · exact Or.inl ⟨if_pos hl, .ok i, fun n => if_neg (not_not.2 hl)⟩
      · exact Or.inr ⟨l, if_neg hl, fun n => if_pos hl⟩

theorem findMax_exact_any {n : Nat} (hn : M + 1 ≤ n) (i : Nat) : t.findMax n i = t.findMax (M + 1) i := by
  refine Loops.exact (f := t.findMax) (key := id) (nx := fun i => goNZ (t.getRight i)) ?_ (fun _ => rfl) ?_ hn i
  · intro i j hj
    exact Or.inl (register_range (goNZ_some hj).1 (goNZ_some hj).2)
  · intro i
    simp only [id, findMax]
    cases t.getRight i with
    | error p => exact Or.inl ⟨rfl, .error p, fun n => rfl⟩
    | ok l =>
      simp only [except_bind_ok, goNZ]
      by_cases hl : l = SENTINEL
      · exact Or.inl ⟨if_pos hl, .ok i, fun n => if_neg (not_not.2 hl)⟩
      · exact Or.inr ⟨l, if_neg hl, fun n => if_pos hl⟩

/-- where the search for `k` goes from node `i` -/
def nextOf [Ord K] (t : RedBlackTree K V M) (k : K) (i : Nat) : R Nat := do
  let n ← t.getNode i
  match compare k n.key with
  | .lt => t.getLeft i
  | .gt => t.getRight i
  | .eq => .ok 0

theorem nextOf_range [Ord K] (k : K) (i j : Nat) (h : goNZ (t.nextOf k i) = some j) : (1 ≤ i ∧ i ≤ M) ∨ j = i := by
  obtain ⟨x, hx, _⟩ := ok_bind (goNZ_some h).1
  exact Or.inl (value_range hx)

theorem getAddrLoop_exact_any [Ord K] (k : K) {n : Nat} (hn : M + 1 ≤ n) (i : Nat) :
    t.getAddrLoop k n i = t.getAddrLoop k (M + 1) i := by
  refine Loops.exact (f := t.getAddrLoop k) (key := id) (nx := fun i => goNZ (t.nextOf k i)) (nextOf_range k)
    (fun _ => rfl) ?_ hn i
  intro i
  simp only [id, getAddrLoop, nextOf]
  cases t.getNode i with
  | error p => exact Or.inl ⟨rfl, .error p, fun n => rfl⟩
  | ok x =>
    simp only [except_bind_ok]
    cases compare k x.key with
    | eq => exact Or.inl ⟨rfl, .ok i, fun n => rfl⟩
    | lt =>
      cases t.getLeft i with
      | error p => exact Or.inl ⟨rfl, .error p, fun n => rfl⟩
      | ok l =>
        by_cases hl : l = SENTINEL
        · exact Or.inl ⟨if_pos hl, .ok SENTINEL, fun n => if_pos hl⟩
        · exact Or.inr ⟨l, if_neg hl, fun n => if_neg hl⟩
    | gt =>
      cases t.getRight i with
      | error p => exact Or.inl ⟨rfl, .error p, fun n => rfl⟩
      | ok l =>
        by_cases hl : l = SENTINEL
        · exact Or.inl ⟨if_pos hl, .ok SENTINEL, fun n => if_pos hl⟩
        · exact Or.inr ⟨l, if_neg hl, fun n => if_neg hl⟩

theorem insertLoop_exact_any [Ord K] (k : K) (v : V) (lim : Nat) {n : Nat} (hn : M + 1 ≤ n) (i : Nat) :
    t.insertLoop k v n i lim = t.insertLoop k v (M + 1) i lim := by
  refine Loops.exact (f := fun n i => t.insertLoop k v n i lim) (key := id) (nx := fun i => goNZ (t.nextOf k i))
    (nextOf_range k) (fun _ => rfl) ?_ hn i
  intro i
  simp only [id, insertLoop, nextOf]
  cases t.getNode i with
  | error p => exact Or.inl ⟨rfl, .error p, fun n => rfl⟩
  | ok x =>
    simp only [except_bind_ok]
    cases compare k x.key with
    | eq => exact Or.inl ⟨rfl, _, fun n => rfl⟩
    | lt =>
      cases t.getLeft i with
      | error p => exact Or.inl ⟨rfl, .error p, fun n => rfl⟩
      | ok l =>
        by_cases hl : l = SENTINEL
        · exact Or.inl ⟨if_pos hl, _, fun n => if_pos hl⟩
        · exact Or.inr ⟨l, if_neg hl, fun n => if_neg hl⟩
    | gt =>
      cases t.getRight i with
      | error p => exact Or.inl ⟨rfl, .error p, fun n => rfl⟩
      | ok l =>
        by_cases hl : l = SENTINEL
        · exact Or.inl ⟨if_pos hl, _, fun n => if_pos hl⟩
        · exact Or.inr ⟨l, if_neg hl, fun n => if_neg hl⟩

theorem removeLoop_exact_any [Ord K] (k : K) (lim : Nat) {n : Nat} (hn : M + 1 ≤ n) (i : Nat) :
    t.removeLoop k n i lim = t.removeLoop k (M + 1) i lim := by
  refine Loops.exact (f := fun n i => t.removeLoop k n i lim) (key := id) (nx := fun i => goNZ (t.nextOf k i))
    (nextOf_range k) (fun _ => rfl) ?_ hn i
  intro i
  simp only [id, removeLoop, nextOf]
  cases t.getNode i with
  | error p => exact Or.inl ⟨rfl, .error p, fun n => rfl⟩
  | ok x =>
    simp only [except_bind_ok]
    cases compare k x.key with
    | eq => exact Or.inl ⟨rfl, _, fun n => rfl⟩
    | lt =>
      cases t.getLeft i with
      | error p => exact Or.inl ⟨rfl, .error p, fun n => rfl⟩
      | ok l =>
        by_cases hl : l = SENTINEL
        · exact Or.inl ⟨if_pos hl, _, fun n => if_pos hl⟩
        · exact Or.inr ⟨l, if_neg hl, fun n => if_neg hl⟩
    | gt =>
      cases t.getRight i with
      | error p => exact Or.inl ⟨rfl, .error p, fun n => rfl⟩
      | ok l =>
        by_cases hl : l = SENTINEL
        · exact Or.inl ⟨if_pos hl, _, fun n => if_pos hl⟩
        · exact Or.inr ⟨l, if_neg hl, fun n => if_neg hl⟩

theorem nextLoop_exact_any {n : Nat} (hn : M + 1 ≤ n) (it : Iter) :
    Iter.nextLoop t n it = Iter.nextLoop t (M + 1) it := by
  refine Loops.exact (f := Iter.nextLoop t) (key := fun it => if it.terminated then SENTINEL else it.fwdPtr)
    (nx := fun i => if i = SENTINEL then none else go (t.getLeft i)) ?_ (fun _ => rfl) ?_ hn it
  · intro i j hj
    split at hj
    · cases hj
    · rename_i h0
      have := go_some hj
      refine Or.inl ⟨by simp only [SENTINEL] at h0; omega, ?_⟩
      unfold getLeft NodeAllocator.getRegister at this
      rw [if_pos h0] at this
      obtain ⟨x, hx, _⟩ := ok_bind this
      unfold NodeAllocator.get at hx
      split at hx
      · omega
      · cases hx
  · intro it
    simp only [Iter.nextLoop]
    by_cases ht : it.terminated = true
    · exact Or.inl ⟨by simp [ht], _, fun n => if_pos ht⟩
    · simp only [ht, if_false, Bool.false_eq_true]
      by_cases hp : it.fwdPtr = SENTINEL
      · exact Or.inl ⟨if_pos hp, _, fun n => if_neg (not_not.2 hp)⟩
      · simp only [if_neg hp, if_pos (show it.fwdPtr ≠ SENTINEL from hp)]
        cases t.getLeft it.fwdPtr with
        | error p => exact Or.inl ⟨rfl, .error p, fun n => rfl⟩
        | ok l => exact Or.inr ⟨_, by simp [go], fun n => rfl⟩

theorem nextBackLoop_exact_any {n : Nat} (hn : M + 1 ≤ n) (it : Iter) :
    Iter.nextBackLoop t n it = Iter.nextBackLoop t (M + 1) it := by
  refine Loops.exact (f := Iter.nextBackLoop t) (key := fun it => if it.terminated then SENTINEL else it.revPtr)
    (nx := fun i => if i = SENTINEL then none else go (t.getRight i)) ?_ (fun _ => rfl) ?_ hn it
  · intro i j hj
    split at hj
    · cases hj
    · rename_i h0
      have := go_some hj
      refine Or.inl ⟨by simp only [SENTINEL] at h0; omega, ?_⟩
      unfold getRight NodeAllocator.getRegister at this
      rw [if_pos h0] at this
      obtain ⟨x, hx, _⟩ := ok_bind this
      unfold NodeAllocator.get at hx
      split at hx
      · omega
      · cases hx
  · intro it
    simp only [Iter.nextBackLoop]
    by_cases ht : it.terminated = true
    · exact Or.inl ⟨by simp [ht], _, fun n => if_pos ht⟩
    · simp only [ht, if_false, Bool.false_eq_true]
      by_cases hp : it.revPtr = SENTINEL
      · exact Or.inl ⟨if_pos hp, _, fun n => if_neg (not_not.2 hp)⟩
      · simp only [if_neg hp, if_pos (show it.revPtr ≠ SENTINEL from hp)]
        cases t.getRight it.revPtr with
        | error p => exact Or.inl ⟨rfl, .error p, fun n => rfl⟩
        | ok l => exact Or.inr ⟨_, by simp [go], fun n => rfl⟩

theorem loop_getAddr [Ord K] {z : RBNode K V} {k : K} (hk : compare k z.key = .gt) (hM : 1 ≤ M) (n : Nat) :
    (loop z : RedBlackTree K V M).getAddrLoop k n 1 = .error .diverge := by
  induction n with
  | zero => rfl
  | succ n ih =>
    have h1 : (loop z : RedBlackTree K V M).getRight 1 = .ok 1 := NodeAllocator.getRegister_ofNodes _ (Nat.le_refl 1) hM
    have h2 : (loop z : RedBlackTree K V M).getNode 1 = .ok z := getValue_ofNodes _ (Nat.le_refl 1) hM
    simp [getAddrLoop, h1, h2, hk, ih, SENTINEL]

theorem loop_get [Ord K] {z : RBNode K V} {k : K} (hk : compare k z.key = .gt) (hM : 1 ≤ M) :
    (loop z : RedBlackTree K V M).get k = .error .diverge := by
  have e : (loop z : RedBlackTree K V M).root = 1 := rfl
  simp [get, getAddr, e, SENTINEL, loop_getAddr hk hM]

end RedBlackTree

namespace AVLTree
variable {K V : Type} {M : Nat} {t : AVLTree K V M}

theorem minLoop_exact_any {n : Nat} (hn : M + 1 ≤ n) (i : Nat) : t.minLoop n i = t.minLoop (M + 1) i := by
  refine Loops.exact (f := t.minLoop) (key := id) (nx := fun i => goNZ (t.getField i LEFT)) ?_ (fun _ => rfl) ?_ hn i
  · intro i j hj
    exact Or.inl (register_range (goNZ_some hj).1 (goNZ_some hj).2)
  · intro i
    simp only [id, minLoop]
    cases t.getField i LEFT with
    | error p => exact Or.inl ⟨rfl, .error p, fun n => rfl⟩
    | ok l =>
      simp only [except_bind_ok, goNZ]
      by_cases hl : l = SENTINEL
      · exact Or.inl ⟨if_pos hl, .ok i, fun n => if_neg (not_not.2 hl)⟩
      · exact Or.inr ⟨l, if_neg hl, fun n => if_pos hl⟩

theorem maxLoop_exact_any {n : Nat} (hn : M + 1 ≤ n) (i : Nat) : t.maxLoop n i = t.maxLoop (M + 1) i := by
  refine Loops.exact (f := t.maxLoop) (key := id) (nx := fun i => goNZ (t.getField i RIGHT)) ?_ (fun _ => rfl) ?_ hn i
  · intro i j hj
    exact Or.inl (register_range (goNZ_some hj).1 (goNZ_some hj).2)
  · intro i
    simp only [id, maxLoop]
    cases t.getField i RIGHT with
    | error p => exact Or.inl ⟨rfl, .error p, fun n => rfl⟩
    | ok l =>
      simp only [except_bind_ok, goNZ]
      by_cases hl : l = SENTINEL
      · exact Or.inl ⟨if_pos hl, .ok i, fun n => if_neg (not_not.2 hl)⟩
      · exact Or.inr ⟨l, if_neg hl, fun n => if_pos hl⟩

/-- where the search for `k` goes from node `i` -/
def nextOf [LT K] [DecidableLT K] [PartialGt K] (t : AVLTree K V M) (k : K) (i : Nat) : R Nat := do
  let n ← t.getNode i
  if k < n.key then t.getField i LEFT
  else if PartialGt.gt k n.key then t.getField i RIGHT
  else .error .diverge

theorem nextOf_value [LT K] [DecidableLT K] [PartialGt K] {k : K} {i j : Nat} (h : t.nextOf k i = .ok j) : 1 ≤ i ∧ i ≤ M := by
  obtain ⟨x, hx, _⟩ := ok_bind h
  exact value_range hx

theorem nextOf_range [LT K] [DecidableLT K] [PartialGt K] (k : K) (i j : Nat) (h : goNZ (t.nextOf k i) = some j) :
    (1 ≤ i ∧ i ≤ M) ∨ j = i := Or.inl (nextOf_value (goNZ_some h).1)

theorem searchLoop_exact_any [LT K] [DecidableLT K] [PartialGt K] (k : K) {n : Nat} (hn : M + 1 ≤ n) (i : Nat) :
    t.searchLoop k n i = t.searchLoop k (M + 1) i := by
  refine Loops.exact (f := t.searchLoop k) (key := id) (nx := fun i => goNZ (t.nextOf k i)) (nextOf_range k)
    (fun _ => rfl) ?_ hn i
  intro i
  simp only [id, searchLoop, nextOf]
  cases t.getNode i with
  | error p => exact Or.inl ⟨rfl, .error p, fun n => rfl⟩
  | ok x =>
    simp only [except_bind_ok]
    by_cases h1 : k < x.key
    · simp only [if_pos h1]
      cases t.getField i LEFT with
      | error p => exact Or.inl ⟨rfl, .error p, fun n => rfl⟩
      | ok l =>
        by_cases hl : l = SENTINEL
        · exact Or.inl ⟨if_pos hl, _, fun n => if_pos hl⟩
        · exact Or.inr ⟨l, if_neg hl, fun n => if_neg hl⟩
    · simp only [if_neg h1]
      by_cases h2 : PartialGt.gt k x.key
      · simp only [if_pos h2]
        cases t.getField i RIGHT with
        | error p => exact Or.inl ⟨rfl, .error p, fun n => rfl⟩
        | ok l =>
          by_cases hl : l = SENTINEL
          · exact Or.inl ⟨if_pos hl, _, fun n => if_pos hl⟩
          · exact Or.inr ⟨l, if_neg hl, fun n => if_neg hl⟩
      · simp only [if_neg h2]
        exact Or.inl ⟨rfl, _, fun n => rfl⟩

theorem insertLoop_exact_any [LT K] [DecidableLT K] [PartialGt K] (k : K) (v : V) {n : Nat} (hn : M + 1 ≤ n) (i : Nat) (p : List Ancestor) :
    t.insertLoop k v n i p = t.insertLoop k v (M + 1) i p := by
  refine Loops.exact (f := fun n (s : Nat × List Ancestor) => t.insertLoop k v n s.1 s.2) (key := Prod.fst)
    (nx := fun i => goNZ (t.nextOf k i)) (nextOf_range k) (fun _ => rfl) ?_ hn (i, p)
  intro ⟨i, p⟩
  simp only [insertLoop, nextOf]
  cases t.getNode i with
  | error p => exact Or.inl ⟨rfl, .error p, fun n => rfl⟩
  | ok x =>
    simp only [except_bind_ok]
    by_cases h1 : k < x.key
    · simp only [if_pos h1]
      cases t.getField i LEFT with
      | error p => exact Or.inl ⟨rfl, .error p, fun n => rfl⟩
      | ok l =>
        by_cases hl : l = SENTINEL
        · exact Or.inl ⟨if_pos hl, _, fun n => if_pos hl⟩
        · exact Or.inr ⟨(l, _), if_neg hl, fun n => if_neg hl⟩
    · simp only [if_neg h1]
      by_cases h2 : PartialGt.gt k x.key
      · simp only [if_pos h2]
        cases t.getField i RIGHT with
        | error p => exact Or.inl ⟨rfl, .error p, fun n => rfl⟩
        | ok l =>
          by_cases hl : l = SENTINEL
          · exact Or.inl ⟨if_pos hl, _, fun n => if_pos hl⟩
          · exact Or.inr ⟨(l, _), if_neg hl, fun n => if_neg hl⟩
      · simp only [if_neg h2]
        exact Or.inl ⟨rfl, _, fun n => rfl⟩

theorem removePath_exact_any [LT K] [DecidableLT K] [PartialGt K] (k : K) {n : Nat} (hn : M + 1 ≤ n) (i : Nat) (p : List Ancestor) :
    t.removePath k n i p = t.removePath k (M + 1) i p := by
  refine Loops.exact (f := fun n (s : Nat × List Ancestor) => t.removePath k n s.1 s.2) (key := Prod.fst)
    (nx := fun i => if i = SENTINEL then none else go (t.nextOf k i)) ?_ (fun _ => rfl) ?_ hn (i, p)
  · intro i j hj
    split at hj
    · cases hj
    · exact Or.inl (nextOf_value (go_some hj))
  intro ⟨i, p⟩
  simp only [removePath, nextOf]
  by_cases h0 : i = SENTINEL
  · exact Or.inl ⟨if_pos h0, _, fun n => if_pos h0⟩
  simp only [if_neg h0]
  cases t.getNode i with
  | error p => exact Or.inl ⟨rfl, .error p, fun n => rfl⟩
  | ok x =>
    simp only [except_bind_ok]
    by_cases h1 : k < x.key
    · simp only [if_pos h1]
      cases t.getField i LEFT with
      | error p => exact Or.inl ⟨rfl, .error p, fun n => rfl⟩
      | ok l => exact Or.inr ⟨(l, _), rfl, fun n => rfl⟩
    · simp only [if_neg h1]
      by_cases h2 : PartialGt.gt k x.key
      · simp only [if_pos h2]
        cases t.getField i RIGHT with
        | error p => exact Or.inl ⟨rfl, .error p, fun n => rfl⟩
        | ok l => exact Or.inr ⟨(l, _), rfl, fun n => rfl⟩
      · simp only [if_neg h2]
        exact Or.inl ⟨rfl, _, fun n => rfl⟩

theorem leftmostLoop_exact_any {n : Nat} (hn : M + 1 ≤ n) (i j : Nat) (p : List Ancestor) :
    t.leftmostLoop n i j p = t.leftmostLoop (M + 1) i j p := by
  refine Loops.exact (f := fun n (s : Nat × Nat × List Ancestor) => t.leftmostLoop n s.1 s.2.1 s.2.2) (key := Prod.fst)
    (nx := fun i => goNZ (t.getField i LEFT)) ?_ (fun _ => rfl) ?_ hn (i, j, p)
  · intro i j hj
    exact Or.inl (register_range (goNZ_some hj).1 (goNZ_some hj).2)
  intro ⟨i, j, p⟩
  simp only [leftmostLoop]
  cases t.getField i LEFT with
  | error p => exact Or.inl ⟨rfl, .error p, fun n => rfl⟩
  | ok l =>
    simp only [except_bind_ok, goNZ]
    by_cases hl : l = SENTINEL
    · exact Or.inl ⟨if_pos hl, _, fun n => if_neg (not_not.2 hl)⟩
    · exact Or.inr ⟨(l, _, _), if_neg hl, fun n => if_pos hl⟩

/-- no loop of `insert` can do more in more iterations -/
theorem insert_exact_any [LT K] [DecidableLT K] [PartialGt K] (k : K) (v : V) {lim : Nat} (hl : M + 1 ≤ lim) :
    t.insert k v lim = t.insert k v := by
  unfold AVLTree.insert
  rw [insertLoop_exact_any k v hl]

/-- no loop of `remove` can do more in more iterations -/
theorem remove_exact_any [LT K] [DecidableLT K] [PartialGt K] (k : K) {lim : Nat} (hl : M + 1 ≤ lim) :
    t.remove k lim = t.remove k := by
  unfold AVLTree.remove AVLTree.removeNode AVLTree.removeTwo
  simp only [removePath_exact_any k (show M + 1 ≤ lim + 1 by omega), removePath_exact_any k (show M + 1 ≤ M + 1 + 1 by omega),
    leftmostLoop_exact_any hl]

theorem nextLoop_exact_any {n : Nat} (hn : M + 1 ≤ n) (it : Iter) :
    Iter.nextLoop t n it = Iter.nextLoop t (M + 1) it := by
  refine Loops.exact (f := Iter.nextLoop t) (key := fun it => if it.terminated then SENTINEL else it.fwdPtr)
    (nx := fun i => if i = SENTINEL then none else go (t.getField i LEFT)) ?_ (fun _ => rfl) ?_ hn it
  · intro i j hj
    split at hj
    · cases hj
    · rename_i h0
      have := go_some hj
      refine Or.inl ⟨by simp only [SENTINEL] at h0; omega, ?_⟩
      unfold getField NodeAllocator.getRegister at this
      rw [if_pos h0] at this
      obtain ⟨x, hx, _⟩ := ok_bind this
      unfold NodeAllocator.get at hx
      split at hx
      · omega
      · cases hx
  · intro it
    simp only [Iter.nextLoop]
    by_cases ht : it.terminated = true
    · exact Or.inl ⟨by simp [ht], _, fun n => if_pos ht⟩
    · simp only [ht, if_false, Bool.false_eq_true]
      by_cases hp : it.fwdPtr = SENTINEL
      · exact Or.inl ⟨if_pos hp, _, fun n => if_neg (not_not.2 hp)⟩
      · simp only [if_neg hp, if_pos (show it.fwdPtr ≠ SENTINEL from hp)]
        cases t.getField it.fwdPtr LEFT with
        | error p => exact Or.inl ⟨rfl, .error p, fun n => rfl⟩
        | ok l => exact Or.inr ⟨_, by simp [go], fun n => rfl⟩

theorem nextBackLoop_exact_any {n : Nat} (hn : M + 1 ≤ n) (it : Iter) :
    Iter.nextBackLoop t n it = Iter.nextBackLoop t (M + 1) it := by
  refine Loops.exact (f := Iter.nextBackLoop t) (key := fun it => if it.terminated then SENTINEL else it.revPtr)
    (nx := fun i => if i = SENTINEL then none else go (t.getField i RIGHT)) ?_ (fun _ => rfl) ?_ hn it
  · intro i j hj
    split at hj
    · cases hj
    · rename_i h0
      have := go_some hj
      refine Or.inl ⟨by simp only [SENTINEL] at h0; omega, ?_⟩
      unfold getField NodeAllocator.getRegister at this
      rw [if_pos h0] at this
      obtain ⟨x, hx, _⟩ := ok_bind this
      unfold NodeAllocator.get at hx
      split at hx
      · omega
      · cases hx
  · intro it
    simp only [Iter.nextBackLoop]
    by_cases ht : it.terminated = true
    · exact Or.inl ⟨by simp [ht], _, fun n => if_pos ht⟩
    · simp only [ht, if_false, Bool.false_eq_true]
      by_cases hp : it.revPtr = SENTINEL
      · exact Or.inl ⟨if_pos hp, _, fun n => if_neg (not_not.2 hp)⟩
      · simp only [if_neg hp, if_pos (show it.revPtr ≠ SENTINEL from hp)]
        cases t.getField it.revPtr RIGHT with
        | error p => exact Or.inl ⟨rfl, .error p, fun n => rfl⟩
        | ok l => exact Or.inr ⟨_, by simp [go], fun n => rfl⟩

theorem loop_search [LT K] [DecidableLT K] [PartialGt K] {z : AVLNode K V} {k : K} (h0 : ¬ k < z.key) (hk : PartialGt.gt k z.key) (hM : 1 ≤ M) (n : Nat) :
    (loop z : AVLTree K V M).searchLoop k n 1 = .error .diverge := by
  induction n with
  | zero => rfl
  | succ n ih =>
    have h1 : (loop z : AVLTree K V M).getField 1 RIGHT = .ok 1 := NodeAllocator.getRegister_ofNodes _ (Nat.le_refl 1) hM
    have h2 : (loop z : AVLTree K V M).getNode 1 = .ok z := getValue_ofNodes _ (Nat.le_refl 1) hM
    simp [searchLoop, h1, h2, h0, hk, ih, SENTINEL]

theorem loop_get [LT K] [DecidableLT K] [PartialGt K] {z : AVLNode K V} {k : K} (h0 : ¬ k < z.key) (hk : PartialGt.gt k z.key) (hM : 1 ≤ M) :
    (loop z : AVLTree K V M).get k = .error .diverge := by
  have e : (loop z : AVLTree K V M).root = 1 := rfl
  simp [get, e, SENTINEL, loop_search h0 hk hM]

end AVLTree

namespace Critbit
variable {V : Type} {N M : Nat} {t : Critbit V N M}

theorem minLoop_exact_any {n : Nat} (hn : N + 1 ≤ n) (i : Nat) : t.minLoop n i = t.minLoop (N + 1) i := by
  refine Loops.exact (f := t.minLoop) (key := id) (nx := fun i => goNZ (t.getLeft i)) ?_ (fun _ => rfl) ?_ hn i
  · intro i j hj
    exact Or.inl (register_range (goNZ_some hj).1 (goNZ_some hj).2)
  · intro i
    simp only [id, minLoop]
    cases t.getLeft i with
    | error p => exact Or.inl ⟨rfl, .error p, fun n => rfl⟩
    | ok l =>
      simp only [except_bind_ok, goNZ]
      by_cases hl : l = SENTINEL
      · exact Or.inl ⟨if_pos hl, .ok i, fun n => if_neg (not_not.2 hl)⟩
      · exact Or.inr ⟨l, if_neg hl, fun n => if_pos hl⟩

theorem maxLoop_exact_any {n : Nat} (hn : N + 1 ≤ n) (i : Nat) : t.maxLoop n i = t.maxLoop (N + 1) i := by
  refine Loops.exact (f := t.maxLoop) (key := id) (nx := fun i => goNZ (t.getRight i)) ?_ (fun _ => rfl) ?_ hn i
  · intro i j hj
    exact Or.inl (register_range (goNZ_some hj).1 (goNZ_some hj).2)
  · intro i
    simp only [id, maxLoop]
    cases t.getRight i with
    | error p => exact Or.inl ⟨rfl, .error p, fun n => rfl⟩
    | ok l =>
      simp only [except_bind_ok, goNZ]
      by_cases hl : l = SENTINEL
      · exact Or.inl ⟨if_pos hl, .ok i, fun n => if_neg (not_not.2 hl)⟩
      · exact Or.inr ⟨l, if_neg hl, fun n => if_pos hl⟩

theorem findLoop_exact_any (k : BitVec 128) {n : Nat} (hn : N + 1 ≤ n) (i : Nat) :
    t.findLoop k n i = t.findLoop k (N + 1) i := by
  refine Loops.exact (f := t.findLoop k) (key := id) (nx := fun i => go (do
      let node ← t.getNode i
      if !(← t.isInnerNode i) then throw .diverge
      else if leadingZeros (node.key ^^^ k) ≥ node.prefixLen then return (← t.getChild node.prefixLen i k).1
      else throw .diverge)) ?_ (fun _ => rfl) ?_ hn i
  · intro i j hj
    obtain ⟨x, hx, _⟩ := ok_bind (go_some hj)
    exact Or.inl (value_range hx)
  · intro i
    simp only [id, findLoop]
    cases t.getNode i with
    | error p => exact Or.inl ⟨rfl, .error p, fun n => rfl⟩
    | ok x =>
      simp only [except_bind_ok]
      cases t.isInnerNode i with
      | error p => exact Or.inl ⟨rfl, .error p, fun n => rfl⟩
      | ok b =>
        simp only [except_bind_ok]
        cases b with
        | false => exact Or.inl ⟨rfl, _, fun n => rfl⟩
        | true =>
          simp only [Bool.not_true, Bool.false_eq_true, if_false]
          by_cases hp : leadingZeros (x.key ^^^ k) ≥ x.prefixLen
          · simp only [if_pos hp]
            cases t.getChild x.prefixLen i k with
            | error p => exact Or.inl ⟨rfl, .error p, fun n => rfl⟩
            | ok l => exact Or.inr ⟨l.1, rfl, fun n => rfl⟩
          · simp only [if_neg hp]
            exact Or.inl ⟨rfl, _, fun n => rfl⟩

theorem insertLoop_exact_any (k : BitVec 128) (v : V) {n : Nat} (hn : N + 1 ≤ n) (i : Nat) :
    t.insertLoop k v n i = t.insertLoop k v (N + 1) i := by
  refine Loops.exact (f := t.insertLoop k v) (key := id) (nx := fun i => go (do
      let node ← t.getNode i
      let isLeaf ← (if node.key = k then do return !(← t.isInnerNode i) else pure false)
      if isLeaf then throw .diverge
      else if leadingZeros (node.key ^^^ k) ≥ node.prefixLen then return (← t.getChild node.prefixLen i k).1
      else throw .diverge)) ?_ (fun _ => rfl) ?_ hn i
  · intro i j hj
    obtain ⟨x, hx, _⟩ := ok_bind (go_some hj)
    exact Or.inl (value_range hx)
  · intro i
    simp only [id, insertLoop]
    cases t.getNode i with
    | error p => exact Or.inl ⟨rfl, .error p, fun n => rfl⟩
    | ok x =>
      simp only [except_bind_ok]
      generalize (if x.key = k then (do return !(← t.isInnerNode i) : R Bool) else pure false) = b
      cases b with
      | error p => exact Or.inl ⟨rfl, .error p, fun n => rfl⟩
      | ok b =>
        simp only [except_bind_ok]
        cases b with
        | true => exact Or.inl ⟨rfl, _, fun n => rfl⟩
        | false =>
          simp only [Bool.false_eq_true, if_false]
          by_cases hp : leadingZeros (x.key ^^^ k) ≥ x.prefixLen
          · simp only [if_pos hp]
            cases t.getChild x.prefixLen i k with
            | error p => exact Or.inl ⟨rfl, .error p, fun n => rfl⟩
            | ok l => exact Or.inr ⟨l.1, rfl, fun n => rfl⟩
          · simp only [if_neg hp]
            exact Or.inl ⟨rfl, _, fun n => rfl⟩

theorem removeLoop_exact_any (k : BitVec 128) {n : Nat} (hn : N + 1 ≤ n) (i j : Nat) (b : Bool) :
    t.removeLoop k n i j b = t.removeLoop k (N + 1) i j b := by
  refine Loops.exact (f := fun n (s : Nat × Nat × Bool) => t.removeLoop k n s.1 s.2.1 s.2.2) (key := fun s => s.2.1)
    (nx := fun i => go (do
      let node ← t.getNode i
      if ← t.isInnerNode i then return (← t.getChild node.prefixLen i k).1
      else throw .diverge)) ?_ (fun _ => rfl) ?_ hn (i, j, b)
  · intro i j hj
    obtain ⟨x, hx, _⟩ := ok_bind (go_some hj)
    exact Or.inl (value_range hx)
  · intro ⟨i0, i, b0⟩
    simp only [removeLoop]
    cases t.getNode i with
    | error p => exact Or.inl ⟨rfl, .error p, fun n => rfl⟩
    | ok x =>
      simp only [except_bind_ok]
      cases t.isInnerNode i with
      | error p => exact Or.inl ⟨rfl, .error p, fun n => rfl⟩
      | ok b =>
        simp only [except_bind_ok]
        cases b with
        | false => exact Or.inl ⟨rfl, _, fun n => rfl⟩
        | true =>
          simp only [if_true]
          cases t.getChild x.prefixLen i k with
          | error p => exact Or.inl ⟨rfl, .error p, fun n => rfl⟩
          | ok l => exact Or.inr ⟨(i, l.1, l.2), rfl, fun n => rfl⟩

/-- where the iterators go from a node; a missing child (`SENTINEL`) counts as an inner node, with missing children -/
def iterNx (t : Critbit V N M) (r1 r2 : Nat) (i : Nat) : Option Nat :=
  if i = N + 1 then none else
    go (t.isInnerNode i >>= fun b => if b then t.nodeAllocator.getRegister i r2 >>= fun _ =>
      t.nodeAllocator.getRegister i r1 else .error .diverge)

theorem iterNx_range {r1 r2 : Nat} (i j : Nat) (h : t.iterNx r1 r2 i = some j) : (1 ≤ i ∧ i ≤ N) ∨ j = i := by
  unfold iterNx at h
  split at h
  · cases h
  · have h := go_some h
    obtain ⟨b, _, h⟩ := ok_bind h
    cases b with
    | false => cases h
    | true =>
      obtain ⟨_, _, h⟩ := ok_bind h
      by_cases h0 : i = 0
      · subst h0; cases h; exact Or.inr rfl
      · refine Or.inl ⟨by omega, ?_⟩
        unfold NodeAllocator.getRegister at h
        rw [if_pos (by exact h0)] at h
        obtain ⟨x, hx, _⟩ := ok_bind h
        unfold NodeAllocator.get at hx
        split at hx
        · omega
        · cases hx

theorem isInnerNode_out : ∃ p, t.isInnerNode (N + 1) = .error p := by
  unfold isInnerNode NodeAllocator.getRegister NodeAllocator.get
  rw [if_pos (by simp [SENTINEL]), dif_neg (by omega)]
  exact ⟨_, rfl⟩

theorem nextLoop_exact_any {n : Nat} (hn : N + 1 ≤ n) (it : Iter) :
    Iter.nextLoop t n it = Iter.nextLoop t (N + 1) it := by
  refine Loops.exact (f := Iter.nextLoop t) (key := fun it => if it.terminated then N + 1 else it.fwdStack.headD (N + 1))
    (nx := t.iterNx LEFT RIGHT) iterNx_range (fun _ => rfl) ?_ hn it
  intro it
  simp only [Iter.nextLoop]
  by_cases ht : it.terminated = true
  · exact Or.inl ⟨by simp [ht, iterNx], _, fun n => if_pos ht⟩
  · simp only [ht, if_false, Bool.false_eq_true]
    cases hst : it.fwdStack with
    | nil => exact Or.inl ⟨by simp [iterNx], _, fun n => rfl⟩
    | cons i st =>
      simp only [List.headD_cons]
      unfold iterNx
      by_cases hi : i = N + 1
      · subst hi
        obtain ⟨p, e⟩ := isInnerNode_out (t := t)
        rw [e]
        exact Or.inl ⟨if_pos rfl, .error p, fun n => rfl⟩
      · rw [if_neg hi]
        cases t.isInnerNode i with
        | error p => exact Or.inl ⟨rfl, .error p, fun n => rfl⟩
        | ok b =>
          cases b with
          | false => exact Or.inl ⟨rfl, _, fun n => rfl⟩
          | true =>
            simp only [except_bind_ok, Bool.not_true, Bool.false_eq_true, if_false, if_true, getRight, getLeft]
            cases t.nodeAllocator.getRegister i RIGHT with
            | error p => exact Or.inl ⟨rfl, .error p, fun n => rfl⟩
            | ok r =>
              simp only [except_bind_ok]
              cases t.nodeAllocator.getRegister i LEFT with
              | error p => exact Or.inl ⟨rfl, .error p, fun n => rfl⟩
              | ok l => exact Or.inr ⟨_, rfl, fun n => rfl⟩

theorem nextBackLoop_exact_any {n : Nat} (hn : N + 1 ≤ n) (it : Iter) :
    Iter.nextBackLoop t n it = Iter.nextBackLoop t (N + 1) it := by
  refine Loops.exact (f := Iter.nextBackLoop t) (key := fun it => if it.terminated then N + 1 else it.revStack.headD (N + 1))
    (nx := t.iterNx RIGHT LEFT) iterNx_range (fun _ => rfl) ?_ hn it
  intro it
  simp only [Iter.nextBackLoop]
  by_cases ht : it.terminated = true
  · exact Or.inl ⟨by simp [ht, iterNx], _, fun n => if_pos ht⟩
  · simp only [ht, if_false, Bool.false_eq_true]
    cases hst : it.revStack with
    | nil => exact Or.inl ⟨by simp [iterNx], _, fun n => rfl⟩
    | cons i st =>
      simp only [List.headD_cons]
      unfold iterNx
      by_cases hi : i = N + 1
      · subst hi
        obtain ⟨p, e⟩ := isInnerNode_out (t := t)
        rw [e]
        exact Or.inl ⟨if_pos rfl, .error p, fun n => rfl⟩
      · rw [if_neg hi]
        cases t.isInnerNode i with
        | error p => exact Or.inl ⟨rfl, .error p, fun n => rfl⟩
        | ok b =>
          cases b with
          | false => exact Or.inl ⟨rfl, _, fun n => rfl⟩
          | true =>
            simp only [except_bind_ok, Bool.not_true, Bool.false_eq_true, if_false, if_true, getRight, getLeft]
            cases t.nodeAllocator.getRegister i LEFT with
            | error p => exact Or.inl ⟨rfl, .error p, fun n => rfl⟩
            | ok r =>
              simp only [except_bind_ok]
              cases t.nodeAllocator.getRegister i RIGHT with
              | error p => exact Or.inl ⟨rfl, .error p, fun n => rfl⟩
              | ok l => exact Or.inr ⟨_, rfl, fun n => rfl⟩

/-- node 1 is both of its own children, and asks for no common prefix; the leaf count says that there is a leaf -/
def loop (w : V) : Critbit V N M :=
  { root := 1,
    nodeAllocator := NodeAllocator.ofNodes fun _ => { registers := #v[1, 1, 0, 0], value := ⟨0, 0⟩ },
    leaves := { (NodeAllocator.ofNodes fun _ => { registers := #v[0, 0, 0, 0], value := w } : NodeAllocator V M 4) with size := 1 } }

theorem loop_inRange (w : V) : (loop w : Critbit V N M).InRange where
  root := by simp [loop]
  nodeAllocator := NodeAllocator.inRange_ofNodes (P := fun n : CritbitNode => n.prefixLen < 2 ^ 64)
    (fun _ => { registers := #v[1, 1, 0, 0], value := ⟨0, 0⟩ })
    fun i => ⟨show ∀ (r : Nat) (h : r < 4), (#v[1, 1, 0, 0] : Vector Nat 4)[r] < 2 ^ 32 by decide, by decide⟩
  leaves :=
    have h := NodeAllocator.inRange_ofNodes (M := M) (P := fun _ => True) (fun _ => { registers := #v[0, 0, 0, 0], value := w })
      fun i => ⟨show ∀ (r : Nat) (h : r < 4), (#v[0, 0, 0, 0] : Vector Nat 4)[r] < 2 ^ 32 by decide, trivial⟩
    { h with size := by simp [loop] }

theorem loop_find (w : V) (k : BitVec 128) (hN : 1 ≤ N) (n : Nat) :
    (loop w : Critbit V N M).findLoop k n 1 = .error .diverge := by
  induction n with
  | zero => rfl
  | succ n ih =>
    have h1 : (loop w : Critbit V N M).getRight 1 = .ok 1 := NodeAllocator.getRegister_ofNodes _ (Nat.le_refl 1) hN
    have h2 : (loop w : Critbit V N M).getLeft 1 = .ok 1 := NodeAllocator.getRegister_ofNodes _ (Nat.le_refl 1) hN
    have h3 : (loop w : Critbit V N M).isInnerNode 1 = .ok true := by
      unfold isInnerNode
      rw [show (loop w : Critbit V N M).nodeAllocator.getRegister 1 VALUE = .ok 0 from
        NodeAllocator.getRegister_ofNodes _ (Nat.le_refl 1) hN]
      rfl
    have h4 : (loop w : Critbit V N M).getNode 1 = .ok ⟨0, 0⟩ := getValue_ofNodes _ (Nat.le_refl 1) hN
    have h5 : ∃ b, (loop w : Critbit V N M).getChild 0 1 k = .ok (1, b) := by
      unfold getChild
      rw [h1, h2]
      obtain ⟨m, hm⟩ : ∃ m, critBitMask 0 = .ok m := ⟨_, rfl⟩
      rw [hm]
      simp only [except_bind_ok]
      split
      · exact ⟨_, rfl⟩
      · exact ⟨_, rfl⟩
    obtain ⟨b, h5⟩ := h5
    simp [findLoop, h3, h4, h5, ih]

theorem loop_get (w : V) (k : BitVec 128) (hN : 1 ≤ N) : (loop w : Critbit V N M).get k = .error .diverge := by
  have e : (loop w : Critbit V N M).root = 1 := rfl
  have e2 : (loop w : Critbit V N M).isEmpty = false := rfl
  simp [get, e, e2, loop_find w k hN]

end Critbit
end Sokoban
