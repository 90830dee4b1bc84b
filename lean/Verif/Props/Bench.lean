import Verif.Proof.Bench
import Verif.Props.Keep
import Verif.Props.Like

/-
Property theorems C94: an `insert` of a key that is there writes one value and nothing else, and what the benchmarks of
the crate (`benches/bench.rs`) do.

`t.Like Eq (fun _ _ => True) t'` (Spec/Like.lean): the same root, the same counters, the same free list, the same
registers of every slot and the same keys; only values may differ.
-/
namespace Sokoban.Props
open MapSpec Fuzz Bench

section overwrite
variable {K V : Type} {B N M : Nat}

/-- **C94** (red-black tree): in every state whatever, an `insert` of a key that `get` finds succeeds, also in a full tree,
returns the address of the entry, replaces the value there and changes nothing else. -/
theorem C94_rb_overwrite [Ord K] (t : RedBlackTree K V M) {k : K} {w : V} (hg : t.get k = .ok (some w)) (v : V) :
    ∃ t' i n, t.insert k v = .ok (t', some i) ∧ t.Like Eq (fun _ _ => True) t' ∧ t.getAddr k = .ok i ∧
      t.getNode i = .ok n ∧ n.value = w ∧ t'.getNode i = .ok { n with value := v } ∧
      (∀ j, j ≠ i → t'.getNode j = t.getNode j) ∧ t'.get k = .ok (some v) := by
  obtain ⟨t', i, n, e, h, ha, h0, hn, hw, hv⟩ := t.overwrite hg v
  refine ⟨t', i, n, e, h, ha, hn, hw, hv,
    fun j hj => ((C70_rb_writes t t').2.2 k v _ e).1 j (fun hc => hj (by injection hc with hc; exact hc.symm)), ?_⟩
  have ha' := (C90_rb_reads (RK := Eq) (fun k k' l l' h h' => by rw [h, h']) h).2.2.2.1 k k rfl
  unfold RedBlackTree.get
  rw [ha', ha, except_bind_ok, if_neg h0, hv]; rfl

/-- **C94** (AVL tree). -/
theorem C94_avl_overwrite [LT K] [DecidableLT K] [PartialGt K] (t : AVLTree K V M) {k : K} {w : V}
    (hg : t.get k = .ok (some w)) (v : V) :
    ∃ t' i n, t.insert k v = .ok (t', some i) ∧ t.Like Eq (fun _ _ => True) t' ∧ t.getAddr k = .ok i ∧
      t.getNode i = .ok n ∧ n.value = w ∧ t'.getNode i = .ok { n with value := v } ∧
      (∀ j, j ≠ i → t'.getNode j = t.getNode j) ∧ t'.get k = .ok (some v) := by
  obtain ⟨t', i, n, e, h, ha, h0, hn, hw, hv⟩ := t.overwrite hg v
  refine ⟨t', i, n, e, h, ha, hn, hw, hv,
    fun j hj => ((C70_avl_writes t t').2 k v _ e).1 j (fun hc => hj (by injection hc with hc; exact hc.symm)), ?_⟩
  have ha' := (C90_avl_reads (RK := Eq) (fun k k' l l' h h' => by rw [h, h']; exact ⟨Iff.rfl, Iff.rfl⟩) h).2.2.2.2.2 k k rfl
  rw [ha] at ha'
  unfold AVLTree.getAddr at ha'
  unfold AVLTree.get
  split at ha'
  · injection ha' with ha'; exact absurd ha'.symm h0
  · next hr => rw [if_neg hr, ha', except_bind_ok, if_neg h0, hv]; rfl

/-- **C94** (hash table): unlike `get_mut`, it does not even move the entry to the front of its bucket. -/
theorem C94_hash_overwrite [BEq K] (hash : K → Nat) (h : HashTable K V B M) {k : K} {w : V}
    (hg : h.get hash k = .ok (some w)) (v : V) :
    ∃ h' i n, h.insert hash k v = .ok (h', some i) ∧ h.Like Eq (fun _ _ => True) h' ∧ h.getAddr hash k = .ok i ∧
      h.getNode i = .ok n ∧ n.value = w ∧ h'.getNode i = .ok { n with value := v } ∧
      (∀ j, j ≠ i → h'.getNode j = h.getNode j) ∧ h'.get hash k = .ok (some v) := by
  obtain ⟨h', i, n, e, hl, ha, h0, hn, hw, hv⟩ := h.overwrite hash hg v
  refine ⟨h', i, n, e, hl, ha, hn, hw, hv, fun j hj => ((C70_hash_writes hash h h').2.2 k v _ e).1 j
    (fun hc => hj (by injection hc with hc; exact hc.symm)), ?_⟩
  have ha' := (C90_hash_addresses (RK := Eq) (hash := hash) (hash' := hash) (fun k k' l l' h h' => by rw [h, h'])
    (fun k k' h => by rw [h]) hl (k := k) rfl).2.2
  rw [ha] at ha'
  unfold HashTable.getAddr at ha'
  unfold HashTable.get
  cases hb : HashTable.bucketIndex B hash k with
  | error p => rw [hb] at ha'; cases ha'
  | ok b =>
    rw [hb, except_bind_ok] at ha'
    rw [except_bind_ok]
    cases hh : h'.bucket b with
    | error p => rw [hh] at ha'; cases ha'
    | ok x =>
      rw [hh, except_bind_ok] at ha'
      rw [except_bind_ok]
      rw [ha', except_bind_ok, if_neg h0, hv]; rfl

/-- **C94** (`Critbit`): the same unless the tree is full. -/
theorem C94_critbit_overwrite (t : Critbit V N M) {k : BitVec 128} {w : V} (hg : t.get k = .ok (some w)) (hl : t.len < M)
    (v : V) : ∃ t' i j, t.insert k v = .ok (t', some i) ∧ t.Like (fun _ _ => True) t' ∧ t.getAddr k = .ok i ∧
      t.getMut k = .ok (some j) ∧ t.getLeaf j = .ok w ∧ t'.getLeaf j = .ok v ∧
      (∀ l, l ≠ j → t'.getLeaf l = t.getLeaf l) ∧ t'.get k = .ok (some v) := by
  obtain ⟨t', i, j, e, h, ha, hm, hw, hv, ho⟩ := t.overwrite hg hl v
  have hm' := C90_critbit_trait.getMut t t' k k h rfl
  have hg' : t'.get k = .ok (some v) := by
    have hm' : t'.getMut k = .ok (some j) := hm'.trans hm
    unfold Critbit.getMut at hm'
    unfold Critbit.get
    split at hm'
    · cases hm'
    next he =>
    rw [if_neg he]
    cases hf : t'.findLoop k (N + 1) t'.root with
    | error p => rw [hf] at hm'; cases hm'
    | ok r =>
      rw [hf, except_bind_ok] at hm'
      rw [except_bind_ok]
      cases r with
      | none => cases hm'
      | some n =>
        simp only at hm' ⊢
        cases hj : t'.getLeafIndex n with
        | error p => rw [hj] at hm'; cases hm'
        | ok l =>
          rw [hj, except_bind_ok] at hm'
          rw [except_bind_ok]
          cases hx : t'.getLeaf l with
          | error p => rw [hx] at hm'; cases hm'
          | ok x =>
            rw [hx, except_bind_ok] at hm'
            injection hm' with hm'; injection hm' with hm'; subst hm'
            rw [hv] at hx; injection hx with hx; subst hx; rfl
  exact ⟨t', i, j, e, h, ha, hm, hw, hv, ho, hg'⟩

end overwrite

section bench
variable {S K V It P : Type} [DecidableEq K] (D : DynMap S K V It P) (len : S → Nat) (Same : S → S → Prop) (new : S)

/-- What the benchmarks of a map do when there is room for `L` keys. `val :: vals` are the random numbers of the calls
of the closure; there is at least one call. -/
structure BenchOutcome (L : Nat) : Prop where
  /-- The insert benchmark: no panic. All keys are in the map with the numbers of the last call. Only the first call
  inserts: what follows changes nothing but values. -/
  insert : ∀ (keys : List K) (val : K → V) (vals : List (K → V)), keys.Nodup → keys.length ≤ L →
    ∃ s1 s, insertBench D keys [val] new = .ok s1 ∧ insertBench D keys (val :: vals) new = .ok s ∧ Same s1 s ∧
      len s = keys.length ∧ ∀ k, D.get s k = .ok (if k ∈ keys then some (vals.getLastD val k) else none)
  /-- The remove benchmark: no panic. The first call empties the map. In all calls that follow every `remove` finds
  nothing and changes nothing at all. -/
  remove : ∀ (keys slice : List K) (val : K → V), keys.Nodup → keys.length ≤ L → slice.Perm keys →
    ∃ s, (∀ n, removeBench D keys slice val (n + 1) new = .ok s) ∧ len s = 0 ∧ (∀ k, D.get s k = .ok none) ∧
      ∀ k, D.remove s k = .ok (s, none)
  /-- The lookup benchmark: no panic, and every `get` finds its key. -/
  lookup : ∀ (keys : List K) (val : K → V), keys.Nodup → keys.length ≤ L →
    ∃ s, (∀ n, lookupBench D keys val n new = .ok s) ∧ ∀ k ∈ keys, D.get s k = .ok (some (val k))

variable {D len Same new} in
theorem BenchOutcome.of_good {M : Nat} {refuses : FMap K V → K → Prop} {Inv : S → FMap K V → Prop}
    (H : Good D M refuses Inv) (h0 : Inv new FMap.empty) (hlen : ∀ {s m}, Inv s m → len s = m.len)
    (hL : ∀ {s m}, Inv s m → ∃ L, m.Lists L) (hs0 : ∀ s, Same s s) (hs : ∀ a b c, Same a b → Same b c → Same a c)
    (ho : ∀ {s m k v s' i}, Inv s m → D.insert s k v = .ok (s', some i) → (m.get k).isSome → Same s s')
    (hm : ∀ {s m k}, Inv s m → m.get k = none → D.remove s k = .ok (s, none)) {L : Nat}
    (hr : ∀ (m : FMap K V) k, m.get k = none → m.len < L → ¬ refuses m k)
    (hr' : ∀ (m : FMap K V) k, (m.get k).isSome → m.len ≤ L → ¬ refuses m k) : BenchOutcome D len Same new L := by
  have first : ∀ (keys : List K) (val : K → V), keys.Nodup → keys.length ≤ L → ∃ s1 m1, insertAll D val keys new = .ok s1 ∧
      Inv s1 m1 ∧ m1.len = keys.length ∧ ∀ k, m1.get k = if k ∈ keys then some (val k) else none := by
    intro keys val hn hl
    obtain ⟨s1, m1, e, h1, h2, h3⟩ := insertAll_new H val hr keys h0 hn (by simp [FMap.empty]) (by simpa [FMap.empty] using hl)
    exact ⟨s1, m1, e, h1, by simpa [FMap.empty] using h2, fun k => by rw [h3]; rfl⟩
  refine ⟨fun keys val vals hn hl => ?_, fun keys slice val hn hl hp => ?_, fun keys val hn hl => ?_⟩
  · obtain ⟨s1, m1, e1, h1, l1, g1⟩ := first keys val hn hl
    obtain ⟨s, m, e, h, l, r, g⟩ := rounds_old hs0 hs ho (fun m k hk hl' => hr' m k hk (by omega)) keys H vals val h1 l1 g1
    refine ⟨s1, s, by simp only [insertBench, iter, e1, except_bind_ok], ?_, r, by rw [hlen h, l], fun k => ?_⟩
    · unfold insertBench at e ⊢
      simp only [iter, e1, except_bind_ok]; exact e
    · rw [H.get h, g]
  · obtain ⟨s1, m1, e1, h1, l1, g1⟩ := first keys val hn hl
    obtain ⟨s, m, e, h, g⟩ := removeAll_ok H slice h1
    have hg : ∀ k, m.get k = none := fun k => by
      have hk := hp.mem_iff (a := k)
      rw [g, g1]
      split
      · rfl
      · next h => rw [if_neg fun hc => h (hk.2 hc)]
    have hrm : ∀ k, D.remove s k = .ok (s, none) := fun k => hm h (hg k)
    refine ⟨s, fun n => ?_, ?_, fun k => by rw [H.get h, hg], hrm⟩
    · simp only [removeBench, e1, except_bind_ok, List.replicate_succ, iter, e]
      exact iter_same (fun _ => removeAll_none hrm slice) _
    · obtain ⟨l, hl'⟩ := hL h
      rw [hlen h, hl'.len]
      cases l with
      | nil => rfl
      | cons x l => exact absurd ((hl'.mem x.1 x.2).1 (by simp)) (by rw [hg]; simp)
  · obtain ⟨s1, m1, e1, h1, l1, g1⟩ := first keys val hn hl
    refine ⟨s1, fun n => ?_, fun k hk => by rw [H.get h1, g1, if_pos hk]⟩
    simp only [lookupBench, e1, except_bind_ok]
    exact iter_same (fun _ => by simp only [getAll_ok H h1, except_bind_ok]; rfl) _

end bench

section four
variable {K V : Type} {B N M : Nat}

/-- **C94**: the benchmarks of the red-black tree, with room for as many keys as the capacity. -/
theorem C94_rb_benches [LinearOrder K] (hM0 : 0 < M) (hM : M + 1 < 2 ^ 32) (z : RBNode K V) :
    BenchOutcome redBlack RedBlackTree.len (RedBlackTree.Like Eq fun _ _ => True)
      (RedBlackTree.new z : RedBlackTree K V M) M := by
  have F := Simulate.fits_redBlack (K := K) (V := V) hM hM0
  refine BenchOutcome.of_good F.toGood ⟨[], RedBlackTree.Inv.new z, FMap.lists_empty⟩ F.len F.lists
    (fun s => ⟨rfl, NodeAllocator.like_refl (fun _ => ⟨rfl, trivial⟩) _⟩)
    (fun a b c h h' => ⟨h'.1.trans h.1, NodeAllocator.like_trans (fun _ _ _ h h' => ⟨h.1.trans h'.1, trivial⟩) h.2 h'.2⟩)
    (fun {s m k v s' i} h e hk => ?_) ?_ (fun m k _ hl hc => by omega) (fun m k hk _ hc => by rw [hc.1] at hk; cases hk)
  · obtain ⟨w, hw⟩ := Option.isSome_iff_exists.1 hk
    obtain ⟨t', j, _, e', hl, _⟩ := s.overwrite (by have := F.get h k; rw [hw] at this; exact this) v
    have : (Except.ok (s', some i) : R _) = .ok (t', some j) := e.symm.trans e'
    injection this with this; injection this with h1 _
    rw [h1]; exact hl
  · rintro s m k ⟨E, h, hm⟩ hk
    rcases (RedBlackTree.laws hM hM0).remove h k with ⟨_, e⟩ | ⟨s', v, E', e, _, hd⟩
    · exact e
    · obtain ⟨s'', e'', _⟩ := F.remove ⟨E, h, hm⟩ k
      have : (Except.ok (s'', m.get k) : R _) = .ok (s', some v) := e''.symm.trans e
      injection this with this; injection this with _ h2
      rw [hk] at h2; cases h2

/-- **C94**: the benchmarks of the AVL tree. -/
theorem C94_avl_benches [LinearOrder K] (hM0 : 0 < M) (hM : M + 1 < 2 ^ 32) (z : AVLNode K V) :
    BenchOutcome avl AVLTree.len (AVLTree.Like Eq fun _ _ => True) (AVLTree.new z : AVLTree K V M) M := by
  have F := Simulate.fits_avl (K := K) (V := V) hM hM0
  refine BenchOutcome.of_good F.toGood ⟨[], AVLTree.Inv.new z, FMap.lists_empty⟩ F.len F.lists
    (fun s => ⟨rfl, NodeAllocator.like_refl (fun _ => ⟨rfl, trivial⟩) _⟩)
    (fun a b c h h' => ⟨h'.1.trans h.1, NodeAllocator.like_trans (fun _ _ _ h h' => ⟨h.1.trans h'.1, trivial⟩) h.2 h'.2⟩)
    (fun {s m k v s' i} h e hk => ?_) ?_ (fun m k _ hl hc => by omega) (fun m k hk _ hc => by rw [hc.1] at hk; cases hk)
  · obtain ⟨w, hw⟩ := Option.isSome_iff_exists.1 hk
    obtain ⟨t', j, _, e', hl, _⟩ := s.overwrite (by have := F.get h k; rw [hw] at this; exact this) v
    have : (Except.ok (s', some i) : R _) = .ok (t', some j) := e.symm.trans e'
    injection this with this; injection this with h1 _
    rw [h1]; exact hl
  · rintro s m k ⟨E, h, hm⟩ hk
    rcases (AVLTree.laws hM hM0).remove h k with ⟨_, e⟩ | ⟨s', v, E', e, _, hd⟩
    · exact e
    · obtain ⟨s'', e'', _⟩ := F.remove ⟨E, h, hm⟩ k
      have : (Except.ok (s'', m.get k) : R _) = .ok (s', some v) := e''.symm.trans e
      injection this with this; injection this with _ h2
      rw [hk] at h2; cases h2

/-- **C94**: the benchmarks of the hash table, whatever the hash function. -/
theorem C94_hash_benches [DecidableEq K] (hB : 0 < B) (hM : M + 1 < 2 ^ 32) (hash : K → Nat) (z : HashNode K V) :
    BenchOutcome (hashTable hash) HashTable.len (HashTable.Like Eq fun _ _ => True)
      (HashTable.new z : HashTable K V B M) M := by
  have G := good_hashTable (V := V) (B := B) (hash := hash) hM
  refine BenchOutcome.of_good G
    ⟨_, HashTable.new_HRep hB hash z, by
      rw [show HashTable.kvs (HashTable.all B fun _ => ([] : List (HashTable.Ent K V))) = [] by simp [HashTable.kvs]]
      exact FMap.lists_empty⟩
    (fun {s m} ⟨c, H, hm⟩ => by rw [hm.len]; simpa [HashTable.kvs] using H.toHHeld.len)
    (fun {s m} ⟨c, H, hm⟩ => ⟨_, hm⟩)
    (fun s => ⟨rfl, NodeAllocator.like_refl (fun _ => ⟨rfl, trivial⟩) _⟩)
    (fun a b c h h' => ⟨h'.1.trans h.1, NodeAllocator.like_trans (fun _ _ _ h h' => ⟨h.1.trans h'.1, trivial⟩) h.2 h'.2⟩)
    (fun {s m k v s' i} h e hk => ?_) ?_ (fun m k _ hl hc => by omega) (fun m k hk _ hc => by rw [hc.1] at hk; cases hk)
  · obtain ⟨w, hw⟩ := Option.isSome_iff_exists.1 hk
    obtain ⟨t', j, _, e', hl, _⟩ := s.overwrite hash (by have := G.get h k; rw [hw] at this; exact this) v
    have : (Except.ok (s', some i) : R _) = .ok (t', some j) := e.symm.trans e'
    injection this with this; injection this with h1 _
    rw [h1]; exact hl
  · intro s m k h hk
    exact s.remove_missing hash (by have := G.get h k; rw [hk] at this; exact this)

/-- **C94**: the benchmarks of `Critbit`, with room for one key less than the capacity. -/
theorem C94_critbit_benches (hM0 : 0 < M) (hNM : 2 * M ≤ N) (hN : N + 1 < 2 ^ 32) (z : CritbitNode) (w : V) :
    BenchOutcome critbit Critbit.len (Critbit.Like fun _ _ => True) (Critbit.new z w : Critbit V N M) (M - 1) := by
  have F := Simulate.fits_critbit (V := V) hN hNM hM0
  refine BenchOutcome.of_good F.toGood ⟨[], Critbit.Inv.new z w, FMap.lists_empty⟩ F.len F.lists
    (fun s => ⟨rfl, rfl, NodeAllocator.like_refl (fun _ => trivial) _⟩)
    (fun a b c h h' => ⟨h'.1.trans h.1, h'.2.1.trans h.2.1, NodeAllocator.like_trans (fun _ _ _ _ _ => trivial) h.2.2 h'.2.2⟩)
    (fun {s m k v s' i} h e hk => ?_) ?_ (fun m k _ hl (hc : m.len = M) => by omega)
    (fun m k hk _ (hc : m.len = M) => by omega)
  · obtain ⟨w, hw⟩ := Option.isSome_iff_exists.1 hk
    have hlt : s.len < M := by
      have h1 : s.len = m.len := F.len h
      have h2 := F.le h
      rcases F.insert h k v with ⟨_, e'⟩ | ⟨hr, _⟩
      · have : (Except.ok (s', some i) : R _) = .ok (s, none) := e.symm.trans e'
        injection this with this; injection this with _ h2; cases h2
      · have hr : ¬ m.len = M := hr
        omega
    obtain ⟨t', j, _, e', hl, _⟩ := s.overwrite (by have := F.get h k; rw [hw] at this; exact this) hlt v
    have : (Except.ok (s', some i) : R _) = .ok (t', some j) := e.symm.trans e'
    injection this with this; injection this with h1 _
    rw [h1]; exact hl
  · rintro s m k ⟨E, h, hm⟩ hk
    rcases (Critbit.laws hN hNM hM0).remove h k with ⟨_, e⟩ | ⟨s', v, E', e, _, hd⟩
    · exact e
    · obtain ⟨s'', e'', _⟩ := F.remove ⟨E, h, hm⟩ k
      have : (Except.ok (s'', m.get k) : R _) = .ok (s', some v) := e''.symm.trans e
      injection this with this; injection this with _ h2
      rw [hk] at h2; cases h2

/-- **C94**: that is why the benchmarks of `Critbit` need a capacity above the number of keys: with exactly as many keys as
the capacity, the calls after the first do nothing, and the numbers of the first call stay. -/
theorem C94_critbit_full_bench (hM0 : 0 < M) (hNM : 2 * M ≤ N) (hN : N + 1 < 2 ^ 32) (z : CritbitNode) (w : V)
    (keys : List (BitVec 128)) (val : BitVec 128 → V) (hn : keys.Nodup) (hl : keys.length = M) :
    ∃ s, (∀ vals, insertBench critbit keys (val :: vals) (Critbit.new z w : Critbit V N M) = .ok s) ∧
      ∀ k ∈ keys, s.get k = .ok (some (val k)) := by
  have F := Simulate.fits_critbit (V := V) hN hNM hM0
  obtain ⟨s, m, e, h, l, g⟩ := insertAll_new F.toGood val (L := M) (fun m k _ hl (hc : m.len = M) => by omega) keys
    (s := (Critbit.new z w : Critbit V N M)) ⟨[], Critbit.Inv.new z w, FMap.lists_empty⟩ hn (by simp [FMap.empty])
    (by simp [FMap.empty, hl])
  refine ⟨s, fun vals => ?_, fun k hk => ?_⟩
  · have hr : ∀ k v, critbit.insert s k v = .ok (s, none) := fun k v => by
      rcases F.insert h k v with ⟨_, e'⟩ | ⟨hr, _⟩
      · exact e'
      · exact absurd (by rw [l, hl]; simp [FMap.empty]) hr
    have e : insertAll critbit val keys (Critbit.new z w : Critbit V N M) = .ok s := e
    simp only [insertBench, iter, e, except_bind_ok]
    exact iter_same (fun v => insertAll_refused v hr keys) vals
  · have := F.get h k
    rw [g, if_pos hk] at this; exact this

end four

/-! ### cases: the sizes of the crate (bench.rs:16-31) -/

example : (1001 + 1 < 2 ^ 32 ∧ 2001 + 1 < 2 ^ 32 ∧ 20001 + 1 < 2 ^ 32) ∧ (0 < 1000 ∧ 0 < 20001 >>> 2) ∧
    (2 * 1001 ≤ (1001 <<< 1) + 1 ∧ 2 * 20001 ≤ (20001 <<< 1) + 1 ∧ (20001 <<< 1) + 1 + 1 < 2 ^ 32) ∧
    ((List.range 1000).length ≤ 1001 - 1 ∧ (List.range 20000).length ≤ 20001 - 1) ∧
    (List.range 20000).Nodup := ⟨by decide, by decide, by decide, by simp, List.nodup_range⟩

/-- `bench_sokoban_red_black_tree_insert_1000_u128` with any numbers and any number of calls. -/
example (val : Nat → Nat) (vals : List (Nat → Nat)) :
    ∃ s1 s, insertBench redBlack (List.range 1000) [val] (RedBlackTree.new ⟨0, 0⟩ : RedBlackTree Nat Nat 1001) = .ok s1 ∧
      insertBench redBlack (List.range 1000) (val :: vals) (RedBlackTree.new ⟨0, 0⟩ : RedBlackTree Nat Nat 1001) = .ok s ∧
      s1.Like Eq (fun _ _ => True) s ∧ s.len = 1000 ∧
      ∀ k, s.get k = .ok (if k ∈ List.range 1000 then some (vals.getLastD val k) else none) := by
  obtain ⟨s1, s, h1, h2, h3, h4, h5⟩ := (C94_rb_benches (M := 1001) (by decide) (by decide) (⟨0, 0⟩ : RBNode Nat Nat)).insert
    (List.range 1000) val vals List.nodup_range (by simp)
  exact ⟨s1, s, h1, h2, h3, by rw [h4, List.length_range], h5⟩

/-- Two calls of the closure with three keys: the second replaces the values, and in a full `Critbit` it does not. -/
example : ((insertBench redBlack [0, 1, 2] [fun k => k + 10, fun k => k + 20]
      (RedBlackTree.new ⟨0, 0⟩ : RedBlackTree Nat Nat 4)).toOption.bind fun s => (s.get 1).toOption) = some (some 21) ∧
    ((insertBench critbit [0, 1, 2] [fun _ => 10, fun _ => 20]
      (Critbit.new ⟨0, 0⟩ 0 : Critbit Nat 8 4)).toOption.bind fun s => (s.get 1).toOption) = some (some 20) ∧
    ((insertBench critbit [0, 1, 2] [fun _ => 10, fun _ => 20]
      (Critbit.new ⟨0, 0⟩ 0 : Critbit Nat 6 3)).toOption.bind fun s => (s.get 1).toOption) = some (some 10) := by
  decide +kernel

end Sokoban.Props
