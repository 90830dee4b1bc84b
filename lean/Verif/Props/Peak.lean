import Verif.Proof.PeakMap

/-
C71: a structure uses the first slots of its buffer only, as many as it ever held elements.
-/
namespace Sokoban.Props
open Sokoban NodeAllocator MapSpec

/-- a slot of a new allocator -/
private theorem new_val {T : Type} {M r i : Nat} (z : T) (h1 : 1 ≤ i) (h2 : i ≤ M) :
    (NodeAllocator.new z : NodeAllocator T M r).val? i = some z := by
  unfold NodeAllocator.val? NodeAllocator.new
  rw [dif_pos ⟨h1, h2⟩]
  simp

/-- **C71**, red-black tree. Let `p` be the greatest `len()` at any time of a history on a new tree, for any `Ord` of
the keys. Then the slots with addresses greater than `p` still hold the node that the tree was made with; an address
that the next `insert` returns is at most the greatest `len()` including the one after it; and the bump index of the
allocator is `p + 1`. -/
theorem C71_rb {K V : Type} [Ord K] {M : Nat} (hM : M + 1 < 2 ^ 32) (hM0 : 0 < M) (z : RBNode K V)
    (ops : List (RedBlackSpec.TOp K V)) (s : RedBlackTree K V M) (outs : List (RedBlackSpec.TOut K V))
    (h : run RedBlackSpec.call (RedBlackTree.new z) ops = .ok (s, outs)) (p : Nat)
    (hp : p = peak RedBlackTree.len RedBlackSpec.call (RedBlackTree.new z : RedBlackTree K V M) ops) :
    (∀ i, p < i → i ≤ M → s.getNode i = .ok z) ∧
    (∀ k v s' i, s.insert k v = .ok (s', some i) → 1 ≤ i ∧ i ≤ max p s'.len) ∧
    s.allocator.bumpIndex = p + 1 := by
  obtain ⟨⟨E, hi⟩, hb, hv⟩ := run_peak (fun _ (s : RedBlackTree K V M) => ∃ E, RedBlackTree.Held s E)
    (fun s => s.allocator.bumpIndex) RedBlackTree.len (fun s i => s.allocator.val? i)
    (fun _ s ⟨E, h⟩ => by obtain ⟨free, hf⟩ := h.base.inv; exact hf.size_lt)
    (fun _ => RedBlackTree.call_peak hM hM0) ops _ s outs ⟨[], RedBlackTree.Held.new z⟩ h
  rw [← hp] at hb
  have hb' : s.allocator.bumpIndex = p + 1 := by
    rw [hb]; show max 1 (p + 1) = _; omega
  refine ⟨fun i h1 h2 => ?_, fun k v s' i e => ?_, hb'⟩
  · refine getValue_of_val ?_
    rw [hv i (by omega)]
    exact new_val z (by omega) h2
  · obtain ⟨free, hf⟩ := hi.base.inv
    obtain ⟨g, _, hl⟩ := RedBlackTree.insert_kept hM hM0 hi e
    have h1 := hl i rfl
    have h2 := g.peak hf (by omega)
    have h3 : s'.len = s'.allocator.size := rfl
    refine ⟨?_, by omega⟩
    rcases hi.find hM hM0 k with ⟨_, _, hn⟩ | ⟨L1, j, k', w, L2, _, _, _, _, hn⟩
    · rcases hn v with ⟨_, e'⟩ | ⟨_, s1, j, L1, L2, _, e', h'⟩
      · rw [e'] at e; cases e
      · rw [e'] at e; cases e
        exact (h'.base.range (by simp)).1
    · obtain ⟨s1, e', h'⟩ := hn v
      rw [e'] at e; cases e
      exact (h'.base.range (by simp)).1

/-- **C71**, AVL tree, for any `<` of the keys. -/
theorem C71_avl {K V : Type} [LT K] [DecidableLT K] [PartialGt K] {M : Nat} (hM : M + 1 < 2 ^ 32) (hM0 : 0 < M) (z : AVLNode K V)
    (ops : List (Op K V)) (s : AVLTree K V M) (outs : List (Out K V))
    (h : run AVLSpec.call (AVLTree.new z) ops = .ok (s, outs)) (p : Nat)
    (hp : p = peak AVLTree.len AVLSpec.call (AVLTree.new z : AVLTree K V M) ops) :
    (∀ i, p < i → i ≤ M → s.getNode i = .ok z) ∧
    (∀ k v s' i, s.insert k v = .ok (s', some i) → 1 ≤ i ∧ i ≤ max p s'.len) ∧
    s.allocator.bumpIndex = p + 1 := by
  obtain ⟨⟨E, hi⟩, hb, hv⟩ := run_peak (fun _ (s : AVLTree K V M) => ∃ E, AVLTree.Held s E)
    (fun s => s.allocator.bumpIndex) AVLTree.len (fun s i => s.allocator.val? i)
    (fun _ s ⟨E, h⟩ => by obtain ⟨free, hf⟩ := h.base.inv; exact hf.size_lt)
    (fun _ => AVLTree.call_peak hM hM0) ops _ s outs ⟨[], AVLTree.Held.new z⟩ h
  rw [← hp] at hb
  have hb' : s.allocator.bumpIndex = p + 1 := by
    rw [hb]; show max 1 (p + 1) = _; omega
  refine ⟨fun i h1 h2 => ?_, fun k v s' i e => ?_, hb'⟩
  · refine getValue_of_val ?_
    rw [hv i (by omega)]
    exact new_val z (by omega) h2
  · obtain ⟨free, hf⟩ := hi.base.inv
    obtain ⟨g, _, hl⟩ := AVLTree.insert_kept hM hM0 hi e
    have h1 := hl i rfl
    have h2 := g.peak hf (by omega)
    have h3 : s'.len = s'.allocator.size := rfl
    refine ⟨?_, by omega⟩
    rcases hi.find hM hM0 k with ⟨_, _, hn⟩ | ⟨L1, j, k', w, L2, _, _, _, _, hn⟩
    · rcases hn v with ⟨_, e'⟩ | ⟨_, s1, j, L1, L2, _, e', h'⟩
      · rw [e'] at e; cases e
      · rw [e'] at e; cases e
        exact (h'.base.range (by simp)).1
    · obtain ⟨s1, e', h'⟩ := hn v
      rw [e'] at e; cases e
      exact (h'.base.range (by simp)).1

/-- **C71**, hash table, for any hash function and any `==` of the keys. -/
theorem C71_hash {K V : Type} [BEq K] {B M : Nat} (hB : 0 < B) (hM : M + 1 < 2 ^ 32) (hash : K → Nat) (z : HashNode K V)
    (ops : List (Op K V)) (s : HashTable K V B M) (outs : List (Out K V))
    (h : run (HashTableSpec.call hash) (HashTable.new z) ops = .ok (s, outs)) (p : Nat)
    (hp : p = peak HashTable.len (HashTableSpec.call hash) (HashTable.new z : HashTable K V B M) ops) :
    (∀ i, p < i → i ≤ M → s.getNode i = .ok z) ∧
    (∀ k v s' i, s.insert hash k v = .ok (s', some i) → i ≤ max p s'.len) ∧
    s.allocator.bumpIndex = p + 1 := by
  obtain ⟨⟨c, hi⟩, hb, hv⟩ := run_peak (fun _ (s : HashTable K V B M) => ∃ c, HashTable.HHeld True hash s c)
    (fun s => s.allocator.bumpIndex) HashTable.len (fun s i => s.allocator.val? i)
    (fun _ s ⟨c, h⟩ => by obtain ⟨free, hf⟩ := h.inv; exact hf.size_lt)
    (fun _ => HashTable.call_peak hM) ops _ s outs ⟨_, HashTable.new_HHeld hB hash z⟩ h
  rw [← hp] at hb
  have hb' : s.allocator.bumpIndex = p + 1 := by
    rw [hb]; show max 1 (p + 1) = _; omega
  refine ⟨fun i h1 h2 => ?_, fun k v s' i e => ?_, hb'⟩
  · refine getValue_of_val ?_
    rw [hv i (by omega)]
    exact new_val z (by omega) h2
  · obtain ⟨free, hf⟩ := hi.inv
    obtain ⟨g, _, hl⟩ := HashTable.insert_kept hM hi e
    have h1 := hl i rfl
    have h2 := g.peak hf (by omega)
    have h3 : s'.len = s'.allocator.size := rfl
    omega

/-- **C71**, deque: histories of fewer than 2^64 calls that do not push into a full deque. -/
theorem C71_deque {T : Type} {M : Nat} (hM : M + 1 < 2 ^ 32) (z : T) (ops : List (DequeSpec.Op T))
    (hs : ops.length < 2 ^ 64) (d : Deque T M) (outs : List (DequeSpec.Out T))
    (h : run DequeSpec.call (Deque.new z) ops = .ok (d, outs)) (p : Nat)
    (hp : p = peak Deque.len DequeSpec.call (Deque.new z : Deque T M) ops) :
    (∀ i, p < i → i ≤ M → d.getNode i = .ok z) ∧ d.allocator.bumpIndex = p + 1 := by
  obtain ⟨_, hb, hv⟩ := run_peak (fun n (d : Deque T M) => ∃ l, Deque.DRep d l ∧ d.sequenceNumber + n < 2 ^ 64)
    (fun s => s.allocator.bumpIndex) Deque.len (fun s i => s.allocator.val? i)
    (fun _ s ⟨c, h, _⟩ => by obtain ⟨free, hf⟩ := h.inv; exact hf.size_lt)
    (fun n d op d' o ⟨l, hd, hn⟩ e => by
      obtain ⟨c1, c2⟩ := Deque.call_spec hd hM (by omega) op
      cases hst : DequeSpec.step M (Deque.vals l) op with
      | none => rw [c2 hst] at e; cases e
      | some q =>
        obtain ⟨d2, l2, e2, hd2, _, hsq⟩ := c1 q.1 q.2 hst
        have hd' : d2 = d' := by rw [e2] at e; cases e; rfl
        subst hd'
        have := Deque.changed_le op q.2
        exact ⟨⟨l2, hd2, by omega⟩, Deque.call_peak d op d2 o hd hd2 e⟩)
    ops _ d outs ⟨[], Deque.new_DRep z, by simpa [Deque.new] using hs⟩ h
  rw [← hp] at hb
  have hb' : d.allocator.bumpIndex = p + 1 := by
    rw [hb]; show max 1 (p + 1) = _; omega
  refine ⟨fun i h1 h2 => ?_, hb'⟩
  refine getValue_of_val ?_
  rw [hv i (by omega)]
  exact new_val z (by omega) h2

/-- **C71**, critbit tree, for the leaves. -/
theorem C71_critbit {V : Type} {N M : Nat} (hN : N + 1 < 2 ^ 32) (hNM : 2 * M ≤ N) (hM0 : 0 < M) (z : CritbitNode) (w : V)
    (ops : List (Op (BitVec 128) V)) (s : Critbit V N M) (outs : List (Out (BitVec 128) V))
    (h : run CritbitSpec.call (Critbit.new z w) ops = .ok (s, outs)) (p : Nat)
    (hp : p = peak Critbit.len CritbitSpec.call (Critbit.new z w : Critbit V N M) ops) :
    (∀ i, p < i → i ≤ M → s.getLeaf i = .ok w) ∧ s.leaves.bumpIndex = p + 1 := by
  obtain ⟨_, hb, hv⟩ := run_peak
    (fun _ (s : Critbit V N M) => ∃ E m, Critbit.Inv s E ∧ FMap.Lists m (E.map Prod.snd))
    (fun s => s.leaves.bumpIndex) Critbit.len (fun s i => s.leaves.val? i)
    (fun _ s ⟨E, m, h, _⟩ => by obtain ⟨free, hf⟩ := h.live; exact hf.size_lt)
    (fun _ => Critbit.call_peak hN hNM hM0) ops _ s outs ⟨[], FMap.empty, Critbit.Inv.new z w, FMap.lists_empty⟩ h
  rw [← hp] at hb
  have hb' : s.leaves.bumpIndex = p + 1 := by
    rw [hb]; show max 1 (p + 1) = _; omega
  refine ⟨fun i h1 h2 => ?_, hb'⟩
  refine getValue_of_val ?_
  rw [hv i (by omega)]
  exact new_val w (by omega) h2

/-- **C71**, critbit tree, for the nodes: with a peak of `p` entries the first `2 * p - 1` nodes were used and no other. -/
theorem C71_critbit_nodes {V : Type} {N M : Nat} (hN : N + 1 < 2 ^ 32) (hNM : 2 * M ≤ N) (hM0 : 0 < M) (z : CritbitNode) (w : V)
    (ops : List (Op (BitVec 128) V)) (s : Critbit V N M) (outs : List (Out (BitVec 128) V))
    (h : run CritbitSpec.call (Critbit.new z w) ops = .ok (s, outs)) (p : Nat)
    (hp : p = peak Critbit.len CritbitSpec.call (Critbit.new z w : Critbit V N M) ops) :
    (∀ i, 2 * p - 1 < i → i ≤ N → s.getNode i = .ok z) ∧
    (∀ k v s' i, s.insert k v = .ok (s', some i) → 1 ≤ i ∧ i ≤ 2 * max p s'.len - 1) ∧
    s.nodeAllocator.bumpIndex = 2 * p - 1 + 1 := by
  have hst : ∀ (s : Critbit V N M) op s' o, (∃ E m, Critbit.Inv s E ∧ FMap.Lists m (E.map Prod.snd)) →
      CritbitSpec.call s op = .ok (s', o) → ∃ E m, Critbit.Inv s' E ∧ FMap.Lists m (E.map Prod.snd) := by
    intro s op s' o ⟨E, m, hi, hm⟩ e
    obtain ⟨s2, o2, E2, m2, e2, h2, hm2, _⟩ := Critbit.call_spec hN hNM hM0 s E m op hi hm
    rw [show CritbitSpec.call s op = _ from e2] at e
    cases e
    exact ⟨E2, m2, h2, hm2⟩
  have h0 : ∃ E m, Critbit.Inv (Critbit.new z w : Critbit V N M) E ∧ FMap.Lists m (E.map Prod.snd) :=
    ⟨[], FMap.empty, Critbit.Inv.new z w, FMap.lists_empty⟩
  obtain ⟨⟨E, m, hi, hm⟩, hb, hv⟩ := run_peak
    (fun _ (s : Critbit V N M) => ∃ E m, Critbit.Inv s E ∧ FMap.Lists m (E.map Prod.snd))
    (fun s => s.nodeAllocator.bumpIndex) (fun s => s.nodeAllocator.size) (fun s i => s.nodeAllocator.val? i)
    (fun _ s ⟨E, m, h, _⟩ => by have := (h.past (s' := s) rfl).1; omega)
    (fun _ s op s' o hs e => ⟨hst s op s' o hs e, by obtain ⟨E, m, hi, _⟩ := hs; exact Critbit.call_past hN hNM hM0 hi e⟩)
    ops _ s outs h0 h
  have hpk := peak_comp (fun s : Critbit V N M => ∃ E m, Critbit.Inv s E ∧ FMap.Lists m (E.map Prod.snd)) Critbit.len
    (fun s => s.nodeAllocator.size) (fun n => 2 * n - 1) (fun a b => by omega)
    (fun s ⟨E, m, h, _⟩ => h.nodes) hst ops _ s outs h0 h
  rw [hpk, ← hp] at hb
  have hb' : s.nodeAllocator.bumpIndex = 2 * p - 1 + 1 := by
    rw [hb]; show max 1 (2 * p - 1 + 1) = _; omega
  refine ⟨fun i h1 h2 => ?_, fun k v s' i e => ?_, hb'⟩
  · refine getValue_of_val ?_
    rw [hv i (by omega)]
    exact new_val z (by omega) h2
  · rcases hi.insert hN hNM hM0 k v with ⟨_, h1⟩ | ⟨_, s1, n, j, t', h1, ht, hn, _, _, hq, _⟩
    · rw [h1] at e; cases e
    · rw [h1] at e; cases e
      obtain ⟨nf, lf, ha, _⟩ := ht.gi
      have r := ((ha.mem i).1 (by simp only [List.mem_append]; exact Or.inr (CT.mem_nents hn).2))
      have q := hq.1
      have ns := Critbit.Inv.nodes (Or.inr ⟨t', ht, rfl⟩ : Critbit.Inv s' t'.ents)
      omega

/-! Cases -/

/-- A red-black tree that held three entries at a time, though five were inserted: slot 4 was never written. -/
example : ∃ s outs, run RedBlackSpec.call (RedBlackTree.new ⟨7, 77⟩ : RedBlackTree Nat Nat 5)
    [.map (.insert 5 50), .map (.insert 3 30), .map (.insert 8 80), .map (.remove 3), .removeRoot,
      .map (.insert 9 90), .map (.insert 1 10), .map (.remove 9)] = .ok (s, outs) ∧
    peak RedBlackTree.len RedBlackSpec.call (RedBlackTree.new ⟨7, 77⟩ : RedBlackTree Nat Nat 5)
      [.map (.insert 5 50), .map (.insert 3 30), .map (.insert 8 80), .map (.remove 3), .removeRoot,
        .map (.insert 9 90), .map (.insert 1 10), .map (.remove 9)] = 3 ∧
    s.len = 2 ∧ s.getNode 3 ≠ .ok ⟨7, 77⟩ ∧ s.getNode 4 = .ok ⟨7, 77⟩ ∧ s.allocator.bumpIndex = 4 ∧
    ∃ s' i, s.insert 4 40 = .ok (s', some i) ∧ i ≤ 3 :=
  ⟨_, _, rfl, rfl, rfl, nofun, rfl, rfl, _, _, rfl, by decide⟩

example : ∃ s outs, run AVLSpec.call (AVLTree.new ⟨7, 77⟩ : AVLTree Nat Nat 5)
    [.insert 5 50, .insert 3 30, .remove 3, .insert 8 80, .remove 5] = .ok (s, outs) ∧
    peak AVLTree.len AVLSpec.call (AVLTree.new ⟨7, 77⟩ : AVLTree Nat Nat 5)
      [.insert 5 50, .insert 3 30, .remove 3, .insert 8 80, .remove 5] = 2 ∧
    s.len = 1 ∧ s.getNode 2 = .ok ⟨8, 80⟩ ∧ s.getNode 3 = .ok ⟨7, 77⟩ ∧ s.allocator.bumpIndex = 3 :=
  ⟨_, _, rfl, rfl, rfl, rfl, rfl, rfl⟩

example : ∃ s outs, run (HashTableSpec.call fun k => k) (HashTable.new ⟨7, 77⟩ : HashTable Nat Nat 2 5)
    [.insert 5 50, .insert 3 30, .remove 3, .insert 8 80, .getMut 5 (· + 1)] = .ok (s, outs) ∧
    peak HashTable.len (HashTableSpec.call fun k => k) (HashTable.new ⟨7, 77⟩ : HashTable Nat Nat 2 5)
      [.insert 5 50, .insert 3 30, .remove 3, .insert 8 80, .getMut 5 (· + 1)] = 2 ∧
    s.getNode 2 = .ok ⟨8, 80⟩ ∧ s.getNode 3 = .ok ⟨7, 77⟩ ∧ s.allocator.bumpIndex = 3 :=
  ⟨_, _, rfl, rfl, rfl, rfl, rfl⟩

example : ∃ d outs, run DequeSpec.call (Deque.new 7 : Deque Nat 4) [.pushBack 1, .popFront, .pushFront 2, .pushBack 3,
      .popBack] = .ok (d, outs) ∧
    peak Deque.len DequeSpec.call (Deque.new 7 : Deque Nat 4) [.pushBack 1, .popFront, .pushFront 2, .pushBack 3,
      .popBack] = 2 ∧ d.getNode 2 = .ok 3 ∧ d.getNode 3 = .ok 7 ∧ d.allocator.bumpIndex = 3 :=
  ⟨_, _, rfl, rfl, rfl, rfl, rfl⟩

set_option maxRecDepth 100000 in
example : ∃ s outs, run CritbitSpec.call (Critbit.new ⟨0, 0⟩ 7 : Critbit Nat 8 4)
    [.insert 5 50, .insert 4 40, .remove 4, .insert (1 <<< 127) 90] = .ok (s, outs) ∧
    peak Critbit.len CritbitSpec.call (Critbit.new ⟨0, 0⟩ 7 : Critbit Nat 8 4)
      [.insert 5 50, .insert 4 40, .remove 4, .insert (1 <<< 127) 90] = 2 ∧
    s.getLeaf 2 = .ok 90 ∧ s.getLeaf 3 = .ok 7 ∧ s.leaves.bumpIndex = 3 ∧
    s.getNode 3 ≠ .ok ⟨0, 0⟩ ∧ s.getNode 4 = .ok ⟨0, 0⟩ ∧ s.nodeAllocator.bumpIndex = 4 :=
  ⟨_, _, rfl, rfl, rfl, rfl, rfl, by decide +kernel, rfl, rfl⟩

end Sokoban.Props
