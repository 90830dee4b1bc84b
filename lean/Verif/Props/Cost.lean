import Verif.Proof.Cost

/-
Property theorems C73: how many iterations the loops of a call take, rebalancing included.
-/
namespace Sokoban.Props
open MapSpec
variable {K V : Type} {M : Nat}

section rb
open RedBlackSpec RedBlackTree
variable [Ord K]

/-- C73 for the red-black tree: `insert`, `remove` and `remove_root` have the same effect when every loop in them, the
search, the descent to the predecessor and the loops that restore the colours, is cut off after `2 * log2 (len + 1) + 2`
iterations. The comparison need not be lawful. The model lets a loop that is cut off fail, so this says that none of
them takes longer. -/
theorem C73_rb_cost (hM0 : 0 < M) (hM : M + 1 < 2 ^ 32) (z : RBNode K V) (ops : List (TOp K V))
    {t : RedBlackTree K V M} {outs : List (TOut K V)} (hrun : run call (RedBlackTree.new z) ops = .ok (t, outs))
    (k : K) (v : V) (lim : Nat) (hl : 2 * (t.len + 1).log2 + 2 ≤ lim) :
    t.insert k v lim = t.insert k v ∧ t.remove k lim = t.remove k ∧ t.removeRoot lim = t.removeRoot ∧
    (t.len ≠ 0 → t.findMin lim t.root = t.getMinIndex ∧ t.findMax lim t.root = t.getMaxIndex) ∧
    (∃ r, t.insert k v lim = .ok r) ∧ (∃ r, t.remove k lim = .ok r) ∧ ∃ r, t.removeRoot lim = .ok r := by
  obtain ⟨t0, os, E, e, h, _⟩ := RedBlackTree.run_any hM hM0 z ops
  rw [hrun] at e; cases e
  have hlen : t.len = E.length := h.base.size
  rw [hlen] at hl
  obtain ⟨h1, h2, h3⟩ := h.cost hM hl k v
  refine ⟨h1, h2, h3, fun hne => h.cost_extremes (fun hc => hne (by rw [hlen, hc]; rfl)) (by omega), ?_, ?_, ?_⟩
  · rw [h1]
    rcases h.find hM hM0 k with ⟨_, _, hi⟩ | ⟨_, _, _, _, _, _, _, _, _, hi⟩
    · rcases hi v with ⟨_, e⟩ | ⟨_, _, _, _, _, _, e, _⟩ <;> exact ⟨_, e⟩
    · obtain ⟨_, e, _⟩ := hi v; exact ⟨_, e⟩
  · rw [h2]
    rcases h.find hM hM0 k with ⟨_, e, _⟩ | ⟨_, _, _, _, _, _, _, _, ⟨_, e, _⟩, _⟩ <;> exact ⟨_, e⟩
  · rw [h3]
    obtain ⟨s', o, E', e, _⟩ := RedBlackTree.call_any hM hM0 t E .removeRoot h
    simp only [call] at e
    cases hr : t.removeRoot with
    | error p => rw [hr] at e; cases e
    | ok r => exact ⟨r, rfl⟩

end rb

section avl
open AVLSpec AVLTree
variable [LT K] [DecidableLT K] [PartialGt K]

/-- C73 for the AVL tree: `insert` and `remove` have the same effect when every loop in them, the search and the descent
to the successor, is cut off after `h` iterations, the greatest
number with `fib (h + 2) ≤ len + 1`, or more (the search of `remove` after one more, which
finds that there is no further node). The loop that rebalances takes one iteration for each node on the path which
these loops recorded. The comparison need not be lawful. -/
theorem C73_avl_cost_fib (hM0 : 0 < M) (hM : M + 1 < 2 ^ 32) (z : AVLNode K V) (ops : List (Op K V))
    {t : AVLTree K V M} {outs : List (Out K V)} (hrun : run call (AVLTree.new z) ops = .ok (t, outs))
    (k : K) (v : V) (lim : Nat) (hl : t.len + 1 < Nat.fib (lim + 3)) :
    t.insert k v lim = t.insert k v ∧ t.remove k lim = t.remove k ∧
    (t.len ≠ 0 → t.minLoop lim t.root = t.getMinIndex ∧ t.maxLoop lim t.root = t.getMaxIndex) ∧
    (∃ r, t.insert k v lim = .ok r) ∧ ∃ r, t.remove k lim = .ok r := by
  obtain ⟨t0, os, E, e, h, _⟩ := AVLTree.run_any hM hM0 z ops
  rw [hrun] at e; cases e
  have hlen : t.len = E.length := h.base.size
  rw [hlen] at hl
  obtain ⟨h1, h2⟩ := h.cost hM hl k v
  refine ⟨h1, h2, fun hne => h.cost_extremes (fun hc => hne (by rw [hlen, hc]; rfl)) hl, ?_, ?_⟩
  · rw [h1]
    rcases h.find hM hM0 k with ⟨_, _, hi⟩ | ⟨_, _, _, _, _, _, _, _, _, hi⟩
    · rcases hi v with ⟨_, e⟩ | ⟨_, _, _, _, _, _, e, _⟩ <;> exact ⟨_, e⟩
    · obtain ⟨_, e, _⟩ := hi v; exact ⟨_, e⟩
  · rw [h2]
    rcases h.find hM hM0 k with ⟨_, e, _⟩ | ⟨_, _, _, _, _, _, _, _, ⟨_, e, _⟩, _⟩ <;> exact ⟨_, e⟩

/-- C73 for the AVL tree: `2 * log2 (len + 1) + 1` iterations suffice. -/
theorem C73_avl_cost (hM0 : 0 < M) (hM : M + 1 < 2 ^ 32) (z : AVLNode K V) (ops : List (Op K V))
    {t : AVLTree K V M} {outs : List (Out K V)} (hrun : run call (AVLTree.new z) ops = .ok (t, outs))
    (k : K) (v : V) (lim : Nat) (hl : 2 * (t.len + 1).log2 + 1 ≤ lim) :
    t.insert k v lim = t.insert k v ∧ t.remove k lim = t.remove k ∧
    (t.len ≠ 0 → t.minLoop lim t.root = t.getMinIndex ∧ t.maxLoop lim t.root = t.getMaxIndex) ∧
    (∃ r, t.insert k v lim = .ok r) ∧ ∃ r, t.remove k lim = .ok r :=
  C73_avl_cost_fib hM0 hM z ops hrun k v lim (deep_of_log hl)

end avl

section hash
open HashTableSpec HashTable NodeAllocator
variable [DecidableEq K] {B : Nat}

/-- C73 for the hash table: the search for a key, the only loop in `get`, `get_mut`, `insert`, `remove`, `contains` and
`get_addr`, takes exactly one iteration for each entry with the same remainder of the hash that was touched (see
`recents`) more recently, and one more. -/
theorem C73_hash_cost (hB : 0 < B) (hM : M + 1 < 2 ^ 32) (hash : K → Nat) (z : HashNode K V) (ops : List (Op K V)) :
    ∃ (h : HashTable K V B M),
      run (call hash) (HashTable.new z) ops = .ok (h, (recents hash B M [] ops).2) ∧
      ∀ k, ∃ head, h.bucket (hash k % B) = .ok head ∧
        let chain := (recents hash B M [] ops).1.filter fun e => hash e.1 % B = hash k % B
        let steps := (chain.takeWhile fun e => e.1 ≠ k).length + 1
        (∀ fuel, steps ≤ fuel → h.findLoop k fuel head = h.getAddr hash k) ∧
        ∀ fuel < steps, h.findLoop k fuel head = .error .diverge := by
  obtain ⟨h, c, e, H, hp, _⟩ := HashTable.run_recent hM ops (HashTable.new z : HashTable K V B M) (fun _ => []) []
    (HashTable.new_HRep hB hash z) (fun _ _ => rfl) (by simp)
  refine ⟨h, e, fun k => ?_⟩
  have hb : hash k % B < B := Nat.mod_lt _ hB
  obtain ⟨h1, h2⟩ := findLoop_exact h k (c (hash k % B)) 0 (H.seg _ hb) (H.vals _ hb)
  refine ⟨_, bucket_ok H.toHHeld hb, ?_⟩
  dsimp only
  rw [← hp _ hb]
  refine ⟨fun fuel hf => ?_, fun fuel hf => h2 fuel (by omega)⟩
  rw [h1 fuel (by omega)]
  unfold getAddr
  simp only [bucketIndex_ok H.pos, bucket_ok H.toHHeld hb, except_bind_ok]
  exact (find_ok H.toHHeld k).symm

/-- C73: a key that was found by `get_mut`, or newly inserted, is found in the first iteration. -/
theorem C73_hash_move_to_front (hB : 0 < B) (hM : M + 1 < 2 ^ 32) (hash : K → Nat) (z : HashNode K V) (ops : List (Op K V))
    (op : Op K V) (k : K) {h h' : HashTable K V B M} {outs outs' : List (Out K V)}
    (hrun : run (call hash) (HashTable.new z) ops = .ok (h, outs))
    (hrun' : run (call hash) (HashTable.new z) (ops ++ [op]) = .ok (h', outs'))
    (hop : (∃ f, op = .getMut k f ∧ h.contains hash k = .ok true) ∨
      (∃ v, op = .insert k v ∧ h.contains hash k = .ok false ∧ h.len < M)) :
    ∃ head, h'.bucket (hash k % B) = .ok head ∧ h'.findLoop k 1 head = h'.getAddr hash k ∧
      h'.getAddr hash k = .ok head ∧ head ≠ SENTINEL := by
  obtain ⟨h0, c, e, H, hp, hR⟩ := HashTable.run_recent hM ops (HashTable.new z : HashTable K V B M) (fun _ => []) []
    (HashTable.new_HRep hB hash z) (fun _ _ => rfl) (by simp)
  rw [hrun] at e; cases e
  obtain ⟨h1, c', e', H', hp', _⟩ := HashTable.call_recent hM H hp hR op
  rw [run_append, hrun, except_bind_ok] at hrun'
  simp only [run, e', except_bind_ok] at hrun'
  cases hrun'
  have hb : hash k % B < B := Nat.mod_lt _ hB
  have hmem : ∀ b, h.contains hash k = .ok b → (b = true ↔ k ∈ (recents hash B M [] ops).1.map Prod.fst) := by
    intro b hc
    have hperm := hp.nodup H hR
    rw [(hperm.map Prod.fst).mem_iff]
    have hfind : h.findLoop k (M + 1) ((ids (c (hash k % B))).headD 0) =
        .ok ((((c (hash k % B)).find? (fun e => e.2.1 = k)).map Prod.fst).getD 0) := find_ok H.toHHeld k
    unfold HashTable.contains HashTable.get at hc
    simp only [bucketIndex_ok H.pos, bucket_ok H.toHHeld hb, except_bind_ok, hfind] at hc
    rcases find_cases H k with ⟨hf, hk⟩ | ⟨l1, i, v, l2, hcc, hi1, hi2, hf⟩
    · rw [hf] at hc
      simp [SENTINEL] at hc
      subst hc
      constructor
      · intro h; cases h
      · intro hm
        obtain ⟨x, hx, hxk⟩ := List.mem_map.1 hm
        obtain ⟨y, hy, rfl⟩ := List.mem_map.1 hx
        exact absurd hxk (hk y hy)
    · rw [hf] at hc
      have hin : (i, k, v) ∈ c (hash k % B) := by rw [hcc]; simp
      simp only [Option.map_some, Option.getD_some, if_neg (show ¬ i = SENTINEL by simp only [SENTINEL]; omega), getNode,
        getValue_ok _ (H.vals _ hb _ hin), except_bind_ok] at hc
      cases hc
      refine ⟨fun _ => ?_, fun _ => rfl⟩
      exact List.mem_map.2 ⟨(k, v), List.mem_map.2 ⟨(i, k, v), mem_all.2 ⟨_, hb, hin⟩, rfl⟩, rfl⟩
  have front : ∃ v R, (recent hash B M (recents hash B M [] ops).1 op).1 = (k, v) :: R := by
    rcases hop with ⟨f, rfl, hc⟩ | ⟨v, rfl, hc, hl⟩
    · have hk := (hmem _ hc).1 rfl
      simp only [recent]
      cases hf : (recents hash B M [] ops).1.find? fun e => e.1 = k with
      | none =>
        rw [List.find?_eq_none] at hf
        obtain ⟨x, hx, hxk⟩ := List.mem_map.1 hk
        exact absurd hxk (by simpa using hf x hx)
      | some x => exact ⟨_, _, rfl⟩
    · have hk : k ∉ (recents hash B M [] ops).1.map Prod.fst := fun hk => by simpa using (hmem _ hc).2 hk
      have hlen : (recents hash B M [] ops).1.length < M := by
        rw [(hp.nodup H hR).length_eq]
        rw [H.toHHeld.len] at hl
        simpa [kvs] using hl
      simp only [recent, if_neg hk, if_pos hlen]
      exact ⟨_, _, rfl⟩
  obtain ⟨v, R, hfr⟩ := front
  have hkc := hp' _ hb
  rw [hfr, List.filter_cons_of_pos (by simp)] at hkc
  obtain ⟨h2, _⟩ := findLoop_exact h1 k (c' (hash k % B)) 0 (H'.seg _ hb) (H'.vals _ hb)
  cases hcc : c' (hash k % B) with
  | nil => rw [hcc] at hkc; simp [kvs] at hkc
  | cons x l =>
    rw [hcc] at hkc h2
    simp only [kvs, List.map_cons, List.cons.injEq] at hkc
    have hxk : x.2.1 = k := by rw [hkc.1]
    have hx := h1.allocator.val?_range (H'.vals _ hb x (by rw [hcc]; simp))
    have e1 := h2 1 (by simp [kvs, hxk])
    have e2 := h2 (M + 1) (by simp [kvs, hxk])
    have ea : h1.getAddr hash k = .ok x.1 := by
      unfold getAddr
      simp only [bucketIndex_ok H'.pos, bucket_ok H'.toHHeld hb, hcc, except_bind_ok]
      rw [e2]; simp [hxk]
    refine ⟨x.1, by rw [bucket_ok H'.toHHeld hb, hcc]; rfl, ?_, ea, by simp only [SENTINEL]; omega⟩
    rw [ea, show x.1 = (ids (x :: l)).headD 0 from rfl, e1]; simp [hxk]

end hash

/-! ### examples -/

/-- `C73_rb_cost` applied to a tree of seven nodes and capacity 60: eight iterations suffice, one does not. The
insertion of 8 recolours twice, the removal of 4 has two children to deal with. -/
example : ∃ t outs, run RedBlackSpec.call (RedBlackTree.new ⟨0, 0⟩ : RedBlackTree Nat Nat 60)
    ([1, 2, 3, 4, 5, 6, 7].map fun k => .map (.insert k k)) = .ok (t, outs) ∧ 2 * (t.len + 1).log2 + 2 = 8 ∧
    t.insert 8 8 8 = t.insert 8 8 ∧ t.remove 4 8 = t.remove 4 ∧ t.insert 8 8 1 = .error .diverge ∧
    t.remove 4 1 = .error .diverge := by
  obtain ⟨t, outs, e⟩ : ∃ t outs, run RedBlackSpec.call (RedBlackTree.new ⟨0, 0⟩ : RedBlackTree Nat Nat 60)
    ([1, 2, 3, 4, 5, 6, 7].map fun k => .map (.insert k k)) = .ok (t, outs) := ⟨_, _, rfl⟩
  have hl : t.len = 7 ∧ t.insert 8 8 1 = .error .diverge ∧ t.remove 4 1 = .error .diverge := by
    cases e; exact ⟨rfl, rfl, rfl⟩
  have hc := fun k v => C73_rb_cost (by omega) (by omega) _ _ e k v 8 (by rw [hl.1]; decide)
  exact ⟨t, outs, e, by rw [hl.1]; decide, (hc 8 8).1, (hc 4 0).2.1, hl.2⟩

/-- `C73_avl_cost` on a tree of seven nodes and capacity 60. -/
example : ∃ t outs, run AVLSpec.call (AVLTree.new ⟨0, 0⟩ : AVLTree Nat Nat 60)
    ([1, 2, 3, 4, 5, 6, 7].map fun k => .insert k k) = .ok (t, outs) ∧ 2 * (t.len + 1).log2 + 1 = 7 ∧
    t.insert 8 8 7 = t.insert 8 8 ∧ t.remove 4 7 = t.remove 4 ∧ t.insert 8 8 2 = .error .diverge ∧
    t.remove 4 1 = .error .diverge := by
  obtain ⟨t, outs, e⟩ : ∃ t outs, run AVLSpec.call (AVLTree.new ⟨0, 0⟩ : AVLTree Nat Nat 60)
    ([1, 2, 3, 4, 5, 6, 7].map fun k => .insert k k) = .ok (t, outs) := ⟨_, _, rfl⟩
  have hl : t.len = 7 ∧ t.insert 8 8 2 = .error .diverge ∧ t.remove 4 1 = .error .diverge := by
    cases e; exact ⟨rfl, rfl, rfl⟩
  have hc := fun k v => C73_avl_cost (by omega) (by omega) _ _ e k v 7 (by rw [hl.1]; decide)
  exact ⟨t, outs, e, by rw [hl.1]; decide, (hc 8 8).1, (hc 4 0).2.1, hl.2⟩

/-- `C73_hash_cost` on a bucket with three entries: 1 is the third, and after `get_mut` the first. -/
example :
    let ops : List (Op Nat Nat) := [.insert 1 10, .insert 3 30, .insert 2 20, .insert 5 50]
    (∃ h outs head, run (HashTableSpec.call id) (HashTable.new ⟨0, 0⟩ : HashTable Nat Nat 2 9) ops = .ok (h, outs) ∧
      h.bucket 1 = .ok head ∧ h.findLoop 1 2 head = .error .diverge ∧ h.findLoop 1 3 head = .ok 1) ∧
    (∃ h outs, run (HashTableSpec.call id) (HashTable.new ⟨0, 0⟩ : HashTable Nat Nat 2 9) (ops ++ [.getMut 1 id]) = .ok (h, outs) ∧
      h.bucket 1 = .ok 1 ∧ h.findLoop 1 1 1 = .ok 1) := by
  intro ops
  exact ⟨⟨_, _, _, rfl, rfl, rfl, rfl⟩, _, _, rfl, rfl, rfl⟩

end Sokoban.Props
