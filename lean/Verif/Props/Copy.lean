import Verif.Proof.Copy
import Verif.Props.HashTable

/-
Property theorems C88: filling a map from a list of entries, and copying a map by iterating over it.
-/
namespace Sokoban.Props
open MapSpec
variable {K V : Type} {B N M : Nat}

/-- **C88**, red-black tree: inserting any list of entries with distinct keys, in any order, into a new tree with room for
them succeeds for each of them; then the tree holds exactly these entries and iterates over them in ascending order. -/
theorem C88_rb_fill [LinearOrder K] (hM0 : 0 < M) (hM : M + 1 < 2 ^ 32) (z : RBNode K V) (ps : List (K × V))
    (hn : (ps.map Prod.fst).Nodup) (hl : ps.length ≤ M) :
    ∃ (t : RedBlackTree K V M) (L : List (K × V)),
      run RedBlackSpec.call (RedBlackTree.new z) (ps.map fun e => .map (.insert e.1 e.2)) =
        .ok (t, List.replicate ps.length (.map (.inserted true))) ∧
      (∀ k, ∃ r, t.get k = .ok r ∧ ∀ v, r = some v ↔ (k, v) ∈ ps) ∧ t.len = ps.length ∧
      L.Perm ps ∧ L.Pairwise (fun a b => a.1 < b.1) ∧
      ∀ es, ∃ it, drive (RedBlackTree.Iter.next t) (RedBlackTree.Iter.nextBack t) t.iter es = .ok (it, consume L es) := by
  have hops : (ps.map fun e => RedBlackSpec.TOp.map (Op.insert e.1 e.2)) =
      (ps.map fun e => Op.insert e.1 e.2).map RedBlackSpec.TOp.map := by rw [List.map_map]; rfl
  obtain ⟨t, os, E, m, e, h, hm, hs⟩ := RedBlackTree.run_new hM hM0 z ((ps.map fun e => Op.insert e.1 e.2).map .map)
  obtain ⟨os, rfl, hs0⟩ := tsteps_map hs
  obtain ⟨rfl, hps⟩ := fill_empty (R := treeRules K V M) (fun _ _ h => h.2) hn hl hs0
  have L := RedBlackTree.laws (K := K) (V := V) hM hM0
  obtain ⟨o1, _, _, o4, _, _⟩ := L.observe h hm
  refine ⟨t, E.map Prod.snd, by rw [hops, e, List.map_replicate], fun k => ⟨_, o1 k, fun v => (hps.mem k v).symm⟩,
    o4.trans hps.len, hm.of_perm_perm hps, by rw [List.pairwise_map]; exact L.sorted h, L.drive h⟩

/-- **C88**, AVL tree. -/
theorem C88_avl_fill [LinearOrder K] (hM0 : 0 < M) (hM : M + 1 < 2 ^ 32) (z : AVLNode K V) (ps : List (K × V))
    (hn : (ps.map Prod.fst).Nodup) (hl : ps.length ≤ M) :
    ∃ (t : AVLTree K V M) (L : List (K × V)),
      run AVLSpec.call (AVLTree.new z) (ps.map fun e => .insert e.1 e.2) =
        .ok (t, List.replicate ps.length (.inserted true)) ∧
      (∀ k, ∃ r, t.get k = .ok r ∧ ∀ v, r = some v ↔ (k, v) ∈ ps) ∧ t.len = ps.length ∧
      L.Perm ps ∧ L.Pairwise (fun a b => a.1 < b.1) ∧
      ∀ es, ∃ it, drive (AVLTree.Iter.next t) (AVLTree.Iter.nextBack t) t.iter es = .ok (it, consume L es) := by
  obtain ⟨t, os, E, m, e, h, hm, hs⟩ := AVLTree.run_new hM hM0 z (ps.map fun e => Op.insert e.1 e.2)
  obtain ⟨rfl, hps⟩ := fill_empty (R := treeRules K V M) (fun _ _ h => h.2) hn hl hs
  have L := AVLTree.laws (K := K) (V := V) hM hM0
  obtain ⟨o1, _, _, o4, _, _⟩ := L.observe h hm
  exact ⟨t, E.map Prod.snd, e, fun k => ⟨_, o1 k, fun v => (hps.mem k v).symm⟩,
    o4.trans hps.len, hm.of_perm_perm hps, by rw [List.pairwise_map]; exact L.sorted h, L.drive h⟩

/-- **C88**, critbit tree. -/
theorem C88_critbit_fill (hM0 : 0 < M) (hNM : 2 * M ≤ N) (hN : N + 1 < 2 ^ 32) (z : CritbitNode) (w : V)
    (ps : List (BitVec 128 × V)) (hn : (ps.map Prod.fst).Nodup) (hl : ps.length ≤ M) :
    ∃ (t : Critbit V N M) (L : List (BitVec 128 × V)),
      run CritbitSpec.call (Critbit.new z w) (ps.map fun e => .insert e.1 e.2) =
        .ok (t, List.replicate ps.length (.inserted true)) ∧
      (∀ k, ∃ r, t.get k = .ok r ∧ ∀ v, r = some v ↔ (k, v) ∈ ps) ∧ t.len = ps.length ∧
      L.Perm ps ∧ L.Pairwise (fun a b => a.1 < b.1) ∧
      ∀ es, ∃ it, drive (Critbit.Iter.next t) (Critbit.Iter.nextBack t) t.iter es = .ok (it, consume L es) := by
  obtain ⟨t, os, E, m, e, h, hm, hs⟩ := Critbit.run_new hN hNM hM0 z w (ps.map fun e => Op.insert e.1 e.2)
  obtain ⟨rfl, hps⟩ := fill_empty (R := critbitRules (BitVec 128) V M) (fun _ _ h => h) hn hl hs
  have L := Critbit.laws (V := V) hN hNM hM0
  obtain ⟨o1, _, _, o4, _, _⟩ := L.observe h hm
  exact ⟨t, E.map Prod.snd, e, fun k => ⟨_, o1 k, fun v => (hps.mem k v).symm⟩,
    o4.trans hps.len, hm.of_perm_perm hps, by rw [List.pairwise_map]; exact L.sorted h, L.drive h⟩

/-- **C88**, hash table: the same, in some order. -/
theorem C88_hash_fill [DecidableEq K] (hB : 0 < B) (hM : M + 1 < 2 ^ 32) (hash : K → Nat) (z : HashNode K V)
    (ps : List (K × V)) (hn : (ps.map Prod.fst).Nodup) (hl : ps.length ≤ M) :
    ∃ (t : HashTable K V B M) (L : List (K × V)) (it : HashTable.Iter),
      run (HashTableSpec.call hash) (HashTable.new z) (ps.map fun e => .insert e.1 e.2) =
        .ok (t, List.replicate ps.length (.inserted true)) ∧
      (∀ k, ∃ r, t.get hash k = .ok r ∧ ∀ v, r = some v ↔ (k, v) ∈ ps) ∧ t.len = ps.length ∧
      L.Perm ps ∧ t.iter = .ok it ∧
      ∀ n, ∃ it', drive (HashTable.Iter.next t) HashTable.Iter.nextBack it (List.replicate n .front) =
        .ok (it', consume L (List.replicate n .front)) := by
  obtain ⟨t, os, m, e, hs, p1, _, _, _, p4, _, _⟩ :=
    C15_hash_refines_map (M := M) hB hM hash z (ps.map fun e => Op.insert e.1 e.2)
  obtain ⟨rfl, hps⟩ := fill_empty (R := hashRules K V M) (fun _ _ h => h.2) hn hl hs
  obtain ⟨l, it, i1, i2, i3, i4, i5⟩ := C17_hash_iter hB hM hash z _ e
  refine ⟨t, l, it, e, fun k => ⟨_, p1 k, fun v => (hps.mem k v).symm⟩, p4.trans hps.len, ?_, i1, i5⟩
  refine FMap.Lists.of_perm_perm (m := m) ⟨i2, fun k v => ?_, by rw [i4, p4]⟩ hps
  rw [i3, p1]; simp

private theorem get_same {r r' : R (Option V)} {o o' : Option V} (h : r = .ok o) (h' : r' = .ok o')
    {P : V → Prop} (hp : ∀ v, o = some v ↔ P v) (hp' : ∀ v, r' = .ok (some v) ↔ P v) : r = r' := by
  subst h h'
  have : o = o' := Option.ext fun v => by
    have := hp' v
    simp only [Except.ok.injEq] at this
    rw [hp, this]
  rw [this]

/-- **C88**, copying a red-black tree after any history into a new one of any capacity that suffices: iterate over the
old tree and insert what it yields, in whatever order. The copy answers all lookups as the original does, and iterates
in the same way from both ends. -/
theorem C88_rb_copy [LinearOrder K] (hM0 : 0 < M) (hM : M + 1 < 2 ^ 32) (z : RBNode K V)
    (ops : List (RedBlackSpec.TOp K V)) {s : RedBlackTree K V M} {outs : List (RedBlackSpec.TOut K V)}
    (hrun : run RedBlackSpec.call (RedBlackTree.new z) ops = .ok (s, outs)) :
    ∃ L : List (K × V), L.length = s.len ∧
      (∀ es, ∃ it, drive (RedBlackTree.Iter.next s) (RedBlackTree.Iter.nextBack s) s.iter es = .ok (it, consume L es)) ∧
      ∀ (L' : List (K × V)) (M' : Nat) (z' : RBNode K V), L'.Perm L → 0 < M' → M' + 1 < 2 ^ 32 → s.len ≤ M' →
        ∃ (t : RedBlackTree K V M'),
          run RedBlackSpec.call (RedBlackTree.new z') (L'.map fun e => .map (.insert e.1 e.2)) =
            .ok (t, List.replicate L'.length (.map (.inserted true))) ∧
          (∀ k, t.get k = s.get k) ∧ t.len = s.len ∧
          ∀ es, ∃ it, drive (RedBlackTree.Iter.next t) (RedBlackTree.Iter.nextBack t) t.iter es = .ok (it, consume L es) := by
  obtain ⟨s0, os, E, m, e, h, hm, hs⟩ := RedBlackTree.run_new hM hM0 z ops
  rw [hrun] at e; cases e
  have Q := RedBlackTree.laws (K := K) (V := V) hM hM0
  obtain ⟨o1, _, _, o4, _, _⟩ := Q.observe h hm
  have o4 : s.len = m.len := o4
  refine ⟨E.map Prod.snd, by rw [o4, hm.len], Q.drive h, fun L' M' z' hp hM0' hM' hle => ?_⟩
  have hL' := lists_perm hm hp
  obtain ⟨t, L, e', g, hl, hpl, hso, hd⟩ := C88_rb_fill hM0' hM' z' L' hL'.nodup (by rw [← hL'.len, ← o4]; exact hle)
  have hLE : L = E.map Prod.snd := sorted_unique (lists_perm hL' hpl) hm hso (by rw [List.pairwise_map]; exact Q.sorted h)
  subst hLE
  refine ⟨t, e', fun k => ?_, by rw [hl, ← hL'.len, o4], hd⟩
  obtain ⟨r, h1, h2⟩ := g k
  exact get_same h1 (o1 k) h2 fun v => by
    have : s.get k = .ok (m.get k) := o1 k
    rw [this, hL'.mem]; simp

/-- **C88**, copying an AVL tree. -/
theorem C88_avl_copy [LinearOrder K] (hM0 : 0 < M) (hM : M + 1 < 2 ^ 32) (z : AVLNode K V)
    (ops : List (Op K V)) {s : AVLTree K V M} {outs : List (Out K V)}
    (hrun : run AVLSpec.call (AVLTree.new z) ops = .ok (s, outs)) :
    ∃ L : List (K × V), L.length = s.len ∧
      (∀ es, ∃ it, drive (AVLTree.Iter.next s) (AVLTree.Iter.nextBack s) s.iter es = .ok (it, consume L es)) ∧
      ∀ (L' : List (K × V)) (M' : Nat) (z' : AVLNode K V), L'.Perm L → 0 < M' → M' + 1 < 2 ^ 32 → s.len ≤ M' →
        ∃ (t : AVLTree K V M'),
          run AVLSpec.call (AVLTree.new z') (L'.map fun e => .insert e.1 e.2) =
            .ok (t, List.replicate L'.length (.inserted true)) ∧
          (∀ k, t.get k = s.get k) ∧ t.len = s.len ∧
          ∀ es, ∃ it, drive (AVLTree.Iter.next t) (AVLTree.Iter.nextBack t) t.iter es = .ok (it, consume L es) := by
  obtain ⟨s0, os, E, m, e, h, hm, hs⟩ := AVLTree.run_new hM hM0 z ops
  rw [hrun] at e; cases e
  have Q := AVLTree.laws (K := K) (V := V) hM hM0
  obtain ⟨o1, _, _, o4, _, _⟩ := Q.observe h hm
  have o4 : s.len = m.len := o4
  refine ⟨E.map Prod.snd, by rw [o4, hm.len], Q.drive h, fun L' M' z' hp hM0' hM' hle => ?_⟩
  have hL' := lists_perm hm hp
  obtain ⟨t, L, e', g, hl, hpl, hso, hd⟩ := C88_avl_fill hM0' hM' z' L' hL'.nodup (by rw [← hL'.len, ← o4]; exact hle)
  have hLE : L = E.map Prod.snd := sorted_unique (lists_perm hL' hpl) hm hso (by rw [List.pairwise_map]; exact Q.sorted h)
  subst hLE
  refine ⟨t, e', fun k => ?_, by rw [hl, ← hL'.len, o4], hd⟩
  obtain ⟨r, h1, h2⟩ := g k
  exact get_same h1 (o1 k) h2 fun v => by
    have : s.get k = .ok (m.get k) := o1 k
    rw [this, hL'.mem]; simp

/-- **C88**, copying a critbit tree; the copy may have other numbers of leaves and nodes. -/
theorem C88_critbit_copy (hM0 : 0 < M) (hNM : 2 * M ≤ N) (hN : N + 1 < 2 ^ 32) (z : CritbitNode) (w : V)
    (ops : List (Op (BitVec 128) V)) {s : Critbit V N M} {outs : List (Out (BitVec 128) V)}
    (hrun : run CritbitSpec.call (Critbit.new z w) ops = .ok (s, outs)) :
    ∃ L : List (BitVec 128 × V), L.length = s.len ∧
      (∀ es, ∃ it, drive (Critbit.Iter.next s) (Critbit.Iter.nextBack s) s.iter es = .ok (it, consume L es)) ∧
      ∀ (L' : List (BitVec 128 × V)) (N' M' : Nat) (z' : CritbitNode) (w' : V), L'.Perm L → 0 < M' → 2 * M' ≤ N' →
        N' + 1 < 2 ^ 32 → s.len ≤ M' →
        ∃ (t : Critbit V N' M'),
          run CritbitSpec.call (Critbit.new z' w') (L'.map fun e => .insert e.1 e.2) =
            .ok (t, List.replicate L'.length (.inserted true)) ∧
          (∀ k, t.get k = s.get k) ∧ t.len = s.len ∧
          ∀ es, ∃ it, drive (Critbit.Iter.next t) (Critbit.Iter.nextBack t) t.iter es = .ok (it, consume L es) := by
  obtain ⟨s0, os, E, m, e, h, hm, hs⟩ := Critbit.run_new hN hNM hM0 z w ops
  rw [hrun] at e; cases e
  have Q := Critbit.laws (V := V) hN hNM hM0
  obtain ⟨o1, _, _, o4, _, _⟩ := Q.observe h hm
  have o4 : s.len = m.len := o4
  refine ⟨E.map Prod.snd, by rw [o4, hm.len], Q.drive h, fun L' N' M' z' w' hp hM0' hNM' hN' hle => ?_⟩
  have hL' := lists_perm hm hp
  obtain ⟨t, L, e', g, hl, hpl, hso, hd⟩ :=
    C88_critbit_fill hM0' hNM' hN' z' w' L' hL'.nodup (by rw [← hL'.len, ← o4]; exact hle)
  have hLE : L = E.map Prod.snd := sorted_unique (lists_perm hL' hpl) hm hso (by rw [List.pairwise_map]; exact Q.sorted h)
  subst hLE
  refine ⟨t, e', fun k => ?_, by rw [hl, ← hL'.len, o4], hd⟩
  obtain ⟨r, h1, h2⟩ := g k
  exact get_same h1 (o1 k) h2 fun v => by
    have : s.get k = .ok (m.get k) := o1 k
    rw [this, hL'.mem]; simp

/-- **C88**, copying a hash table; the copy may have another number of buckets, another capacity and another hash
function. -/
theorem C88_hash_copy [DecidableEq K] (hB : 0 < B) (hM : M + 1 < 2 ^ 32) (hash : K → Nat) (z : HashNode K V)
    (ops : List (Op K V)) {s : HashTable K V B M} {outs : List (Out K V)}
    (hrun : run (HashTableSpec.call hash) (HashTable.new z) ops = .ok (s, outs)) :
    ∃ (L : List (K × V)) (it : HashTable.Iter), L.length = s.len ∧ s.iter = .ok it ∧
      (∀ n, ∃ it', drive (HashTable.Iter.next s) HashTable.Iter.nextBack it (List.replicate n .front) =
        .ok (it', consume L (List.replicate n .front))) ∧
      ∀ (L' : List (K × V)) (B' M' : Nat) (hash' : K → Nat) (z' : HashNode K V), L'.Perm L → 0 < B' → M' + 1 < 2 ^ 32 →
        s.len ≤ M' →
        ∃ (t : HashTable K V B' M'),
          run (HashTableSpec.call hash') (HashTable.new z') (L'.map fun e => .insert e.1 e.2) =
            .ok (t, List.replicate L'.length (.inserted true)) ∧
          (∀ k, t.get hash' k = s.get hash k) ∧ t.len = s.len := by
  obtain ⟨s0, os, m, e, _, p1, _, _, _, p4, _, _⟩ := C15_hash_refines_map (M := M) hB hM hash z ops
  rw [hrun] at e; cases e
  obtain ⟨l, it, i1, i2, i3, i4, i5⟩ := C17_hash_iter hB hM hash z _ hrun
  have hm : m.Lists l := ⟨i2, fun k v => by rw [i3, p1]; simp, by rw [i4, p4]⟩
  refine ⟨l, it, i4, i1, i5, fun L' B' M' hash' z' hp hB' hM' hle => ?_⟩
  have hL' := lists_perm hm hp
  obtain ⟨t, L, _, e', g, hl, _, _, _⟩ := C88_hash_fill hB' hM' hash' z' L' hL'.nodup (by rw [← hL'.len, ← p4]; exact hle)
  refine ⟨t, e', fun k => ?_, by rw [hl, ← hL'.len, p4]⟩
  obtain ⟨r, h1, h2⟩ := g k
  exact get_same h1 (p1 k) h2 fun v => by rw [p1, hL'.mem]; simp

/-! Cases. -/

/-- a list that meets the hypotheses of the filling theorems -/
example : (([(5, 50), (3, 30), (9, 90)] : List (Nat × Nat)).map Prod.fst).Nodup ∧ 3 ≤ 4 := by decide

/-- a tree of capacity 4 after a history with a removal and an update, with room for its copy of capacity 2 -/
example : ∃ (s : RedBlackTree Nat Nat 4) (outs : _),
    run RedBlackSpec.call (RedBlackTree.new ⟨0, 0⟩)
      [.map (.insert 5 50), .map (.insert 3 30), .map (.insert 9 90), .map (.remove 5), .map (.insert 3 31)] =
      .ok (s, outs) ∧ s.len = 2 := ⟨_, _, rfl, rfl⟩

/-- a table with two buckets, whose copy with three buckets and another hash function has the same entries -/
example : ∃ (s : HashTable Nat Nat 2 4) (t : HashTable Nat Nat 3 2) (outs outs' : _),
    run (HashTableSpec.call id) (HashTable.new ⟨0, 0⟩) [.insert 5 50, .insert 3 30, .insert 9 90, .remove 5] =
      .ok (s, outs) ∧
    run (HashTableSpec.call (· / 2)) (HashTable.new ⟨0, 0⟩) [.insert 9 90, .insert 3 30] = .ok (t, outs') ∧
    s.get id 9 = .ok (some 90) ∧ t.get (· / 2) 9 = .ok (some 90) ∧ t.get (· / 2) 5 = .ok none := ⟨_, _, _, _, rfl, rfl, rfl, rfl, rfl⟩

end Sokoban.Props
