import Verif.Proof.Interchange
import Verif.Props.HashTable

/-
Property theorems C52: the four maps give the same answers.
-/
namespace Sokoban.Props
open MapSpec
variable {K V : Type} {B N M : Nat}

/-- C52, `RedBlackTree` and `AVLTree`: every history, also at capacity, has the same results on
both; afterwards all queries and all ways of iterating give the same. -/
theorem C52_rb_avl_agree [LinearOrder K] (hM0 : 0 < M) (hM : M + 1 < 2 ^ 32) (z : RBNode K V) (z' : AVLNode K V)
    (ops : List (Op K V)) :
    ∃ (rb : RedBlackTree K V M) (av : AVLTree K V M) (outs : List (Out K V)),
      run RedBlackSpec.call (RedBlackTree.new z) (ops.map .map) = .ok (rb, outs.map .map) ∧
      run AVLSpec.call (AVLTree.new z') ops = .ok (av, outs) ∧
      (∀ k, ∃ r, rb.get k = .ok r ∧ av.get k = .ok r) ∧ (∀ k, rb.contains k = av.contains k) ∧
      (∀ k, rb.index k = av.index k) ∧ rb.len = av.len ∧ rb.isEmpty = av.isEmpty ∧
      ∀ es, ∃ it it' items, drive (RedBlackTree.Iter.next rb) (RedBlackTree.Iter.nextBack rb) rb.iter es = .ok (it, items) ∧
        drive (AVLTree.Iter.next av) (AVLTree.Iter.nextBack av) av.iter es = .ok (it', items) := by
  obtain ⟨t, os, E, m, e, h, hm, hs⟩ := RedBlackTree.run_new hM hM0 z (ops.map .map)
  obtain ⟨os, rfl, hs0⟩ := tsteps_map hs
  obtain ⟨t', os', E', m', e', h', hm', hs'⟩ := AVLTree.run_new hM hM0 z' ops
  obtain ⟨rfl, rfl⟩ := tree_tree hs0 hs'
  have L := RedBlackTree.laws (K := K) (V := V) hM hM0
  have L' := AVLTree.laws (K := K) (V := V) hM hM0
  obtain ⟨o1, o2, o3, o4, _, o5⟩ := L.observe h hm
  obtain ⟨p1, p2, p3, p4, _, p5⟩ := L'.observe h' hm'
  refine ⟨t, t', os, e, e', fun k => ⟨_, o1 k, p1 k⟩, fun k => (o2 k).trans (p2 k).symm, fun k => (o3 k).trans (p3 k).symm,
    o4.trans p4.symm, o5.trans p5.symm, fun es => ?_⟩
  obtain ⟨it, d⟩ := L.drive h es
  obtain ⟨it', d'⟩ := L'.drive h' es
  have hE := sorted_unique hm hm' (by rw [List.pairwise_map]; exact L.sorted h) (by rw [List.pairwise_map]; exact L'.sorted h')
  rw [← hE] at d'
  exact ⟨it, it', _, d, d'⟩

/-- C52, `RedBlackTree` and `HashTable`: every history without `iter_mut`, also at capacity, has
the same results on both, whatever the hash function; afterwards all queries give the same, and
iterating forwards yields the same entries, on the table in some other order. -/
theorem C52_rb_hash_agree [LinearOrder K] (hM0 : 0 < M) (hM : M + 1 < 2 ^ 32) (hB : 0 < B) (hash : K → Nat)
    (z : RBNode K V) (z' : HashNode K V) (ops : List (Op K V)) (hops : NoIterMut ops) :
    ∃ (rb : RedBlackTree K V M) (ht : HashTable K V B M) (outs : List (Out K V)),
      run RedBlackSpec.call (RedBlackTree.new z) (ops.map .map) = .ok (rb, outs.map .map) ∧
      run (HashTableSpec.call hash) (HashTable.new z') ops = .ok (ht, outs) ∧
      (∀ k, ∃ r, rb.get k = .ok r ∧ ht.get hash k = .ok r) ∧ (∀ k, rb.contains k = ht.contains hash k) ∧
      (∀ k, rb.index k = ht.index hash k) ∧ rb.len = ht.len ∧ rb.isEmpty = ht.isEmpty ∧
      ∃ L L' : List (K × V), ∃ itH, ht.iter = .ok itH ∧ L.Perm L' ∧ ∀ n, ∃ it it',
        drive (RedBlackTree.Iter.next rb) (RedBlackTree.Iter.nextBack rb) rb.iter (List.replicate n .front) =
          .ok (it, consume L (List.replicate n .front)) ∧
        drive (HashTable.Iter.next ht) HashTable.Iter.nextBack itH (List.replicate n .front) =
          .ok (it', consume L' (List.replicate n .front)) := by
  obtain ⟨t, os, E, m, e, h, hm, hs⟩ := RedBlackTree.run_new hM hM0 z (ops.map .map)
  obtain ⟨os, rfl, hs0⟩ := tsteps_map hs
  obtain ⟨t', os', m', e', hs', p1, p2, _, p3, p4, _, p5⟩ := C15_hash_refines_map (M := M) hB hM hash z' ops
  obtain ⟨rfl, rfl⟩ := tree_hash hops hs0 hs'
  have L := RedBlackTree.laws (K := K) (V := V) hM hM0
  obtain ⟨o1, o2, o3, o4, _, o5⟩ := L.observe h hm
  refine ⟨t, t', os, e, e', fun k => ⟨_, o1 k, p1 k⟩, fun k => (o2 k).trans (p2 k).symm, fun k => (o3 k).trans (p3 k).symm,
    o4.trans p4.symm, o5.trans p5.symm, ?_⟩
  obtain ⟨l, itH, i1, i2, i3, i4, i5⟩ := C17_hash_iter hB hM hash z' ops e'
  refine ⟨E.map Prod.snd, l, itH, i1, ?_, fun n => ?_⟩
  · refine hm.of_perm_perm ⟨i2, fun k v => ?_, by rw [i4, p4]⟩
    rw [i3, p1]; simp
  · obtain ⟨it, d⟩ := L.drive h (List.replicate n .front)
    obtain ⟨it', d'⟩ := i5 n
    exact ⟨it, it', d, d'⟩

/-- C52, `RedBlackTree` and `Critbit`: every history in which no `insert` happens at capacity has
the same results on both; afterwards all queries and all ways of iterating give the same. -/
theorem C52_rb_critbit_agree (hM0 : 0 < M) (hNM : 2 * M ≤ N) (hN : N + 1 < 2 ^ 32) (z : RBNode (BitVec 128) V)
    (z' : CritbitNode) (w : V) (ops : List (Op (BitVec 128) V)) (hops : Below M ∅ ops) :
    ∃ (rb : RedBlackTree (BitVec 128) V M) (cb : Critbit V N M) (outs : List (Out (BitVec 128) V)),
      run RedBlackSpec.call (RedBlackTree.new z) (ops.map .map) = .ok (rb, outs.map .map) ∧
      run CritbitSpec.call (Critbit.new z' w) ops = .ok (cb, outs) ∧
      (∀ k, ∃ r, rb.get k = .ok r ∧ cb.get k = .ok r) ∧ (∀ k, rb.contains k = cb.contains k) ∧
      (∀ k, rb.index k = cb.index k) ∧ rb.len = cb.len ∧ rb.isEmpty = cb.isEmpty ∧
      ∀ es, ∃ it it' items, drive (RedBlackTree.Iter.next rb) (RedBlackTree.Iter.nextBack rb) rb.iter es = .ok (it, items) ∧
        drive (Critbit.Iter.next cb) (Critbit.Iter.nextBack cb) cb.iter es = .ok (it', items) := by
  have hM : M + 1 < 2 ^ 32 := by omega
  obtain ⟨t, os, E, m, e, h, hm, hs⟩ := RedBlackTree.run_new hM hM0 z (ops.map .map)
  obtain ⟨os, rfl, hs0⟩ := tsteps_map hs
  obtain ⟨t', os', E', m', e', h', hm', hs'⟩ := Critbit.run_new hN hNM hM0 z' w ops
  obtain ⟨rfl, rfl⟩ := tree_critbit (S := ∅) ⟨by simp [FMap.empty], rfl⟩ hops hs0 hs'
  have L := RedBlackTree.laws (K := BitVec 128) (V := V) hM hM0
  have L' := Critbit.laws (V := V) hN hNM hM0
  obtain ⟨o1, o2, o3, o4, _, o5⟩ := L.observe h hm
  obtain ⟨p1, p2, p3, p4, _, p5⟩ := L'.observe h' hm'
  refine ⟨t, t', os, e, e', fun k => ⟨_, o1 k, p1 k⟩, fun k => (o2 k).trans (p2 k).symm, fun k => (o3 k).trans (p3 k).symm,
    o4.trans p4.symm, o5.trans p5.symm, fun es => ?_⟩
  obtain ⟨it, d⟩ := L.drive h es
  obtain ⟨it', d'⟩ := L'.drive h' es
  have hE := sorted_unique hm hm' (by rw [List.pairwise_map]; exact L.sorted h) (by rw [List.pairwise_map]; exact L'.sorted h')
  rw [← hE] at d'
  exact ⟨it, it', _, d, d'⟩

/-- C52: every history of `insert`, `remove` and `get_mut` over `u128` keys in which no `insert`
happens at capacity has the same results on all four maps, and afterwards they agree on every
`get`, on `len` and, the ordered three, on every way of iterating. -/
theorem C52_all_maps_agree (hM0 : 0 < M) (hNM : 2 * M ≤ N) (hN : N + 1 < 2 ^ 32) (hB : 0 < B)
    (hash : BitVec 128 → Nat) (z : RBNode (BitVec 128) V) (z₁ : AVLNode (BitVec 128) V) (z₂ : HashNode (BitVec 128) V)
    (z₃ : CritbitNode) (w : V) (ops : List (Op (BitVec 128) V)) (hops : Below M ∅ ops) (hni : NoIterMut ops) :
    ∃ (rb : RedBlackTree (BitVec 128) V M) (av : AVLTree (BitVec 128) V M) (ht : HashTable (BitVec 128) V B M)
      (cb : Critbit V N M) (outs : List (Out (BitVec 128) V)),
      run RedBlackSpec.call (RedBlackTree.new z) (ops.map .map) = .ok (rb, outs.map .map) ∧
      run AVLSpec.call (AVLTree.new z₁) ops = .ok (av, outs) ∧
      run (HashTableSpec.call hash) (HashTable.new z₂) ops = .ok (ht, outs) ∧
      run CritbitSpec.call (Critbit.new z₃ w) ops = .ok (cb, outs) ∧
      (∀ k, ∃ r, rb.get k = .ok r ∧ av.get k = .ok r ∧ ht.get hash k = .ok r ∧ cb.get k = .ok r) ∧
      (∃ n, rb.len = n ∧ av.len = n ∧ ht.len = n ∧ cb.len = n) ∧
      ∀ es, ∃ it it₁ it₃ items,
        drive (RedBlackTree.Iter.next rb) (RedBlackTree.Iter.nextBack rb) rb.iter es = .ok (it, items) ∧
        drive (AVLTree.Iter.next av) (AVLTree.Iter.nextBack av) av.iter es = .ok (it₁, items) ∧
        drive (Critbit.Iter.next cb) (Critbit.Iter.nextBack cb) cb.iter es = .ok (it₃, items) := by
  have hM : M + 1 < 2 ^ 32 := by omega
  have inj : ∀ {a b : List (Out (BitVec 128) V)}, a.map RedBlackSpec.TOut.map = b.map RedBlackSpec.TOut.map → a = b := by
    intro a b h
    exact List.map_injective_iff.2 (fun _ _ h => by cases h; rfl) h
  obtain ⟨rb, av, outs, r1, a1, g1, _, _, l1, _, i1⟩ := C52_rb_avl_agree hM0 hM z z₁ ops
  obtain ⟨rb', ht, outs', r2, a2, g2, _, _, l2, _⟩ := C52_rb_hash_agree (B := B) hM0 hM hB hash z z₂ ops hni
  obtain ⟨rb'', cb, outs'', r3, a3, g3, _, _, l3, _, i3⟩ := C52_rb_critbit_agree hM0 hNM hN z z₃ w ops hops
  rw [r1] at r2 r3
  injection r2 with r2; injection r2 with r2 q2
  injection r3 with r3; injection r3 with r3 q3
  obtain rfl := inj q2
  obtain rfl := inj q3
  subst r2; subst r3
  refine ⟨rb, av, ht, cb, outs, r1, a1, a2, a3, fun k => ?_, ⟨_, rfl, l1.symm, l2.symm, l3.symm⟩, fun es => ?_⟩
  · obtain ⟨r, x1, y1⟩ := g1 k
    obtain ⟨r', x2, y2⟩ := g2 k
    obtain ⟨r'', x3, y3⟩ := g3 k
    rw [x1] at x2 x3
    cases x2; cases x3
    exact ⟨r, x1, y1, y2, y3⟩
  · obtain ⟨it, it1, items, x1, y1⟩ := i1 es
    obtain ⟨it', it3, items', x3, y3⟩ := i3 es
    rw [x1] at x3
    cases x3
    exact ⟨it, it1, it3, items, x1, y1, y3⟩

/-! ### non-vacuity -/

/-- A history that satisfies the hypotheses: inserts that fill a map of capacity 2, an update below
capacity, removals and a later insert. -/
example : Below (V := Nat) 2 (∅ : Finset (BitVec 128))
    [.insert 5 50, .insert 5 51, .insert 4 40, .getMut 4 (· + 1), .remove 5, .insert 9 90, .remove 1] ∧
    NoIterMut (V := Nat) (K := BitVec 128)
      [.insert 5 50, .insert 5 51, .insert 4 40, .getMut 4 (· + 1), .remove 5, .insert 9 90, .remove 1] := by
  refine ⟨⟨by decide, by decide, by decide, by decide, trivial⟩, fun es => by simp⟩

/-- At capacity the critbit tree differs (C43): `Below` cannot be dropped. -/
example : ¬ Below (V := Nat) 1 (∅ : Finset (BitVec 128)) [.insert 5 50, .insert 5 51] := by
  intro h; exact absurd h.2.1 (by decide)

end Sokoban.Props
