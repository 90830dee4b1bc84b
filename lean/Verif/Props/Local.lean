import Verif.Proof.Local
import Verif.Props.Caprice

/-
Property theorems C97: every key of a map is a variable of its own, only the present map counts for what follows, and
calls on different keys commute unless they compete for the last free slot.
-/
namespace Sokoban.Props
open MapSpec
variable {K V : Type} {B N M : Nat}

/-! ### every key is a variable of its own -/

/-- C97 for the red-black tree: the calls on `k` that are not refused have the results of the same calls on a single
optional value, whatever is done to other keys in between, and `get` shows that value. -/
theorem C97_rb_local [LinearOrder K] (hM : M + 1 < 2 ^ 32) (hM0 : 0 < M) (z : RBNode K V) {ops : List (Op K V)}
    (hi : NoIterMut ops) {t : RedBlackTree K V M} {outs : List (Out K V)}
    (hrun : run RedBlackSpec.api.call (RedBlackTree.new z) ops = .ok (t, outs)) (k : K) :
    ∃ c, cellRun none ((accepted k ops outs).map Prod.fst) = ((accepted k ops outs).map Prod.snd, c) ∧ t.get k = .ok c :=
  (RedBlackTree.model hM hM0).local_key (m := FMap.empty) ⟨[], RedBlackTree.Inv.new z, FMap.lists_empty⟩ hi hrun k

/-- C97 for the AVL tree. -/
theorem C97_avl_local [LinearOrder K] (hM : M + 1 < 2 ^ 32) (hM0 : 0 < M) (z : AVLNode K V) {ops : List (Op K V)}
    (hi : NoIterMut ops) {t : AVLTree K V M} {outs : List (Out K V)}
    (hrun : run AVLSpec.call (AVLTree.new z) ops = .ok (t, outs)) (k : K) :
    ∃ c, cellRun none ((accepted k ops outs).map Prod.fst) = ((accepted k ops outs).map Prod.snd, c) ∧ t.get k = .ok c :=
  (AVLTree.model hM hM0).local_key (m := FMap.empty) ⟨[], AVLTree.Inv.new z, FMap.lists_empty⟩ hi hrun k

/-- C97 for the hash table, whatever the hash function. -/
theorem C97_hash_local [DecidableEq K] (hB : 0 < B) (hM : M + 1 < 2 ^ 32) (hash : K → Nat) (z : HashNode K V)
    {ops : List (Op K V)} (hi : NoIterMut ops) {t : HashTable K V B M} {outs : List (Out K V)}
    (hrun : run (HashTableSpec.call hash) (HashTable.new z) ops = .ok (t, outs)) (k : K) :
    ∃ c, cellRun none ((accepted k ops outs).map Prod.fst) = ((accepted k ops outs).map Prod.snd, c) ∧
      t.get hash k = .ok c := by
  obtain ⟨t0, os, c, m, e, H, hm, hs⟩ := HashTable.run_new (M := M) hB hM hash z []
  cases e
  obtain rfl : m = FMap.empty := hs
  exact (HashTable.model hM hash).local_key (m := FMap.empty) ⟨c, H, hm⟩ hi hrun k

/-- C97 for the critbit tree. -/
theorem C97_critbit_local (hN : N + 1 < 2 ^ 32) (hNM : 2 * M ≤ N) (hM0 : 0 < M) (z : CritbitNode) (w : V)
    {ops : List (Op (BitVec 128) V)} (hi : NoIterMut ops) {t : Critbit V N M} {outs : List (Out (BitVec 128) V)}
    (hrun : run CritbitSpec.call (Critbit.new z w) ops = .ok (t, outs)) (k : BitVec 128) :
    ∃ c, cellRun none ((accepted k ops outs).map Prod.fst) = ((accepted k ops outs).map Prod.snd, c) ∧ t.get k = .ok c :=
  (Critbit.model hN hNM hM0).local_key (m := FMap.empty) ⟨[], Critbit.Inv.new z w, FMap.lists_empty⟩ hi hrun k

/-! ### other keys may come in any order -/

/-- C97 for the red-black tree: two histories with the same calls on `k`, in which nothing is refused, give these calls
the same results and leave the same under `k`, whatever the calls on other keys are and wherever they come. -/
theorem C97_rb_reorder [LinearOrder K] (hM : M + 1 < 2 ^ 32) (hM0 : 0 < M) (z : RBNode K V) {ops ops' : List (Op K V)}
    (hi : NoIterMut ops) (hi' : NoIterMut ops') {t t' : RedBlackTree K V M} {outs outs' : List (Out K V)}
    (hrun : run RedBlackSpec.api.call (RedBlackTree.new z) ops = .ok (t, outs))
    (hrun' : run RedBlackSpec.api.call (RedBlackTree.new z) ops' = .ok (t', outs'))
    (hr : ∀ o ∈ outs, o.refusal = false) (hr' : ∀ o ∈ outs', o.refusal = false) (k : K)
    (hk : (ops.filter fun op => decide (op.On k)) = ops'.filter fun op => decide (op.On k)) :
    accepted k ops outs = accepted k ops' outs' ∧ t.get k = t'.get k :=
  (RedBlackTree.model hM hM0).reorder (m := FMap.empty) ⟨[], RedBlackTree.Inv.new z, FMap.lists_empty⟩ hi hi' hrun hrun' hr hr' k hk

/-- C97 for the AVL tree. -/
theorem C97_avl_reorder [LinearOrder K] (hM : M + 1 < 2 ^ 32) (hM0 : 0 < M) (z : AVLNode K V) {ops ops' : List (Op K V)}
    (hi : NoIterMut ops) (hi' : NoIterMut ops') {t t' : AVLTree K V M} {outs outs' : List (Out K V)}
    (hrun : run AVLSpec.call (AVLTree.new z) ops = .ok (t, outs))
    (hrun' : run AVLSpec.call (AVLTree.new z) ops' = .ok (t', outs'))
    (hr : ∀ o ∈ outs, o.refusal = false) (hr' : ∀ o ∈ outs', o.refusal = false) (k : K)
    (hk : (ops.filter fun op => decide (op.On k)) = ops'.filter fun op => decide (op.On k)) :
    accepted k ops outs = accepted k ops' outs' ∧ t.get k = t'.get k :=
  (AVLTree.model hM hM0).reorder (m := FMap.empty) ⟨[], AVLTree.Inv.new z, FMap.lists_empty⟩ hi hi' hrun hrun' hr hr' k hk

/-- C97 for the hash table. -/
theorem C97_hash_reorder [DecidableEq K] (hB : 0 < B) (hM : M + 1 < 2 ^ 32) (hash : K → Nat) (z : HashNode K V)
    {ops ops' : List (Op K V)} (hi : NoIterMut ops) (hi' : NoIterMut ops') {t t' : HashTable K V B M} {outs outs' : List (Out K V)}
    (hrun : run (HashTableSpec.call hash) (HashTable.new z) ops = .ok (t, outs))
    (hrun' : run (HashTableSpec.call hash) (HashTable.new z) ops' = .ok (t', outs'))
    (hr : ∀ o ∈ outs, o.refusal = false) (hr' : ∀ o ∈ outs', o.refusal = false) (k : K)
    (hk : (ops.filter fun op => decide (op.On k)) = ops'.filter fun op => decide (op.On k)) :
    accepted k ops outs = accepted k ops' outs' ∧ t.get hash k = t'.get hash k := by
  obtain ⟨t0, os, c, m, e, H, hm, hs⟩ := HashTable.run_new (M := M) hB hM hash z []
  cases e
  exact (HashTable.model hM hash).reorder (m := m) ⟨c, H, hm⟩ hi hi' hrun hrun' hr hr' k hk

/-- C97 for the critbit tree. -/
theorem C97_critbit_reorder (hN : N + 1 < 2 ^ 32) (hNM : 2 * M ≤ N) (hM0 : 0 < M) (z : CritbitNode) (w : V)
    {ops ops' : List (Op (BitVec 128) V)} (hi : NoIterMut ops) (hi' : NoIterMut ops') {t t' : Critbit V N M}
    {outs outs' : List (Out (BitVec 128) V)}
    (hrun : run CritbitSpec.call (Critbit.new z w) ops = .ok (t, outs))
    (hrun' : run CritbitSpec.call (Critbit.new z w) ops' = .ok (t', outs'))
    (hr : ∀ o ∈ outs, o.refusal = false) (hr' : ∀ o ∈ outs', o.refusal = false) (k : BitVec 128)
    (hk : (ops.filter fun op => decide (op.On k)) = ops'.filter fun op => decide (op.On k)) :
    accepted k ops outs = accepted k ops' outs' ∧ t.get k = t'.get k :=
  (Critbit.model hN hNM hM0).reorder (m := FMap.empty) ⟨[], Critbit.Inv.new z w, FMap.lists_empty⟩ hi hi' hrun hrun' hr hr' k hk

/-! ### only the present map counts -/

/-- C97 for the red-black tree: when `get` finds the same after two histories, all further calls (but `remove_root`) have
the same results, and after them too `get`, `contains`, `Index`, `len`, `is_empty` and the iterations agree. -/
theorem C97_rb_present [LinearOrder K] (hM : M + 1 < 2 ^ 32) (hM0 : 0 < M) (z z' : RBNode K V)
    {hist hist' : List (RedBlackSpec.TOp K V)} {t t' : RedBlackTree K V M} {outs outs' : List (RedBlackSpec.TOut K V)}
    (hrun : run RedBlackSpec.call (RedBlackTree.new z) hist = .ok (t, outs))
    (hrun' : run RedBlackSpec.call (RedBlackTree.new z') hist' = .ok (t', outs')) (hget : ∀ k, t.get k = t'.get k)
    (ops : List (Op K V)) :
    ∃ (s s' : RedBlackTree K V M) (os : List (Out K V)), run RedBlackSpec.api.call t ops = .ok (s, os) ∧
      run RedBlackSpec.api.call t' ops = .ok (s', os) ∧ (∀ k, s.get k = s'.get k) ∧ (∀ k, s.contains k = s'.contains k) ∧
      (∀ k, s.index k = s'.index k) ∧ s.len = s'.len ∧ s.isEmpty = s'.isEmpty ∧
      ∀ es, ∃ it it' items, drive (RedBlackTree.Iter.next s) (RedBlackTree.Iter.nextBack s) s.iter es = .ok (it, items) ∧
        drive (RedBlackTree.Iter.next s') (RedBlackTree.Iter.nextBack s') s'.iter es = .ok (it', items) := by
  obtain ⟨t0, _, E, m, e, h, hm, _⟩ := RedBlackTree.run_new hM hM0 z hist
  rw [hrun] at e; cases e
  obtain ⟨t0', _, E', m', e, h', hm', _⟩ := RedBlackTree.run_new hM hM0 z' hist'
  rw [hrun'] at e; cases e
  obtain ⟨s, s', os, n, e, e', ⟨F, q, hq⟩, ⟨F', q', hq'⟩⟩ := (RedBlackTree.model hM hM0).only_map (Q := fun _ => True)
    (fun _ => tree_det) ⟨E, h, hm⟩ ⟨E', h', hm'⟩ hget (ops := ops) (fun _ _ => trivial)
  have L := RedBlackTree.laws (K := K) (V := V) hM hM0
  obtain ⟨o1, o2, o3, o4, _, o5⟩ := L.observe q hq
  obtain ⟨p1, p2, p3, p4, _, p5⟩ := L.observe q' hq'
  refine ⟨s, s', os, e, e', fun k => (o1 k).trans (p1 k).symm, fun k => (o2 k).trans (p2 k).symm,
    fun k => (o3 k).trans (p3 k).symm, o4.trans p4.symm, o5.trans p5.symm, fun es => ?_⟩
  obtain ⟨it, d⟩ := L.drive q es
  obtain ⟨it', d'⟩ := L.drive q' es
  rw [← sorted_unique hq hq' (by rw [List.pairwise_map]; exact L.sorted q) (by rw [List.pairwise_map]; exact L.sorted q')] at d'
  exact ⟨it, it', _, d, d'⟩

/-- C97 for the AVL tree. -/
theorem C97_avl_present [LinearOrder K] (hM : M + 1 < 2 ^ 32) (hM0 : 0 < M) (z z' : AVLNode K V)
    {hist hist' : List (Op K V)} {t t' : AVLTree K V M} {outs outs' : List (Out K V)}
    (hrun : run AVLSpec.call (AVLTree.new z) hist = .ok (t, outs))
    (hrun' : run AVLSpec.call (AVLTree.new z') hist' = .ok (t', outs')) (hget : ∀ k, t.get k = t'.get k)
    (ops : List (Op K V)) :
    ∃ (s s' : AVLTree K V M) (os : List (Out K V)), run AVLSpec.call t ops = .ok (s, os) ∧
      run AVLSpec.call t' ops = .ok (s', os) ∧ (∀ k, s.get k = s'.get k) ∧ (∀ k, s.contains k = s'.contains k) ∧
      (∀ k, s.index k = s'.index k) ∧ s.len = s'.len ∧ s.isEmpty = s'.isEmpty ∧
      ∀ es, ∃ it it' items, drive (AVLTree.Iter.next s) (AVLTree.Iter.nextBack s) s.iter es = .ok (it, items) ∧
        drive (AVLTree.Iter.next s') (AVLTree.Iter.nextBack s') s'.iter es = .ok (it', items) := by
  obtain ⟨t0, _, E, m, e, h, hm, _⟩ := AVLTree.run_new hM hM0 z hist
  rw [hrun] at e; cases e
  obtain ⟨t0', _, E', m', e, h', hm', _⟩ := AVLTree.run_new hM hM0 z' hist'
  rw [hrun'] at e; cases e
  obtain ⟨s, s', os, n, e, e', ⟨F, q, hq⟩, ⟨F', q', hq'⟩⟩ := (AVLTree.model hM hM0).only_map (Q := fun _ => True)
    (fun _ => tree_det) ⟨E, h, hm⟩ ⟨E', h', hm'⟩ hget (ops := ops) (fun _ _ => trivial)
  have L := AVLTree.laws (K := K) (V := V) hM hM0
  obtain ⟨o1, o2, o3, o4, _, o5⟩ := L.observe q hq
  obtain ⟨p1, p2, p3, p4, _, p5⟩ := L.observe q' hq'
  refine ⟨s, s', os, e, e', fun k => (o1 k).trans (p1 k).symm, fun k => (o2 k).trans (p2 k).symm,
    fun k => (o3 k).trans (p3 k).symm, o4.trans p4.symm, o5.trans p5.symm, fun es => ?_⟩
  obtain ⟨it, d⟩ := L.drive q es
  obtain ⟨it', d'⟩ := L.drive q' es
  rw [← sorted_unique hq hq' (by rw [List.pairwise_map]; exact L.sorted q) (by rw [List.pairwise_map]; exact L.sorted q')] at d'
  exact ⟨it, it', _, d, d'⟩

/-- C97 for the critbit tree. -/
theorem C97_critbit_present (hN : N + 1 < 2 ^ 32) (hNM : 2 * M ≤ N) (hM0 : 0 < M) (z z' : CritbitNode) (w w' : V)
    {hist hist' : List (Op (BitVec 128) V)} {t t' : Critbit V N M} {outs outs' : List (Out (BitVec 128) V)}
    (hrun : run CritbitSpec.call (Critbit.new z w) hist = .ok (t, outs))
    (hrun' : run CritbitSpec.call (Critbit.new z' w') hist' = .ok (t', outs')) (hget : ∀ k, t.get k = t'.get k)
    (ops : List (Op (BitVec 128) V)) :
    ∃ (s s' : Critbit V N M) (os : List (Out (BitVec 128) V)), run CritbitSpec.call t ops = .ok (s, os) ∧
      run CritbitSpec.call t' ops = .ok (s', os) ∧ (∀ k, s.get k = s'.get k) ∧ (∀ k, s.contains k = s'.contains k) ∧
      (∀ k, s.index k = s'.index k) ∧ s.len = s'.len ∧ s.isEmpty = s'.isEmpty ∧
      ∀ es, ∃ it it' items, drive (Critbit.Iter.next s) (Critbit.Iter.nextBack s) s.iter es = .ok (it, items) ∧
        drive (Critbit.Iter.next s') (Critbit.Iter.nextBack s') s'.iter es = .ok (it', items) := by
  obtain ⟨t0, _, E, m, e, h, hm, _⟩ := Critbit.run_new hN hNM hM0 z w hist
  rw [hrun] at e; cases e
  obtain ⟨t0', _, E', m', e, h', hm', _⟩ := Critbit.run_new hN hNM hM0 z' w' hist'
  rw [hrun'] at e; cases e
  obtain ⟨s, s', os, n, e, e', ⟨F, q, hq⟩, ⟨F', q', hq'⟩⟩ := (Critbit.model hN hNM hM0).only_map (Q := fun _ => True)
    (fun _ => critbit_det) ⟨E, h, hm⟩ ⟨E', h', hm'⟩ hget (ops := ops) (fun _ _ => trivial)
  have L := Critbit.laws (V := V) hN hNM hM0
  obtain ⟨o1, o2, o3, o4, _, o5⟩ := L.observe q hq
  obtain ⟨p1, p2, p3, p4, _, p5⟩ := L.observe q' hq'
  refine ⟨s, s', os, e, e', fun k => (o1 k).trans (p1 k).symm, fun k => (o2 k).trans (p2 k).symm,
    fun k => (o3 k).trans (p3 k).symm, o4.trans p4.symm, o5.trans p5.symm, fun es => ?_⟩
  obtain ⟨it, d⟩ := L.drive q es
  obtain ⟨it', d'⟩ := L.drive q' es
  rw [← sorted_unique hq hq' (by rw [List.pairwise_map]; exact L.sorted q) (by rw [List.pairwise_map]; exact L.sorted q')] at d'
  exact ⟨it, it', _, d, d'⟩

/-- C97 for the hash table, without the iterations (for their order see C66). -/
theorem C97_hash_present [DecidableEq K] (hB : 0 < B) (hM : M + 1 < 2 ^ 32) (hash : K → Nat) (z z' : HashNode K V)
    {hist hist' : List (Op K V)} {t t' : HashTable K V B M} {outs outs' : List (Out K V)}
    (hrun : run (HashTableSpec.call hash) (HashTable.new z) hist = .ok (t, outs))
    (hrun' : run (HashTableSpec.call hash) (HashTable.new z') hist' = .ok (t', outs'))
    (hget : ∀ k, t.get hash k = t'.get hash k) {ops : List (Op K V)} (hi : NoIterMut ops) :
    ∃ (s s' : HashTable K V B M) (os : List (Out K V)), run (HashTableSpec.call hash) t ops = .ok (s, os) ∧
      run (HashTableSpec.call hash) t' ops = .ok (s', os) ∧ (∀ k, s.get hash k = s'.get hash k) ∧
      (∀ k, s.contains hash k = s'.contains hash k) ∧ (∀ k, s.index hash k = s'.index hash k) ∧ s.len = s'.len ∧
      s.isEmpty = s'.isEmpty := by
  obtain ⟨t0, _, c, m, e, h, hm, _⟩ := HashTable.run_new (M := M) hB hM hash z hist
  rw [hrun] at e; cases e
  obtain ⟨t0', _, c', m', e, h', hm', _⟩ := HashTable.run_new (M := M) hB hM hash z' hist'
  rw [hrun'] at e; cases e
  obtain ⟨s, s', os, n, e, e', q, q'⟩ := (HashTable.model hM hash).only_map (Q := fun op => ∀ es, op ≠ .iterMut es)
    hash_det ⟨c, h, hm⟩ ⟨c', h', hm'⟩ hget (ops := ops) (fun op hop es he => hi es (he ▸ hop))
  have hg : ∀ k, s.get hash k = s'.get hash k := fun k =>
    ((HashTable.model hM hash).get s n k q).trans ((HashTable.model hM hash).get s' n k q').symm
  have hl : s.len = s'.len := ((HashTable.model hM hash).len s n q).trans ((HashTable.model hM hash).len s' n q').symm
  exact ⟨s, s', os, e, e', hg, fun k => by unfold HashTable.contains; rw [hg], fun k => by unfold HashTable.index; rw [hg],
    hl, by unfold HashTable.isEmpty; rw [hl]⟩

/-! ### calls on different keys commute -/

/-- C97 for the red-black tree: after every history, two calls on different keys have the same results in either order
exactly when they do not compete for room, and then the map is the same too. -/
theorem C97_rb_commute [LinearOrder K] (hM : M + 1 < 2 ^ 32) (hM0 : 0 < M) (z : RBNode K V)
    {hist : List (RedBlackSpec.TOp K V)} {t : RedBlackTree K V M} {outs : List (RedBlackSpec.TOut K V)}
    (hrun : run RedBlackSpec.call (RedBlackTree.new z) hist = .ok (t, outs)) {k k' : K} (hn : k ≠ k') {op op' : Op K V}
    (hk : op.On k) (hk' : op'.On k') :
    ∃ s s' o1 o1' o2 o2', run RedBlackSpec.api.call t [op, op'] = .ok (s, [o1, o1']) ∧
      run RedBlackSpec.api.call t [op', op] = .ok (s', [o2', o2]) ∧
      ((o1 = o2 ∧ o1' = o2') ↔ ¬ Compete t.get t.len M op op') ∧
      (¬ Compete t.get t.len M op op' → ∀ x, s.get x = s'.get x) := by
  obtain ⟨t0, _, E, m, e, h, hm, _⟩ := RedBlackTree.run_new hM hM0 z hist
  rw [hrun] at e; cases e
  exact (RedBlackTree.model hM hM0).commute_new (fun _ _ => Iff.rfl) ⟨E, h, hm⟩ hn hk hk'

/-- C97 for the AVL tree. -/
theorem C97_avl_commute [LinearOrder K] (hM : M + 1 < 2 ^ 32) (hM0 : 0 < M) (z : AVLNode K V)
    {hist : List (Op K V)} {t : AVLTree K V M} {outs : List (Out K V)}
    (hrun : run AVLSpec.call (AVLTree.new z) hist = .ok (t, outs)) {k k' : K} (hn : k ≠ k') {op op' : Op K V}
    (hk : op.On k) (hk' : op'.On k') :
    ∃ s s' o1 o1' o2 o2', run AVLSpec.call t [op, op'] = .ok (s, [o1, o1']) ∧
      run AVLSpec.call t [op', op] = .ok (s', [o2', o2]) ∧
      ((o1 = o2 ∧ o1' = o2') ↔ ¬ Compete t.get t.len M op op') ∧
      (¬ Compete t.get t.len M op op' → ∀ x, s.get x = s'.get x) := by
  obtain ⟨t0, _, E, m, e, h, hm, _⟩ := AVLTree.run_new hM hM0 z hist
  rw [hrun] at e; cases e
  exact (AVLTree.model hM hM0).commute_new (fun _ _ => Iff.rfl) ⟨E, h, hm⟩ hn hk hk'

/-- C97 for the hash table. -/
theorem C97_hash_commute [DecidableEq K] (hB : 0 < B) (hM : M + 1 < 2 ^ 32) (hash : K → Nat) (z : HashNode K V)
    {hist : List (Op K V)} {t : HashTable K V B M} {outs : List (Out K V)}
    (hrun : run (HashTableSpec.call hash) (HashTable.new z) hist = .ok (t, outs)) {k k' : K} (hn : k ≠ k') {op op' : Op K V}
    (hk : op.On k) (hk' : op'.On k') :
    ∃ s s' o1 o1' o2 o2', run (HashTableSpec.call hash) t [op, op'] = .ok (s, [o1, o1']) ∧
      run (HashTableSpec.call hash) t [op', op] = .ok (s', [o2', o2]) ∧
      ((o1 = o2 ∧ o1' = o2') ↔ ¬ Compete (t.get hash) t.len M op op') ∧
      (¬ Compete (t.get hash) t.len M op op' → ∀ x, s.get hash x = s'.get hash x) := by
  obtain ⟨t0, _, c, m, e, h, hm, _⟩ := HashTable.run_new (M := M) hB hM hash z hist
  rw [hrun] at e; cases e
  exact (HashTable.model hM hash).commute_new (fun _ _ => Iff.rfl) ⟨c, h, hm⟩ hn hk hk'

/-- C97 for the critbit tree, in which overwriting needs room too. -/
theorem C97_critbit_commute (hN : N + 1 < 2 ^ 32) (hNM : 2 * M ≤ N) (hM0 : 0 < M) (z : CritbitNode) (w : V)
    {hist : List (Op (BitVec 128) V)} {t : Critbit V N M} {outs : List (Out (BitVec 128) V)}
    (hrun : run CritbitSpec.call (Critbit.new z w) hist = .ok (t, outs)) {k k' : BitVec 128} (hn : k ≠ k')
    {op op' : Op (BitVec 128) V} (hk : op.On k) (hk' : op'.On k') :
    ∃ s s' o1 o1' o2 o2', run CritbitSpec.call t [op, op'] = .ok (s, [o1, o1']) ∧
      run CritbitSpec.call t [op', op] = .ok (s', [o2', o2]) ∧
      ((o1 = o2 ∧ o1' = o2') ↔ ¬ CompeteAny t.get t.len M op op') ∧
      (¬ CompeteAny t.get t.len M op op' → ∀ x, s.get x = s'.get x) := by
  obtain ⟨t0, _, E, m, e, h, hm, _⟩ := Critbit.run_new hN hNM hM0 z w hist
  rw [hrun] at e; cases e
  exact (Critbit.model hN hNM hM0).commute_any (fun _ _ => Iff.rfl) ⟨E, h, hm⟩ hn hk hk'

/-! ### what the present map does not decide -/

/-- results of calls on a new tree with two slots, and what `get` says of the keys 1 and 2 -/
def twoRB (ops : List (RedBlackSpec.TOp Nat Nat)) : R (List (RedBlackSpec.TOut Nat Nat) × Option Nat × Option Nat) := do
  let (t, os) ← run RedBlackSpec.call (RedBlackTree.new ⟨0, 0⟩ : RedBlackTree Nat Nat 2) ops
  return (os, ← t.get 1, ← t.get 2)

/-- C97: `remove_root` is not a function of the present map: the order of two insertions decides which entry is removed. -/
theorem C97_rb_remove_root_tells :
    twoRB [.map (.insert 1 10), .map (.insert 2 20), .removeRoot] =
      .ok ([.map (.inserted true), .map (.inserted true), .root (some (1, 10))], none, some 20) ∧
    twoRB [.map (.insert 2 20), .map (.insert 1 10), .removeRoot] =
      .ok ([.map (.inserted true), .map (.inserted true), .root (some (2, 20))], some 10, none) := by
  decide +kernel

/-! ### concrete cases -/

/-- results of calls on a new red-black tree with two slots, and the calls on key 1 accepted, with their results -/
def localRB (ops : List (Op Nat Nat)) : R (List (Out Nat Nat) × List (Out Nat Nat) × Option Nat) := do
  let (t, os) ← run RedBlackSpec.api.call (RedBlackTree.new ⟨0, 0⟩ : RedBlackTree Nat Nat 2) ops
  return (os, (accepted 1 ops os).map Prod.snd, ← t.get 1)

/-- In this history an insertion of the key 1 is refused; the accepted calls on 1 see a variable: empty, 10, 11, empty, 12. -/
example : localRB [.insert 1 10, .insert 2 20, .getMut 1 (· + 1), .insert 3 30, .remove 1, .insert 3 30, .insert 1 11,
      .remove 2, .insert 1 12, .remove 4] =
    .ok ([.inserted true, .inserted true, .got (some 10), .inserted false, .removed (some 11), .inserted true,
      .inserted false, .removed (some 20), .inserted true, .removed none],
      [.inserted true, .got (some 10), .removed (some 11), .inserted true], some 12) := by
  decide +kernel

/-- The same with the variable. -/
example : cellRun none [.insert 1 10, .getMut 1 (· + 1), .remove 1, .insert 1 12] =
    ([.inserted true, .got (some 10), .removed (some 11), .inserted true], (some 12 : Option Nat)) := rfl

/-- Two new keys compete for the last slot: the second is refused, whichever it is. -/
example : localRB [.insert 1 10, .insert 2 20, .insert 3 30] =
      .ok ([.inserted true, .inserted true, .inserted false], [.inserted true], some 10) ∧
    localRB [.insert 1 10, .insert 3 30, .insert 2 20] =
      .ok ([.inserted true, .inserted true, .inserted false], [.inserted true], some 10) := by
  decide +kernel

/-- `Compete` holds in that state, and does not hold of an insertion and an overwrite. -/
example : ∃ t : RedBlackTree Nat Nat 2, (∃ os, run RedBlackSpec.call (RedBlackTree.new ⟨0, 0⟩) [.map (.insert 1 10)] = .ok (t, os)) ∧
    Compete t.get t.len 2 (.insert 2 20) (.insert 3 30) ∧ ¬ Compete t.get t.len 2 (.insert 2 20) (.insert 1 11) := by
  refine ⟨_, ⟨_, rfl⟩, Or.inl ⟨rfl, ⟨2, 20, rfl, rfl⟩, ⟨3, 30, rfl, rfl⟩⟩, ?_⟩
  rintro (⟨_, _, ⟨k, v, e, h⟩⟩ | ⟨h, _⟩)
  · cases e; cases h
  · cases h

/-- A `Critbit` with one free slot: overwriting first, both succeed; the new key first, overwriting is refused. -/
def localCrit (ops : List (Op (BitVec 128) Nat)) : R (List (Out (BitVec 128) Nat) × Option Nat) := do
  let (t, os) ← run CritbitSpec.call (Critbit.new ⟨0, 0⟩ 0 : Critbit Nat 4 2) ops
  return (os, ← t.get 1)

set_option maxRecDepth 4000 in
example : localCrit [.insert 1 10, .insert 1 11, .insert 2 20] = .ok ([.inserted true, .inserted true, .inserted true], some 11) ∧
    localCrit [.insert 1 10, .insert 2 20, .insert 1 11] = .ok ([.inserted true, .inserted true, .inserted false], some 10) := by
  decide +kernel

end Sokoban.Props
