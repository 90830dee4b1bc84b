import Verif.Proof.RBLaws

/-
Property theorems C22-C32 (RedBlackTree), the red-black tree parts of C06, C30 and C31.

A history is a list of calls `ops` made on a new tree (`run call (RedBlackTree.new z) ops`,
Spec/Run.lean, Spec/RedBlack.lean). `TSteps M FMap.empty ops outs m` says that on a mathematical
finite map bounded by `MAX_SIZE` the calls `ops` have the results `outs` and lead to `m`
(Spec/Map.lean, Spec/RedBlack.lean).
-/
namespace Sokoban.Props
open MapSpec RedBlackSpec RedBlackTree
variable {K V : Type} [LinearOrder K] {M : Nat}

/-- C22: every history completes, with the results of a bounded finite map, and afterwards `get`,
`contains`, `len`, `is_empty` and `Index` agree with that map. -/
theorem C22_rb_refines_map (hM0 : 0 < M) (hM : M + 1 < 2 ^ 32) (z : RBNode K V) (ops : List (TOp K V)) :
    ∃ (t : RedBlackTree K V M) (outs : List (TOut K V)) (m : FMap K V),
      run call (RedBlackTree.new z) ops = .ok (t, outs) ∧ TSteps M FMap.empty ops outs m ∧
      (∀ k, t.get k = .ok (m.get k)) ∧ (∀ k, t.contains k = .ok (m.get k).isSome) ∧
      (∀ k, t.index k = unwrap (m.get k)) ∧
      t.len = m.len ∧ m.len ≤ M ∧ t.isEmpty = decide (m.len = 0) := by
  obtain ⟨t, os, E, m, e, h, hm, hs⟩ := RedBlackTree.run_new hM hM0 z ops
  exact ⟨t, os, m, e, hs, (laws hM hM0).observe h hm⟩

/-- C23: after every history the root is black, a red node has no red child, every path from the
root to a missing child has the same number of black nodes, and the validity check of the code
accepts the tree. -/
theorem C23_rb_is_red_black (hM0 : 0 < M) (hM : M + 1 < 2 ^ 32) (z : RBNode K V) (ops : List (TOp K V))
    {t : RedBlackTree K V M} {outs : List (TOut K V)}
    (hrun : run call (RedBlackTree.new z) ops = .ok (t, outs)) :
    t.isRed t.root = .ok false ∧
    (∀ p, ∃ i, walk t t.root p = .ok i ∧ (t.isRed i = .ok true →
      ∃ l r, t.getLeft i = .ok l ∧ t.getRight i = .ok r ∧ t.isRed l = .ok false ∧ t.isRed r = .ok false)) ∧
    (∃ n, ∀ p, ToNil t t.root p → blacks t t.root p = .ok n) ∧
    t.isValid = .ok true := by
  obtain ⟨t0, os, E, m, e, h, hm, hs⟩ := RedBlackTree.run_new hM hM0 z ops
  rw [hrun] at e; cases e
  obtain ⟨b, hz, hg, _, _, hroot, _⟩ := h.tree
  obtain ⟨n, h1, _, _, h4⟩ := id hg
  rw [hroot]
  refine ⟨by rw [(tag_ok hz.shape hz.range).1, h4 rfl]; rfl, fun p => ?_, ⟨n, fun p hp => ?_⟩, isValid_spec hz hg⟩
  · obtain ⟨t', i', n', e, hsh, hr, hb⟩ := walk_spec p hz.shape hz.range h1
    refine ⟨_, e, fun hred => ?_⟩
    rw [(tag_ok hsh hr).1] at hred
    have ht : t'.tag = 1 := by simpa using hred
    cases t' with
    | nil => simp at ht
    | node l x r =>
      have hx := hr x.idx (by simp)
      obtain ⟨k1, k2, _, _, k5, k6⟩ := hsh
      have hc : l.tag = 0 ∧ r.tag = 0 := by
        rcases hb with ⟨_, h1, h2, _⟩ | ⟨h1, _⟩
        · exact ⟨h1, h2⟩
        · simp [h1] at ht
      refine ⟨l.root, r.root, by rw [BT.root_node, getLeft_ok hx.2, k1], by rw [BT.root_node, getRight_ok hx.2, k2],
        ?_, ?_⟩
      · rw [(tag_ok k5 (fun j hj => hr j (by simp [hj]))).1, hc.1]; rfl
      · rw [(tag_ok k6 (fun j hj => hr j (by simp [hj]))).1, hc.2]; rfl
  · exact blacks_spec p hz.shape hz.range h1 hp

/-- C24: the search loops of `get_addr`, `insert` and `remove` handle one node per iteration; with
`2 * log2(len + 1)` iterations (or any larger number) they give the result of the operation
itself, i.e. no operation visits more nodes on its way down. -/
theorem C24_rb_depth (hM0 : 0 < M) (hM : M + 1 < 2 ^ 32) (z : RBNode K V) (ops : List (TOp K V))
    {t : RedBlackTree K V M} {outs : List (TOut K V)}
    (hrun : run call (RedBlackTree.new z) ops = .ok (t, outs)) (hne : t.len ≠ 0) (k : K) (v : V)
    (fuel : Nat) (hf : 2 * (t.len + 1).log2 ≤ fuel) :
    t.getAddrLoop k fuel t.root = t.getAddr k ∧ t.insertLoop k v fuel t.root = t.insert k v ∧
    t.removeLoop k fuel t.root = t.remove k := by
  obtain ⟨t0, os, E, m, e, h, hm, hs⟩ := RedBlackTree.run_new hM hM0 z ops
  rw [hrun] at e; cases e
  have hl : t.len = E.length := h.base.size
  rw [hl] at hne hf
  exact h.depth hM (fun hc => hne (by rw [hc]; rfl)) k v hf

/-- C25: on every reachable tree, `iter()` driven by any mix of `next` and `next_back` consumes
from both ends the strictly ascending list of exactly the entries of the tree. -/
theorem C25_rb_iter (hM0 : 0 < M) (hM : M + 1 < 2 ^ 32) (z : RBNode K V) (ops : List (TOp K V))
    {t : RedBlackTree K V M} {outs : List (TOut K V)}
    (hrun : run call (RedBlackTree.new z) ops = .ok (t, outs)) :
    ∃ L : List (K × V), L.Pairwise (fun a b => a.1 < b.1) ∧
      (∀ k v, (k, v) ∈ L ↔ t.get k = .ok (some v)) ∧ L.length = t.len ∧
      ∀ es, ∃ it', drive (Iter.next t) (Iter.nextBack t) t.iter es = .ok (it', consume L es) := by
  obtain ⟨t0, os, E, m, e, h, hm, hs⟩ := RedBlackTree.run_new hM hM0 z ops
  rw [hrun] at e; cases e
  exact (laws hM hM0).iter_obs h

/-- C26: `get_min` is the entry with the least key, `None` exactly when the tree is empty;
`get_min_index` is its address. -/
theorem C26_rb_min (hM0 : 0 < M) (hM : M + 1 < 2 ^ 32) (z : RBNode K V) (ops : List (TOp K V))
    {t : RedBlackTree K V M} {outs : List (TOut K V)}
    (hrun : run call (RedBlackTree.new z) ops = .ok (t, outs)) :
    (t.len = 0 ∧ t.getMin = .ok none ∧ t.getMinIndex = .ok SENTINEL) ∨
    ∃ k v i, t.len ≠ 0 ∧ t.getMin = .ok (some (k, v)) ∧ t.getMinIndex = .ok i ∧ i ≠ SENTINEL ∧
      t.getAddr k = .ok i ∧ t.get k = .ok (some v) ∧ ∀ k' v', t.get k' = .ok (some v') → k ≤ k' := by
  obtain ⟨t0, os, E, m, e, h, hm, hs⟩ := RedBlackTree.run_new hM hM0 z ops
  rw [hrun] at e; cases e
  have L := laws (K := K) (V := V) hM hM0
  obtain ⟨h1, h2⟩ := h.getMin
  have hl : t.len = E.length := h.base.size
  cases hE : E with
  | nil => left; rw [hE] at h1 h2 hl; exact ⟨by simp [hl], h2, h1⟩
  | cons x E' =>
    right
    have hx : (x.1, x.2.1, x.2.2) ∈ E := by rw [hE]; simp
    have hr := L.range h (List.mem_map_of_mem (f := Prod.fst) hx)
    refine ⟨x.2.1, x.2.2, x.1, by rw [hl, hE]; simp, by rw [h2, hE]; rfl, by rw [h1, hE]; rfl,
      by simp [SENTINEL]; omega, h.getAddr_some hx, L.get_some h hx, fun k' v' hk' => ?_⟩
    have hmem := (L.mem_iff h k' v').2 hk'
    obtain ⟨y, hy, hyk⟩ := List.mem_map.1 hmem
    have hso := L.sorted h
    rw [hE] at hy hso
    rcases List.mem_cons.1 hy with rfl | hy
    · rw [hyk]
    · have := (List.pairwise_cons.1 hso).1 y hy
      rw [hyk] at this
      exact le_of_lt this

/-- C26: `get_max` is the entry with the greatest key, `None` exactly when the tree is empty;
`get_max_index` is its address. -/
theorem C26_rb_max (hM0 : 0 < M) (hM : M + 1 < 2 ^ 32) (z : RBNode K V) (ops : List (TOp K V))
    {t : RedBlackTree K V M} {outs : List (TOut K V)}
    (hrun : run call (RedBlackTree.new z) ops = .ok (t, outs)) :
    (t.len = 0 ∧ t.getMax = .ok none ∧ t.getMaxIndex = .ok SENTINEL) ∨
    ∃ k v i, t.len ≠ 0 ∧ t.getMax = .ok (some (k, v)) ∧ t.getMaxIndex = .ok i ∧ i ≠ SENTINEL ∧
      t.getAddr k = .ok i ∧ t.get k = .ok (some v) ∧ ∀ k' v', t.get k' = .ok (some v') → k' ≤ k := by
  obtain ⟨t0, os, E, m, e, h, hm, hs⟩ := RedBlackTree.run_new hM hM0 z ops
  rw [hrun] at e; cases e
  have L := laws (K := K) (V := V) hM hM0
  obtain ⟨h1, h2⟩ := h.getMax
  have hl : t.len = E.length := h.base.size
  rcases List.eq_nil_or_concat E with hE | ⟨E', x, hE⟩
  · left; rw [hE] at h1 h2 hl; exact ⟨by simp [hl], h2, h1⟩
  · right
    rw [List.concat_eq_append] at hE
    have hx : (x.1, x.2.1, x.2.2) ∈ E := by rw [hE]; simp
    have hlast : E.getLast? = some x := by rw [hE]; simp
    have hr := L.range h (List.mem_map_of_mem (f := Prod.fst) hx)
    refine ⟨x.2.1, x.2.2, x.1, by rw [hl, hE]; simp, by rw [h2, hlast]; rfl, by rw [h1, hlast]; rfl,
      by simp [SENTINEL]; omega, h.getAddr_some hx, L.get_some h hx, fun k' v' hk' => ?_⟩
    have hmem := (L.mem_iff h k' v').2 hk'
    obtain ⟨y, hy, hyk⟩ := List.mem_map.1 hmem
    have hso := L.sorted h
    rw [hE] at hy hso
    rcases List.mem_append.1 hy with hy | hy
    · have := (List.pairwise_append.1 hso).2.2 y hy x (by simp)
      rw [hyk] at this
      exact le_of_lt this
    · simp only [List.mem_singleton] at hy
      rw [← hy, hyk]

/-- C27: no call in any history panics or loops, nor does any query afterwards; only `Index` and
`IndexMut` on an absent key panic. -/
theorem C27_rb_never_panics (hM0 : 0 < M) (hM : M + 1 < 2 ^ 32) (z : RBNode K V) (ops : List (TOp K V)) :
    ∃ (t : RedBlackTree K V M) (outs : List (TOut K V)),
      run call (RedBlackTree.new z) ops = .ok (t, outs) ∧
      (∀ op, ∃ t' o, call t op = .ok (t', o)) ∧
      (∀ k, (∃ r, t.get k = .ok r) ∧ (∃ r, t.contains k = .ok r) ∧ (∃ r, t.getAddr k = .ok r) ∧
        (∃ r, t.getMut k = .ok r) ∧
        ((∃ p, t.index k = .error p) ↔ t.get k = .ok none) ∧
        ((∃ p, t.indexMut k = .error p) ↔ t.get k = .ok none)) ∧
      (∃ r, t.getMin = .ok r) ∧ (∃ r, t.getMax = .ok r) ∧ (∃ r, t.isValid = .ok r) ∧
      (∀ es, ∃ r, drive (Iter.next t) (Iter.nextBack t) t.iter es = .ok r) := by
  obtain ⟨t, os, E, m, e, h, hm, hs⟩ := RedBlackTree.run_new hM hM0 z ops
  have L := laws (K := K) (V := V) hM hM0
  obtain ⟨o1, o2, o3, _⟩ := L.observe h hm
  refine ⟨t, os, e, fun op => ?_, fun k => ⟨⟨_, o1 k⟩, ⟨_, o2 k⟩, ?_, ?_, ?_, ?_⟩, ⟨_, h.getMin.2⟩, ⟨_, h.getMax.2⟩,
    ?_, fun es => ?_⟩
  · obtain ⟨t', o, _, _, e', _⟩ := call_spec hM hM0 t E m op h hm
    exact ⟨t', o, e'⟩
  · rcases h.getAddr k with ⟨_, e⟩ | ⟨_, _, _, e⟩ <;> exact ⟨_, e⟩
  · rcases Ents.cases E k with ha | ⟨L1, i, v, L2, hE⟩
    · exact ⟨_, L.getMut_none h ha⟩
    · exact ⟨_, L.getMut_some h (i := i) (v := v) (by rw [hE]; simp)⟩
  · rw [show t.index k = _ from o3 k, show t.get k = _ from o1 k]
    cases m.get k <;> simp [unwrap]
  · unfold RedBlackTree.indexMut
    rw [show t.get k = _ from o1 k]
    rcases Ents.cases E k with ha | ⟨L1, i, v, L2, hE⟩
    · rw [show t.getMut k = _ from L.getMut_none h ha, Ents.get_none hm ha]; simp [unwrap]
    · have hi : (i, k, v) ∈ E := by rw [hE]; simp
      rw [show t.getMut k = _ from L.getMut_some h hi, Ents.get_some hm hi]; simp [unwrap]
  · obtain ⟨b, hz, hg, _⟩ := h
    exact ⟨_, isValid_spec hz hg⟩
  · obtain ⟨it, e⟩ := L.drive h es
    exact ⟨_, e⟩

/-- C28: `insert` returns the address that `get_addr` reports. -/
theorem C28_rb_insert_addr (hM0 : 0 < M) (hM : M + 1 < 2 ^ 32) (z : RBNode K V) (ops : List (TOp K V))
    {t t' : RedBlackTree K V M} {outs : List (TOut K V)}
    (hrun : run call (RedBlackTree.new z) ops = .ok (t, outs)) (k : K) (v : V) (i : Nat)
    (hi : t.insert k v = .ok (t', some i)) :
    i ≠ SENTINEL ∧ t'.getAddr k = .ok i ∧ t'.getNode i = .ok ⟨k, v⟩ := by
  obtain ⟨t0, os, E, m, e, h, hm, hs⟩ := RedBlackTree.run_new hM hM0 z ops
  rw [hrun] at e; cases e
  rcases h.insert hM hM0 k v with ⟨_, _, e⟩ | ⟨_, t1, j, E', e, h', hins⟩
  · rw [hi] at e; cases e
  · rw [hi] at e; cases e
    have hr := h'.base.range (List.mem_map_of_mem (f := Prod.fst) hins.mem)
    exact ⟨by simp [SENTINEL]; omega, h'.getAddr_some hins.mem, getNode_ok h'.base hins.mem⟩

/-- C28: as long as `k` is not removed (by `remove` or `remove_root`), its address stays the same
and the node there holds `k` and its current value, whatever else happens. -/
theorem C28_rb_addr_stable (hM0 : 0 < M) (hM : M + 1 < 2 ^ 32) (z : RBNode K V) (ops ops' : List (TOp K V))
    {t t' : RedBlackTree K V M} {outs outs' : List (TOut K V)}
    (hrun : run call (RedBlackTree.new z) ops = .ok (t, outs)) (k : K) (i : Nat)
    (hi : t.getAddr k = .ok i) (hi0 : i ≠ SENTINEL) (hrun' : run call t ops' = .ok (t', outs'))
    (hno : ∀ x ∈ ops'.zip outs', ¬ Removes k x) :
    t'.getAddr k = .ok i ∧ ∃ v, t'.getNode i = .ok ⟨k, v⟩ ∧ t'.get k = .ok (some v) := by
  obtain ⟨t0, os, E, m, e, h, hm, hs⟩ := RedBlackTree.run_new hM hM0 z ops
  rw [hrun] at e; cases e
  obtain ⟨t1, os', E', m', e', h', hm', _, hk⟩ := run_trace (gone := fun op o k => Removes k (op, o))
    (call_spec hM hM0) ops' t E m h hm
  rw [hrun'] at e'; cases e'
  obtain ⟨v, hv⟩ := (h.getAddr_iff hi0).1 hi
  obtain ⟨v', hv'⟩ := hk i k v hv hno
  exact ⟨h'.getAddr_some hv', v', getNode_ok h'.base hv', (laws hM hM0).get_some h' hv'⟩

/-- C29: `iter_mut()` driven in any order with writes through every reference: the slots handed
out are pairwise distinct, in bounds, and each is the address of the key read there; exactly the
visited entries get the new values; no address, link or colour changes. -/
theorem C29_rb_iter_mut (hM0 : 0 < M) (hM : M + 1 < 2 ^ 32) (z : RBNode K V) (ops : List (TOp K V))
    {t : RedBlackTree K V M} {outs : List (TOut K V)}
    (hrun : run call (RedBlackTree.new z) ops = .ok (t, outs)) (es : List (End × (K → V → V))) :
    ∃ t' it items, api.iterMut t es = .ok (t', it, items) ∧
      ((items.filterMap id).map Prod.fst).Nodup ∧
      (∀ x ∈ items.filterMap id, 1 ≤ x.1 ∧ x.1 ≤ M ∧ t.getAddr x.2.1 = .ok x.1 ∧
        t.get x.2.1 = .ok (some x.2.2)) ∧
      t'.len = t.len ∧ (∀ k, t'.getAddr k = t.getAddr k) ∧
      t'.root = t.root ∧ (∀ i r, t'.allocator.getRegister i r = t.allocator.getRegister i r) ∧
      ∃ L : List (K × V), L.Pairwise (fun a b => a.1 < b.1) ∧
        (∀ k v, (k, v) ∈ L ↔ t.get k = .ok (some v)) ∧
        items.map (Option.map Prod.snd) = (consumeMut L (script es)).1 ∧
        (∀ k v, (k, v) ∈ (consumeMut L (script es)).2 ↔ t'.get k = .ok (some v)) := by
  obtain ⟨t0, os, E, m, e, h, hm, hs⟩ := RedBlackTree.run_new hM hM0 z ops
  rw [hrun] at e; cases e
  have L := laws (K := K) (V := V) hM hM0
  obtain ⟨t', it, items, e, h1, h2, h3, h4, h5⟩ := L.iterMut_obs h es
  obtain ⟨t1, it1, e1, h'⟩ := L.iterMut h es
  rw [e] at e1
  obtain rfl : t' = t1 := by
    have := congrArg (fun r : R (RedBlackTree K V M × Iter × List (Option (Nat × K × V))) =>
      match r with | .ok (s, _) => s | .error _ => t) e1
    exact this
  have hA : ∀ {t : RedBlackTree K V M} {E}, Inv t E → ∀ k, t.getAddr k =
      (t.getMut k).map (fun o => o.getD 0) := by
    intro t E h k
    rcases Ents.cases E k with ha | ⟨L1, i, v, L2, hE⟩
    · rw [h.getAddr_none ha, show t.getMut k = _ from L.getMut_none h ha]; rfl
    · have hi : (i, k, v) ∈ E := by rw [hE]; simp
      rw [h.getAddr_some hi, show t.getMut k = _ from L.getMut_some h hi]; rfl
  have hfr : ∀ i r, t'.root = t.root ∧ t'.allocator.getRegister i r = t.allocator.getRegister i r := by
    intro i r
    have := Api.iterMut_frame (fun s : RedBlackTree K V M => (s.root, s.allocator.getRegister i r)) (by
      intro s j x s' hw
      have hw : s.setNodeValue j x = .ok s' := hw
      unfold setNodeValue at hw
      cases h1 : s.allocator.getValue j with
      | error _ => rw [h1] at hw; cases hw
      | ok n =>
        simp only [h1, except_bind_ok] at hw
        cases h2 : s.allocator.setValue j { n with value := x } with
        | error _ => rw [h2] at hw; cases hw
        | ok a =>
          rw [h2] at hw; cases hw
          simp only [NodeAllocator.setValue_frame h2]) _ _ e
    simpa using this
  refine ⟨t', it, items, e, h1, fun x hx => ?_, h3, fun k => ?_, (hfr 0 0).1, fun i r => (hfr i r).2, h5⟩
  · obtain ⟨a, b, c, d⟩ := h2 x hx
    exact ⟨a, b, by rw [hA h, show t.getMut _ = _ from c]; rfl, d⟩
  · rw [hA h, hA h', show t'.getMut k = _ from h4 k]; rfl

/-- C30 for the red-black tree: on every reachable tree `insert` returns `None` exactly when the
key is absent and the tree full, and then nothing changes; otherwise (also for a present key in
a full tree) the key is bound to the value and no other key is affected. -/
theorem C30_rb_insert_refused (hM0 : 0 < M) (hM : M + 1 < 2 ^ 32) (z : RBNode K V) (ops : List (TOp K V))
    {t : RedBlackTree K V M} {outs : List (TOut K V)}
    (hrun : run call (RedBlackTree.new z) ops = .ok (t, outs)) (k : K) (v : V) :
    ∃ t' r, t.insert k v = .ok (t', r) ∧
      (r = none ↔ t.get k = .ok none ∧ t.len = t.capacity) ∧ (r = none → t' = t) ∧
      (r ≠ none → t'.get k = .ok (some v) ∧ (∀ k', k' ≠ k → t'.get k' = t.get k') ∧
        (t.get k = .ok none → t'.len = t.len + 1) ∧ (t.get k ≠ .ok none → t'.len = t.len)) := by
  obtain ⟨t0, os, E, m, e, h, hm, hs⟩ := RedBlackTree.run_new hM hM0 z ops
  rw [hrun] at e; cases e
  have L := laws (K := K) (V := V) hM hM0
  obtain ⟨t', r, e, h1, h2, h3⟩ := L.insert_obs h k v
  refine ⟨t', r, e, ?_, h2, h3⟩
  rw [h1, Ents.absent_iff hm, show t.get k = _ from L.get h hm k, show t.len = _ from L.len h]
  simp [RedBlackTree.capacity]

/-- C31 (deviation) for the red-black tree: with `MAX_SIZE = 0`, `insert` panics. -/
theorem C31_rb_capacity_zero_panics (z : RBNode K V) (k : K) (v : V) :
    ∃ p, (RedBlackTree.new z : RedBlackTree K V 0).insert k v = .error p := ⟨_, rfl⟩

/-- C32: `remove_root` returns `None` exactly on the empty tree; otherwise it returns an entry of
the map, that of the root node, and afterwards the map is the old one without that key. -/
theorem C32_rb_remove_root (hM0 : 0 < M) (hM : M + 1 < 2 ^ 32) (z : RBNode K V) (ops : List (TOp K V))
    {t : RedBlackTree K V M} {outs : List (TOut K V)}
    (hrun : run call (RedBlackTree.new z) ops = .ok (t, outs)) :
    (t.len = 0 ∧ t.removeRoot = .ok (t, none)) ∨
    ∃ t' k v, t.len ≠ 0 ∧ t.removeRoot = .ok (t', some ⟨k, v⟩) ∧ t.getNode t.root = .ok ⟨k, v⟩ ∧
      t.get k = .ok (some v) ∧ t'.get k = .ok none ∧ (∀ k', k' ≠ k → t'.get k' = t.get k') ∧
      t'.len + 1 = t.len := by
  obtain ⟨t0, os, E, m, e, h, hm, hs⟩ := RedBlackTree.run_new hM hM0 z ops
  rw [hrun] at e; cases e
  have L := laws (K := K) (V := V) hM hM0
  have hl : t.len = E.length := L.len h
  rcases h.removeRoot with ⟨hE, e⟩ | ⟨t', k, v, E', _, e, h', hd, _⟩
  · exact Or.inl ⟨by rw [hl, hE]; rfl, e⟩
  · right
    obtain ⟨i, hi⟩ := hd.mem
    have hm' := hd.lists hm
    have hg : m.get k = some v := Ents.get_some hm hi
    have hne : t.len ≠ 0 := by
      intro hc
      rw [hl, List.length_eq_zero_iff] at hc
      rw [hc] at hi; cases hi
    have hlen : t'.len + 1 = t.len := by
      obtain ⟨L1, j, L2, rfl, rfl⟩ := hd
      have : t'.len = (L1 ++ L2).length := L.len h'
      rw [hl, this]; simp; omega
    refine ⟨t', k, v, hne, e, ?_, ?_, ?_, fun k' hk' => ?_, hlen⟩
    · unfold RedBlackTree.removeRoot at e
      split at e
      · cases e
      · cases hn : t.getNode t.root with
        | error _ => rw [hn] at e; cases e
        | ok n =>
          simp only [hn, except_bind_ok] at e
          cases hr : t.removeTreeNode t.root with
          | error _ => rw [hr] at e; cases e
          | ok t1 => rw [hr] at e; cases e; rfl
    · rw [show t.get k = _ from L.get h hm k, hg]
    · rw [show t'.get k = _ from L.get h' hm' k]; simp [FMap.erase]
    · rw [show t'.get k' = _ from L.get h' hm' k', show t.get k' = _ from L.get h hm k']
      simp [FMap.erase, hk']

/-- C06 for the red-black tree: `new_from_slice` on zeroed memory gives `RedBlackTree::new()`, and
after any history a second `initialize` panics. -/
theorem C06_rb_initialize (hM0 : 0 < M) (hM : M + 1 < 2 ^ 32) (z : RBNode K V) :
    (RedBlackTree.zeroed z : RedBlackTree K V M).initialise = .ok (RedBlackTree.new z) ∧
    ∀ (ops : List (TOp K V)) (t : RedBlackTree K V M) (outs : List (TOut K V)),
      run call (RedBlackTree.new z) ops = .ok (t, outs) → t.initialise = .error .reinit := by
  refine ⟨rfl, fun ops t outs hrun => ?_⟩
  obtain ⟨t0, os, E, m, e, h, hm, hs⟩ := RedBlackTree.run_new hM hM0 z ops
  rw [hrun] at e; cases e
  obtain ⟨free, hf⟩ := h.base.inv
  unfold RedBlackTree.initialise
  rw [NodeAllocator.reinit_of_inv hf]; rfl

/-! ### non-vacuity -/

/-- A history that reaches a full tree of four nodes with recolourings and rotations, a refused
insert, updates when full, removals of inner nodes, `remove_root` and `iter_mut` from both
ends. -/
example : ∃ t, run call (RedBlackTree.new ⟨0, 0⟩ : RedBlackTree Nat Nat 4)
    [.map (.insert 1 10), .map (.insert 2 20), .map (.insert 3 30), .map (.insert 4 40),
      .map (.insert 5 50), .map (.insert 4 41), .map (.getMut 3 (· + 1)), .removeRoot,
      .map (.iterMut [(.back, fun _ v => v + 1), (.front, fun k v => k + v), (.front, fun _ v => v),
        (.back, fun _ v => v)]), .map (.remove 4)] =
    .ok (t, [.map (.inserted true), .map (.inserted true), .map (.inserted true), .map (.inserted true),
      .map (.inserted false), .map (.inserted true), .map (.got (some 30)), .root (some (2, 20)),
      .map (.seen [some (4, 41), some (1, 10), some (3, 31), none]), .map (.removed (some 42))]) ∧
    t.len = 2 ∧ t.getMin = .ok (some (1, 11)) ∧ t.getMax = .ok (some (3, 31)) := ⟨_, rfl, rfl, rfl, rfl⟩

/-- The hypotheses of `C28_rb_addr_stable` hold for key 3 (address 3) across rotations and the
removal of the root. -/
example : ∃ t t' outs outs', run call (RedBlackTree.new ⟨0, 0⟩ : RedBlackTree Nat Nat 8)
    [.map (.insert 1 10), .map (.insert 2 20), .map (.insert 3 30)] = .ok (t, outs) ∧
    t.getAddr 3 = .ok 3 ∧
    run call t [.map (.insert 4 40), .removeRoot, .map (.insert 5 50), .map (.remove 1)] = .ok (t', outs') ∧
    (∀ x ∈ ([.map (.insert 4 40), .removeRoot, .map (.insert 5 50), .map (.remove 1)] : List (TOp Nat Nat)).zip
      outs', ¬ Removes 3 x) ∧ t'.getAddr 3 = .ok 3 :=
  ⟨_, _, _, [.map (.inserted true), .root (some (2, 20)), .map (.inserted true), .map (.removed (some 10))],
    rfl, rfl, rfl, by simp [Removes], rfl⟩

/-- `C23`: a tree with a red node and two different paths to missing children. -/
example : ∃ t outs, run call (RedBlackTree.new ⟨0, 0⟩ : RedBlackTree Nat Nat 8)
    [.map (.insert 1 10), .map (.insert 2 20), .map (.insert 3 30), .map (.insert 4 40)] = .ok (t, outs) ∧
    t.isRed 4 = .ok true ∧ walk t t.root [true, true] = .ok 4 ∧
    blacks t t.root [true, true, false] = .ok 2 ∧ blacks t t.root [false, false] = .ok 2 ∧
    walk t t.root [true, true, false] = .ok 0 ∧ walk t t.root [false, false] = .ok 0 :=
  ⟨_, _, rfl, rfl, rfl, rfl, rfl, rfl, rfl⟩

end Sokoban.Props
