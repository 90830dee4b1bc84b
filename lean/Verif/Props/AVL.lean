import Verif.Proof.AVLLaws

/-
Property theorems C33-C41 (AVLTree), the AVL tree parts of C06, C30 and C31.

A history is a list of calls `ops` made on a new tree (`run call (AVLTree.new z) ops`,
Spec/Run.lean, Spec/AVL.lean). `Steps (treeRules K V M) FMap.empty ops outs m` says that on a
mathematical finite map bounded by `MAX_SIZE` the calls `ops` have the results `outs` and lead to
`m` (Spec/Map.lean).
-/
namespace Sokoban.Props
open MapSpec AVLSpec AVLTree
variable {K V : Type} [LinearOrder K] {M : Nat}

/-- C33: every history completes, with the results of a bounded finite map, and afterwards `get`,
`contains`, `len`, `is_empty` and `Index` agree with that map. -/
theorem C33_avl_refines_map (hM0 : 0 < M) (hM : M + 1 < 2 ^ 32) (z : AVLNode K V) (ops : List (Op K V)) :
    ∃ (t : AVLTree K V M) (outs : List (Out K V)) (m : FMap K V),
      run call (AVLTree.new z) ops = .ok (t, outs) ∧ Steps (treeRules K V M) FMap.empty ops outs m ∧
      (∀ k, t.get k = .ok (m.get k)) ∧ (∀ k, t.contains k = .ok (m.get k).isSome) ∧
      (∀ k, t.index k = unwrap (m.get k)) ∧
      t.len = m.len ∧ m.len ≤ M ∧ t.isEmpty = decide (m.len = 0) := by
  obtain ⟨t, os, E, m, e, h, hm, hs⟩ := AVLTree.run_new hM hM0 z ops
  exact ⟨t, os, m, e, hs, (laws hM hM0).observe h hm⟩

/-- C34: after every history, every node reached along any path from the root has two subtrees
whose numbers of levels differ by at most one, and the height stored at the node is the larger of
the two, i.e. the number of edges on the longest path down (0 for a leaf). -/
theorem C34_avl_height_balanced (hM0 : 0 < M) (hM : M + 1 < 2 ^ 32) (z : AVLNode K V) (ops : List (Op K V))
    {t : AVLTree K V M} {outs : List (Out K V)}
    (hrun : run call (AVLTree.new z) ops = .ok (t, outs)) (p : List Bool) :
    ∃ i, walk t t.root p = .ok i ∧ (i ≠ SENTINEL →
      ∃ l r a b, t.getField i LEFT = .ok l ∧ t.getField i RIGHT = .ok r ∧ Levels t l a ∧ Levels t r b ∧
        a ≤ b + 1 ∧ b ≤ a + 1 ∧ t.getField i HEIGHT = .ok (max a b)) := by
  obtain ⟨t0, os, E, m, e, h, hm, hs⟩ := AVLTree.run_new hM hM0 z ops
  rw [hrun] at e; cases e
  obtain ⟨b, hz, hg, _, _, hroot, _⟩ := h.tree
  rw [hroot]
  obtain ⟨t', e, hsh, hr, hb⟩ := walk_spec p hz.shape hz.range hg
  refine ⟨_, e, fun h0 => ?_⟩
  cases t' with
  | nil => exact absurd rfl h0
  | node l x r =>
    have hx := hr x.idx (by simp)
    obtain ⟨k1, k2, k3, k4, k5⟩ := hsh
    obtain ⟨g1, g2, g3, _, _⟩ := hb
    exact ⟨l.root, r.root, l.height, r.height, by rw [BT.root_node, getLeft_ok hx.2, k1],
      by rw [BT.root_node, getRight_ok hx.2, k2], levels k4 (fun j hj => hr j (by simp [hj])),
      levels k5 (fun j hj => hr j (by simp [hj])), g2, g3,
      by rw [BT.root_node, HEIGHT, getField_ok hx.2 (by decide), k3, g1]⟩

/-- C35: the search loops of `get_addr` (`get`, `get_mut`) and `insert` handle one node per
iteration; with `h` iterations (or more), where `h` is the greatest number with `fib (h + 2) ≤ len + 1`, they give the
result of the operation itself, i.e. no operation visits more nodes on its way down. The search loop of `remove`
likewise, with one more iteration, in which it finds no node. -/
theorem C35_avl_depth_fib (hM0 : 0 < M) (hM : M + 1 < 2 ^ 32) (z : AVLNode K V) (ops : List (Op K V))
    {t : AVLTree K V M} {outs : List (Out K V)}
    (hrun : run call (AVLTree.new z) ops = .ok (t, outs)) (hne : t.len ≠ 0) (k : K) (v : V)
    (fuel : Nat) (hf : t.len + 1 < Nat.fib (fuel + 3)) :
    t.searchLoop k fuel t.root = t.getAddr k ∧
    t.insertLoop k v fuel t.root [(none, none, t.root)] = t.insert k v ∧
    (∃ i path, t.removePath k (fuel + 1) t.root [(none, none, t.root)] = .ok (i, path) ∧
      t.remove k = if i = SENTINEL then .ok (t, none) else t.removeNode i path) := by
  obtain ⟨t0, os, E, m, e, h, hm, hs⟩ := AVLTree.run_new hM hM0 z ops
  rw [hrun] at e; cases e
  have hl : t.len = E.length := h.base.size
  rw [hl] at hne hf
  have hne' : E ≠ [] := fun hc => hne (by rw [hc]; rfl)
  obtain ⟨h1, h2, h3⟩ := h.depth hM hne' k v hf
  refine ⟨h1, h2, ?_⟩
  rw [h3]
  obtain ⟨b, _, _, _, _, _, _, hr0, _⟩ := h.tree
  have hp : ∃ i path, t.removePath k (M + 2) t.root [(none, none, t.root)] = .ok (i, path) := by
    rcases h.removePath k (fuel := M + 2) (Or.inr (by omega)) with ⟨_, p, e⟩ | ⟨_, _, _, _, _, _, _, _, _, e⟩ <;>
      exact ⟨_, _, e⟩
  obtain ⟨i, path, e⟩ := hp
  refine ⟨i, path, e, ?_⟩
  unfold AVLTree.remove
  rw [if_neg (show ¬ t.root = SENTINEL from fun hc => hne' (hr0.1 hc)), e]
  rfl

/-- C35: `2 * log2(len + 1) + 1` iterations suffice. -/
theorem C35_avl_depth (hM0 : 0 < M) (hM : M + 1 < 2 ^ 32) (z : AVLNode K V) (ops : List (Op K V))
    {t : AVLTree K V M} {outs : List (Out K V)}
    (hrun : run call (AVLTree.new z) ops = .ok (t, outs)) (hne : t.len ≠ 0) (k : K) (v : V)
    (fuel : Nat) (hf : 2 * (t.len + 1).log2 + 1 ≤ fuel) :
    t.searchLoop k fuel t.root = t.getAddr k ∧
    t.insertLoop k v fuel t.root [(none, none, t.root)] = t.insert k v ∧
    (∃ i path, t.removePath k (fuel + 1) t.root [(none, none, t.root)] = .ok (i, path) ∧
      t.remove k = if i = SENTINEL then .ok (t, none) else t.removeNode i path) :=
  C35_avl_depth_fib hM0 hM z ops hrun hne k v fuel (deep_of_log hf)

/-- C36: on every reachable tree, `iter()` driven by any mix of `next` and `next_back` consumes
from both ends the strictly ascending list of exactly the entries of the tree. -/
theorem C36_avl_iter (hM0 : 0 < M) (hM : M + 1 < 2 ^ 32) (z : AVLNode K V) (ops : List (Op K V))
    {t : AVLTree K V M} {outs : List (Out K V)}
    (hrun : run call (AVLTree.new z) ops = .ok (t, outs)) :
    ∃ L : List (K × V), L.Pairwise (fun a b => a.1 < b.1) ∧
      (∀ k v, (k, v) ∈ L ↔ t.get k = .ok (some v)) ∧ L.length = t.len ∧
      ∀ es, ∃ it', drive (Iter.next t) (Iter.nextBack t) t.iter es = .ok (it', consume L es) := by
  obtain ⟨t0, os, E, m, e, h, hm, hs⟩ := AVLTree.run_new hM hM0 z ops
  rw [hrun] at e; cases e
  exact (laws hM hM0).iter_obs h

/-- C37: `get_min` is the entry with the least key, `None` exactly when the tree is empty;
`find_min` is its value and `get_min_index` its address. -/
theorem C37_avl_min (hM0 : 0 < M) (hM : M + 1 < 2 ^ 32) (z : AVLNode K V) (ops : List (Op K V))
    {t : AVLTree K V M} {outs : List (Out K V)}
    (hrun : run call (AVLTree.new z) ops = .ok (t, outs)) :
    (t.len = 0 ∧ t.getMin = .ok none ∧ t.findMin = .ok none ∧ t.getMinIndex = .ok SENTINEL) ∨
    ∃ k v i, t.len ≠ 0 ∧ t.getMin = .ok (some (k, v)) ∧ t.findMin = .ok (some v) ∧ t.getMinIndex = .ok i ∧ i ≠ SENTINEL ∧
      t.getAddr k = .ok i ∧ t.get k = .ok (some v) ∧ ∀ k' v', t.get k' = .ok (some v') → k ≤ k' := by
  obtain ⟨t0, os, E, m, e, h, hm, hs⟩ := AVLTree.run_new hM hM0 z ops
  rw [hrun] at e; cases e
  have L := laws (K := K) (V := V) hM hM0
  obtain ⟨h1, h2⟩ := h.getMin
  have hl : t.len = E.length := h.base.size
  cases hE : E with
  | nil => left; rw [hE] at h1 h2 hl; exact ⟨by simp [hl], h2, by rw [findMin_eq, h2]; rfl, h1⟩
  | cons x E' =>
    right
    have hx : (x.1, x.2.1, x.2.2) ∈ E := by rw [hE]; simp
    have hr := L.range h (List.mem_map_of_mem (f := Prod.fst) hx)
    refine ⟨x.2.1, x.2.2, x.1, by rw [hl, hE]; simp, by rw [h2, hE]; rfl, by rw [findMin_eq, h2, hE]; rfl, by rw [h1, hE]; rfl,
      by simp [SENTINEL]; omega, h.getAddr_some hx, L.get_some h hx, fun k' v' hk' => ?_⟩
    have hmem := (L.mem_iff h k' v').2 hk'
    obtain ⟨y, hy, hyk⟩ := List.mem_map.1 hmem
    have hso := L.sorted h
    rw [hE] at hy hso
    rcases List.mem_cons.1 hy with rfl | hy
    · rw [hyk]
    · have := (List.pairwise_cons.1 hso).1 y hy
      rw [hyk] at this
      exact le_of_lt this

/-- C37: `get_max` is the entry with the greatest key, `None` exactly when the tree is empty;
`find_max` is its value and `get_max_index` its address. -/
theorem C37_avl_max (hM0 : 0 < M) (hM : M + 1 < 2 ^ 32) (z : AVLNode K V) (ops : List (Op K V))
    {t : AVLTree K V M} {outs : List (Out K V)}
    (hrun : run call (AVLTree.new z) ops = .ok (t, outs)) :
    (t.len = 0 ∧ t.getMax = .ok none ∧ t.findMax = .ok none ∧ t.getMaxIndex = .ok SENTINEL) ∨
    ∃ k v i, t.len ≠ 0 ∧ t.getMax = .ok (some (k, v)) ∧ t.findMax = .ok (some v) ∧ t.getMaxIndex = .ok i ∧ i ≠ SENTINEL ∧
      t.getAddr k = .ok i ∧ t.get k = .ok (some v) ∧ ∀ k' v', t.get k' = .ok (some v') → k' ≤ k := by
  obtain ⟨t0, os, E, m, e, h, hm, hs⟩ := AVLTree.run_new hM hM0 z ops
  rw [hrun] at e; cases e
  have L := laws (K := K) (V := V) hM hM0
  obtain ⟨h1, h2⟩ := h.getMax
  have hl : t.len = E.length := h.base.size
  rcases List.eq_nil_or_concat E with hE | ⟨E', x, hE⟩
  · left; rw [hE] at h1 h2 hl; exact ⟨by simp [hl], h2, by rw [findMax_eq, h2]; rfl, h1⟩
  · right
    rw [List.concat_eq_append] at hE
    have hx : (x.1, x.2.1, x.2.2) ∈ E := by rw [hE]; simp
    have hlast : E.getLast? = some x := by rw [hE]; simp
    have hr := L.range h (List.mem_map_of_mem (f := Prod.fst) hx)
    refine ⟨x.2.1, x.2.2, x.1, by rw [hl, hE]; simp, by rw [h2, hlast]; rfl, by rw [findMax_eq, h2, hlast]; rfl, by rw [h1, hlast]; rfl,
      by simp [SENTINEL]; omega, h.getAddr_some hx, L.get_some h hx, fun k' v' hk' => ?_⟩
    have hmem := (L.mem_iff h k' v').2 hk'
    obtain ⟨y, hy, hyk⟩ := List.mem_map.1 hmem
    have hso := L.sorted h
    rw [hE] at hy hso
    rcases List.mem_append.1 hy with hy | hy
    · have := (List.pairwise_append.1 hso).2.2 y hy x (by simp)
      rw [hyk] at this
      exact le_of_lt this
    · simp only [List.mem_singleton] at hy
      rw [← hy, hyk]

/-- C38: no call in any history panics or loops, nor does any query afterwards; only `Index` and
`IndexMut` on an absent key panic. -/
theorem C38_avl_never_panics (hM0 : 0 < M) (hM : M + 1 < 2 ^ 32) (z : AVLNode K V) (ops : List (Op K V)) :
    ∃ (t : AVLTree K V M) (outs : List (Out K V)),
      run call (AVLTree.new z) ops = .ok (t, outs) ∧
      (∀ op, ∃ t' o, call t op = .ok (t', o)) ∧
      (∀ k, (∃ r, t.get k = .ok r) ∧ (∃ r, t.contains k = .ok r) ∧ (∃ r, t.getAddr k = .ok r) ∧
        (∃ r, t.getMut k = .ok r) ∧
        ((∃ p, t.index k = .error p) ↔ t.get k = .ok none) ∧
        ((∃ p, t.indexMut k = .error p) ↔ t.get k = .ok none)) ∧
      (∃ r, t.getMin = .ok r) ∧ (∃ r, t.getMax = .ok r) ∧ (∃ r, t.findMin = .ok r) ∧ (∃ r, t.findMax = .ok r) ∧
      (∀ es, ∃ r, drive (Iter.next t) (Iter.nextBack t) t.iter es = .ok r) := by
  obtain ⟨t, os, E, m, e, h, hm, hs⟩ := AVLTree.run_new hM hM0 z ops
  have L := laws (K := K) (V := V) hM hM0
  obtain ⟨o1, o2, o3, _⟩ := L.observe h hm
  refine ⟨t, os, e, fun op => ?_, fun k => ⟨⟨_, o1 k⟩, ⟨_, o2 k⟩, ?_, ?_, ?_, ?_⟩, ⟨_, h.getMin.2⟩, ⟨_, h.getMax.2⟩,
    ⟨_, by rw [findMin_eq, h.getMin.2]; rfl⟩, ⟨_, by rw [findMax_eq, h.getMax.2]; rfl⟩, fun es => ?_⟩
  · obtain ⟨t', o, _, _, e', _⟩ := call_spec hM hM0 t E m op h hm
    exact ⟨t', o, e'⟩
  · rcases h.getAddr k with ⟨_, e⟩ | ⟨_, _, _, e⟩ <;> exact ⟨_, e⟩
  · rcases Ents.cases E k with ha | ⟨L1, i, v, L2, hE⟩
    · exact ⟨_, L.getMut_none h ha⟩
    · exact ⟨_, L.getMut_some h (i := i) (v := v) (by rw [hE]; simp)⟩
  · rw [show t.index k = _ from o3 k, show t.get k = _ from o1 k]
    cases m.get k <;> simp [unwrap]
  · unfold AVLTree.indexMut
    rw [show t.get k = _ from o1 k]
    rcases Ents.cases E k with ha | ⟨L1, i, v, L2, hE⟩
    · rw [show t.getMut k = _ from L.getMut_none h ha, Ents.get_none hm ha]; simp [unwrap]
    · have hi : (i, k, v) ∈ E := by rw [hE]; simp
      rw [show t.getMut k = _ from L.getMut_some h hi, Ents.get_some hm hi]; simp [unwrap]
  · obtain ⟨it, e⟩ := L.drive h es
    exact ⟨_, e⟩

/-- C39: `insert` returns the address that `get_addr` reports. -/
theorem C39_avl_insert_addr (hM0 : 0 < M) (hM : M + 1 < 2 ^ 32) (z : AVLNode K V) (ops : List (Op K V))
    {t t' : AVLTree K V M} {outs : List (Out K V)}
    (hrun : run call (AVLTree.new z) ops = .ok (t, outs)) (k : K) (v : V) (i : Nat)
    (hi : t.insert k v = .ok (t', some i)) :
    i ≠ SENTINEL ∧ t'.getAddr k = .ok i ∧ t'.getNode i = .ok ⟨k, v⟩ := by
  obtain ⟨t0, os, E, m, e, h, hm, hs⟩ := AVLTree.run_new hM hM0 z ops
  rw [hrun] at e; cases e
  rcases h.insert hM hM0 k v with ⟨_, _, e⟩ | ⟨_, t1, j, E', e, h', hins⟩
  · rw [hi] at e; cases e
  · rw [hi] at e; cases e
    have hr := h'.base.range (List.mem_map_of_mem (f := Prod.fst) hins.mem)
    exact ⟨by simp [SENTINEL]; omega, h'.getAddr_some hins.mem, getNode_ok h'.base hins.mem⟩

/-- C39: as long as `k` is not removed, its address stays the same
and the node there holds `k` and its current value, whatever else happens. -/
theorem C39_avl_addr_stable (hM0 : 0 < M) (hM : M + 1 < 2 ^ 32) (z : AVLNode K V) (ops ops' : List (Op K V))
    {t t' : AVLTree K V M} {outs outs' : List (Out K V)}
    (hrun : run call (AVLTree.new z) ops = .ok (t, outs)) (k : K) (i : Nat)
    (hi : t.getAddr k = .ok i) (hi0 : i ≠ SENTINEL) (hrun' : run call t ops' = .ok (t', outs'))
    (hno : .remove k ∉ ops') :
    t'.getAddr k = .ok i ∧ ∃ v, t'.getNode i = .ok ⟨k, v⟩ ∧ t'.get k = .ok (some v) := by
  obtain ⟨t0, os, E, m, e, h, hm, hs⟩ := AVLTree.run_new hM hM0 z ops
  rw [hrun] at e; cases e
  obtain ⟨t1, os', E', m', e', h', hm', _, hk⟩ := run_trace (gone := fun op _ k => op = .remove k)
    (call_spec hM hM0) ops' t E m h hm
  rw [hrun'] at e'; cases e'
  obtain ⟨v, hv⟩ := (h.getAddr_iff hi0).1 hi
  obtain ⟨v', hv'⟩ := hk i k v hv (by
    rintro ⟨op, o⟩ hx rfl
    exact hno (List.of_mem_zip hx).1)
  exact ⟨h'.getAddr_some hv', v', getNode_ok h'.base hv', (laws hM hM0).get_some h' hv'⟩

/-- C40: `iter_mut()` driven in any order with writes through every reference: the slots handed
out are pairwise distinct, in bounds, and each is the address of the key read there; exactly the
visited entries get the new values; no address, link or height changes. -/
theorem C40_avl_iter_mut (hM0 : 0 < M) (hM : M + 1 < 2 ^ 32) (z : AVLNode K V) (ops : List (Op K V))
    {t : AVLTree K V M} {outs : List (Out K V)}
    (hrun : run call (AVLTree.new z) ops = .ok (t, outs)) (es : List (End × (K → V → V))) :
    ∃ t' it items, api.iterMut t es = .ok (t', it, items) ∧
      ((items.filterMap id).map Prod.fst).Nodup ∧
      (∀ x ∈ items.filterMap id, 1 ≤ x.1 ∧ x.1 ≤ M ∧ t.getAddr x.2.1 = .ok x.1 ∧
        t.get x.2.1 = .ok (some x.2.2)) ∧
      t'.len = t.len ∧ (∀ k, t'.getAddr k = t.getAddr k) ∧
      t'.root = t.root ∧ (∀ i r, t'.allocator.getRegister i r = t.allocator.getRegister i r) ∧
      ∃ L : List (K × V), L.Pairwise (fun a b => a.1 < b.1) ∧
        (∀ k v, (k, v) ∈ L ↔ t.get k = .ok (some v)) ∧
        items.map (Option.map Prod.snd) = (consumeMut L (script es)).1 ∧
        (∀ k v, (k, v) ∈ (consumeMut L (script es)).2 ↔ t'.get k = .ok (some v)) := by
  obtain ⟨t0, os, E, m, e, h, hm, hs⟩ := AVLTree.run_new hM hM0 z ops
  rw [hrun] at e; cases e
  have L := laws (K := K) (V := V) hM hM0
  obtain ⟨t', it, items, e, h1, h2, h3, h4, h5⟩ := L.iterMut_obs h es
  obtain ⟨t1, it1, e1, h'⟩ := L.iterMut h es
  rw [e] at e1
  obtain rfl : t' = t1 := by
    have := congrArg (fun r : R (AVLTree K V M × Iter × List (Option (Nat × K × V))) =>
      match r with | .ok (s, _) => s | .error _ => t) e1
    exact this
  have hA : ∀ {t : AVLTree K V M} {E}, Inv t E → ∀ k, t.getAddr k =
      (t.getMut k).map (fun o => o.getD 0) := by
    intro t E h k
    rcases Ents.cases E k with ha | ⟨L1, i, v, L2, hE⟩
    · rw [h.getAddr_none ha, show t.getMut k = _ from L.getMut_none h ha]; rfl
    · have hi : (i, k, v) ∈ E := by rw [hE]; simp
      rw [h.getAddr_some hi, show t.getMut k = _ from L.getMut_some h hi]; rfl
  have hfr : ∀ i r, t'.root = t.root ∧ t'.allocator.getRegister i r = t.allocator.getRegister i r := by
    intro i r
    have := Api.iterMut_frame (fun s : AVLTree K V M => (s.root, s.allocator.getRegister i r)) (by
      intro s j x s' hw
      have hw : s.setNodeValue j x = .ok s' := hw
      unfold setNodeValue at hw
      cases h1 : s.allocator.getValue j with
      | error _ => rw [h1] at hw; cases hw
      | ok n =>
        simp only [h1, except_bind_ok] at hw
        cases h2 : s.allocator.setValue j { n with value := x } with
        | error _ => rw [h2] at hw; cases hw
        | ok a =>
          rw [h2] at hw; cases hw
          simp only [NodeAllocator.setValue_frame h2]) _ _ e
    simpa using this
  refine ⟨t', it, items, e, h1, fun x hx => ?_, h3, fun k => ?_, (hfr 0 0).1, fun i r => (hfr i r).2, h5⟩
  · obtain ⟨a, b, c, d⟩ := h2 x hx
    exact ⟨a, b, by rw [hA h, show t.getMut _ = _ from c]; rfl, d⟩
  · rw [hA h, hA h', show t'.getMut k = _ from h4 k]; rfl

/-- C30 for the AVL tree: on every reachable tree `insert` returns `None` exactly when the
key is absent and the tree full, and then nothing changes; otherwise (also for a present key in
a full tree) the key is bound to the value and no other key is affected. -/
theorem C30_avl_insert_refused (hM0 : 0 < M) (hM : M + 1 < 2 ^ 32) (z : AVLNode K V) (ops : List (Op K V))
    {t : AVLTree K V M} {outs : List (Out K V)}
    (hrun : run call (AVLTree.new z) ops = .ok (t, outs)) (k : K) (v : V) :
    ∃ t' r, t.insert k v = .ok (t', r) ∧
      (r = none ↔ t.get k = .ok none ∧ t.len = t.capacity) ∧ (r = none → t' = t) ∧
      (r ≠ none → t'.get k = .ok (some v) ∧ (∀ k', k' ≠ k → t'.get k' = t.get k') ∧
        (t.get k = .ok none → t'.len = t.len + 1) ∧ (t.get k ≠ .ok none → t'.len = t.len)) := by
  obtain ⟨t0, os, E, m, e, h, hm, hs⟩ := AVLTree.run_new hM hM0 z ops
  rw [hrun] at e; cases e
  have L := laws (K := K) (V := V) hM hM0
  obtain ⟨t', r, e, h1, h2, h3⟩ := L.insert_obs h k v
  refine ⟨t', r, e, ?_, h2, h3⟩
  rw [h1, Ents.absent_iff hm, show t.get k = _ from L.get h hm k, show t.len = _ from L.len h]
  simp [AVLTree.capacity]

/-- C31 (deviation) for the AVL tree: with `MAX_SIZE = 0`, `insert` panics. -/
theorem C31_avl_capacity_zero_panics (z : AVLNode K V) (k : K) (v : V) :
    ∃ p, (AVLTree.new z : AVLTree K V 0).insert k v = .error p := ⟨_, rfl⟩

omit [LinearOrder K] in
/-- C41 (contract boundary): `AVLTree` only requires `PartialOrd`. For every key type and any two
keys of which the second is neither less nor greater than the first (as `NaN` and any float), inserting `k₂` into
a tree holding only `k₁` adds no entry, returns the address of `k₁` and overwrites its value. -/
theorem C41_avl_incomparable_overwrites [LT K] [DecidableLT K] [PartialGt K] (hM0 : 0 < M) (hM : M + 1 < 2 ^ 32)
    (z : AVLNode K V) (k₁ k₂ : K) (v₁ v₂ : V) (h₁ : ¬ k₁ < k₁) (h₁g : ¬ PartialGt.gt k₁ k₁) (h12 : ¬ PartialGt.gt k₂ k₁) (h21 : ¬ k₂ < k₁) :
    ∃ (t t' : AVLTree K V M) (i : Nat), (AVLTree.new z : AVLTree K V M).insert k₁ v₁ = .ok (t, some i) ∧
      t.get k₁ = .ok (some v₁) ∧ t.insert k₂ v₂ = .ok (t', some i) ∧
      t'.get k₁ = .ok (some v₂) ∧ t'.len = 1 ∧ t'.getNode i = .ok ⟨k₁, v₂⟩ := by
  have hb0 : ABase (AVLTree.new z : AVLTree K V M).allocator [] := Base.new z
  obtain ⟨a', i, e, _, hi1, hi2, hb', hzr, _⟩ := hb0.add hM (by simpa using hM0) k₁ v₁
  have hi : ¬ i = SENTINEL := by simp only [SENTINEL]; omega
  have hz : Z (⟨i, a'⟩ : AVLTree K V M) [] i (.node .nil ⟨i, 0, k₁, v₁⟩ .nil) [] [(i, k₁, v₁)] :=
    ⟨⟨hzr 0 (by omega), hzr 1 (by omega), hzr 2 (by omega), trivial, trivial⟩, rfl,
      by simp [Ctx.lft, Ctx.rgt, GN.ent], by simpa using hb'⟩
  obtain ⟨s', e', hz', hr', _⟩ := Z.setVal (t := .node .nil ⟨i, 0, k₁, v₁⟩ .nil) (L1 := []) (L2 := []) hz v₂
  have hr' : s'.root = i := hr'
  have hg : (⟨i, a'⟩ : AVLTree K V M).getNode i = .ok ⟨k₁, v₁⟩ := getNode_ok hb' (by simp)
  have hb2 := hz'.base
  have hg' : s'.getNode i = .ok ⟨k₁, v₂⟩ := getNode_ok hb2 (by simp)
  have hget : ∀ (t : AVLTree K V M) v, t.root = i → t.getNode i = .ok ⟨k₁, v⟩ → t.get k₁ = .ok (some v) := by
    intro t v hr hn
    unfold AVLTree.get
    rw [hr, if_neg hi]
    simp only [AVLTree.searchLoop, hn, except_bind_ok, if_neg h₁, if_neg h₁g]
    show (if i = SENTINEL then _ else _) = _
    rw [if_neg hi, hn]; rfl
  refine ⟨⟨i, a'⟩, s', i, ?_, hget _ _ rfl hg, ?_, hget _ _ hr' hg', hb2.size, hg'⟩
  · have e : (AVLTree.new z : AVLTree K V M).allocator.addNode ⟨k₁, v₁⟩ = .ok (a', i) := e
    unfold AVLTree.insert
    rw [if_pos (show (AVLTree.new z : AVLTree K V M).root = SENTINEL from rfl), e]; rfl
  · unfold AVLTree.insert
    rw [if_neg hi]
    simp only [AVLTree.insertLoop, hg, except_bind_ok, if_neg h12, if_neg h21, e']; rfl

/-- C06 for the AVL tree: `new_from_slice` on zeroed memory gives `AVLTree::new()`, and
after any history a second `initialize` panics. -/
theorem C06_avl_initialize (hM0 : 0 < M) (hM : M + 1 < 2 ^ 32) (z : AVLNode K V) :
    (AVLTree.zeroed z : AVLTree K V M).initialise = .ok (AVLTree.new z) ∧
    ∀ (ops : List (Op K V)) (t : AVLTree K V M) (outs : List (Out K V)),
      run call (AVLTree.new z) ops = .ok (t, outs) → t.initialise = .error .reinit := by
  refine ⟨rfl, fun ops t outs hrun => ?_⟩
  obtain ⟨t0, os, E, m, e, h, hm, hs⟩ := AVLTree.run_new hM hM0 z ops
  rw [hrun] at e; cases e
  obtain ⟨free, hf⟩ := h.base.inv
  unfold AVLTree.initialise
  rw [NodeAllocator.reinit_of_inv hf]; rfl

/-! ### non-vacuity -/

/-- A history that reaches a full tree of five nodes with single and double rotations, a refused
insert, updates when full, removals of nodes with two children and `iter_mut` from both ends. -/
example : ∃ t, run call (AVLTree.new ⟨0, 0⟩ : AVLTree Nat Nat 5)
    [.insert 1 10, .insert 3 30, .insert 2 20, .insert 5 50, .insert 4 40,
      .insert 6 60, .insert 4 41, .getMut 3 (· + 1), .remove 2,
      .iterMut [(.back, fun _ v => v + 1), (.front, fun k v => k + v), (.front, fun _ v => v),
        (.back, fun _ v => v), (.front, fun _ v => v)], .remove 4] =
    .ok (t, [.inserted true, .inserted true, .inserted true, .inserted true, .inserted true,
      .inserted false, .inserted true, .got (some 30), .removed (some 20),
      .seen [some (5, 50), some (1, 10), some (3, 31), some (4, 41), none], .removed (some 41)]) ∧
    t.len = 3 ∧ t.getMin = .ok (some (1, 11)) ∧ t.getMax = .ok (some (5, 51)) := ⟨_, rfl, rfl, rfl, rfl⟩

/-- The hypotheses of `C39_avl_addr_stable` hold for key 3 (address 3) across rotations and the
removal of the root. -/
example : ∃ t t' outs outs', run call (AVLTree.new ⟨0, 0⟩ : AVLTree Nat Nat 8)
    [.insert 1 10, .insert 2 20, .insert 3 30] = .ok (t, outs) ∧ t.root = 2 ∧
    t.getAddr 3 = .ok 3 ∧
    run call t [.insert 4 40, .remove 2, .insert 5 50, .remove 1] = .ok (t', outs') ∧
    .remove 3 ∉ ([.insert 4 40, .remove 2, .insert 5 50, .remove 1] : List (Op Nat Nat)) ∧
    t'.getAddr 3 = .ok 3 :=
  ⟨_, _, _, _, rfl, rfl, rfl, rfl, by simp, rfl⟩

/-- `C34`: a tree with subtrees of different heights. -/
example : ∃ t outs, run call (AVLTree.new ⟨0, 0⟩ : AVLTree Nat Nat 8)
    [.insert 1 10, .insert 2 20, .insert 3 30, .insert 4 40] = .ok (t, outs) ∧
    walk t t.root [true, true] = .ok 4 ∧ t.getField t.root HEIGHT = .ok 2 ∧
    t.getField t.root LEFT = .ok 1 ∧ t.getField 1 HEIGHT = .ok 0 ∧ t.getField 3 HEIGHT = .ok 1 ∧
    walk t t.root [true, true, false] = .ok 0 :=
  ⟨_, _, rfl, rfl, rfl, rfl, rfl, rfl, rfl⟩

/-- Numbers with a `NaN`, as `PartialOrd` for floats. -/
inductive Fl where
  | num (n : Nat)
  | nan

instance : LT Fl := ⟨fun | .num a, .num b => a < b | _, _ => False⟩

instance : DecidableLT Fl := fun
  | .num a, .num b => inferInstanceAs (Decidable (a < b))
  | .num _, .nan => .isFalse id
  | .nan, .num _ => .isFalse id
  | .nan, .nan => .isFalse id

/-- The hypotheses of `C41` hold for `1` and `NaN`. -/
example : ¬ (Fl.num 1 < .num 1) ∧ ¬ PartialGt.gt (Fl.num 1) (.num 1) ∧ ¬ PartialGt.gt Fl.nan (.num 1) ∧ ¬ (Fl.nan < Fl.num 1) ∧
    (Fl.num 1 < .num 2) ∧ PartialGt.gt (Fl.num 2) (.num 1) ∧ Fl.num 1 ≠ .nan :=
  ⟨by decide, by decide, by decide, by decide, by decide, by decide, nofun⟩

/-- The value of key `1` is replaced on insertion of `NaN`. -/
example : ∃ t t' t'', (AVLTree.new ⟨.num 0, 0⟩ : AVLTree Fl Nat 4).insert (.num 1) 10 = .ok (t, some 1) ∧
    t.insert (.num 2) 20 = .ok (t', some 2) ∧ t'.insert .nan 30 = .ok (t'', some 1) ∧
    t''.get (.num 1) = .ok (some 30) ∧ t''.len = 2 := ⟨_, _, _, rfl, rfl, rfl, rfl, rfl⟩

/-- `C35_avl_depth_fib` cannot be improved: a tree of 7 = fib (4 + 2) - 1 nodes in which the search for 1 takes four
iterations. -/
example : ∃ t outs, run AVLSpec.call (AVLTree.new ⟨0, 0⟩ : AVLTree Nat Nat 60)
    ([5, 3, 7, 2, 4, 6, 1].map fun k => .insert k k) = .ok (t, outs) ∧ t.len + 1 = Nat.fib (4 + 2) ∧
    t.searchLoop 1 3 t.root = .error .diverge ∧ ∀ k, t.searchLoop k 4 t.root = t.getAddr k := by
  obtain ⟨t, outs, e⟩ : ∃ t outs, run AVLSpec.call (AVLTree.new ⟨0, 0⟩ : AVLTree Nat Nat 60)
    ([5, 3, 7, 2, 4, 6, 1].map fun k => .insert k k) = .ok (t, outs) := ⟨_, _, rfl⟩
  have hl : t.len = 7 ∧ t.searchLoop 1 3 t.root = .error .diverge := by cases e; exact ⟨rfl, rfl⟩
  refine ⟨t, outs, e, by rw [hl.1]; decide, hl.2, fun k => ?_⟩
  exact (C35_avl_depth_fib (by omega) (by omega) _ _ e (by rw [hl.1]; decide) k 0 4 (by rw [hl.1]; decide)).1

end Sokoban.Props
