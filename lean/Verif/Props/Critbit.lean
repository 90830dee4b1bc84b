import Verif.Proof.CritbitLaws

/-
Property theorems C42-C51 (Critbit), the Critbit parts of C06 and C31.

A history is a list of calls `ops` made on a new tree (`run call (Critbit.new z w) ops`,
Spec/Run.lean, Spec/Critbit.lean). `Steps (critbitRules _ V M) FMap.empty ops outs m` says that on
a mathematical finite map the calls `ops` have the results `outs` and lead to `m`, where `insert`
is refused exactly when the map has `MAX_SIZE` entries (Spec/Map.lean). `N` is `NUM_NODES`, `M` is
`MAX_SIZE`.
-/
namespace Sokoban.Props
open MapSpec CritbitSpec Critbit
variable {V : Type} {N M : Nat}

/-- C42: every history completes, with the results of a finite map of which only `insert` at
full size is refused, and afterwards `get`, `contains`, `len`, `is_empty` and `Index` agree with
that map. -/
theorem C42_critbit_refines_map (hM0 : 0 < M) (hNM : 2 * M ≤ N) (hN : N + 1 < 2 ^ 32) (z : CritbitNode) (w : V)
    (ops : List (Op (BitVec 128) V)) :
    ∃ (t : Critbit V N M) (outs : List (Out (BitVec 128) V)) (m : FMap (BitVec 128) V),
      run call (Critbit.new z w) ops = .ok (t, outs) ∧ Steps (critbitRules (BitVec 128) V M) FMap.empty ops outs m ∧
      (∀ k, t.get k = .ok (m.get k)) ∧ (∀ k, t.contains k = .ok (m.get k).isSome) ∧
      (∀ k, t.index k = unwrap (m.get k)) ∧
      t.len = m.len ∧ m.len ≤ M ∧ t.isEmpty = decide (m.len = 0) := by
  obtain ⟨t, os, E, m, e, h, hm, hs⟩ := Critbit.run_new hN hNM hM0 z w ops
  exact ⟨t, os, m, e, hs, (laws hN hNM hM0).observe h hm⟩

/-- C43 (deviation): on every reachable full tree `insert` of any key, also of a present one,
returns `None` and changes nothing. -/
theorem C43_critbit_full_refuses (hM0 : 0 < M) (hNM : 2 * M ≤ N) (hN : N + 1 < 2 ^ 32) (z : CritbitNode) (w : V)
    (ops : List (Op (BitVec 128) V)) {t : Critbit V N M} {outs : List (Out (BitVec 128) V)}
    (hrun : run call (Critbit.new z w) ops = .ok (t, outs)) (hfull : t.len = t.capacity) (k : BitVec 128) (v : V) :
    t.insert k v = .ok (t, none) := by
  obtain ⟨t0, os, E, m, e, h, hm, hs⟩ := Critbit.run_new hN hNM hM0 z w ops
  rw [hrun] at e; cases e
  have hl := h.len
  rcases h.insert hN hNM hM0 k v with ⟨_, e⟩ | ⟨hne, _⟩
  · exact e
  · exact absurd (hl.symm.trans hfull) hne

/-- C43: below capacity `insert` succeeds and binds the key to the value, whether or not it
was present; no other key is affected. -/
theorem C43_critbit_insert_below_capacity (hM0 : 0 < M) (hNM : 2 * M ≤ N) (hN : N + 1 < 2 ^ 32) (z : CritbitNode)
    (w : V) (ops : List (Op (BitVec 128) V)) {t : Critbit V N M} {outs : List (Out (BitVec 128) V)}
    (hrun : run call (Critbit.new z w) ops = .ok (t, outs)) (hlt : t.len < t.capacity) (k : BitVec 128) (v : V) :
    ∃ t' i, t.insert k v = .ok (t', some i) ∧ t'.get k = .ok (some v) ∧ (∀ k', k' ≠ k → t'.get k' = t.get k') ∧
      (t.get k = .ok none → t'.len = t.len + 1) ∧ (t.get k ≠ .ok none → t'.len = t.len) := by
  obtain ⟨t0, os, E, m, e, h, hm, hs⟩ := Critbit.run_new hN hNM hM0 z w ops
  rw [hrun] at e; cases e
  obtain ⟨t', r, e, h1, h2, h3⟩ := (laws hN hNM hM0).insert_obs h k v
  have hl := h.len
  have hr : r ≠ none := fun hc => by
    have := h1.1 hc
    have hlt : t.len < M := hlt
    omega
  cases r with
  | none => exact absurd rfl hr
  | some i => exact ⟨t', i, e, h3 hr⟩

/-- C43: a present key can always, also in a full tree, be updated through `get_mut`. -/
theorem C43_critbit_get_mut_updates (hM0 : 0 < M) (hNM : 2 * M ≤ N) (hN : N + 1 < 2 ^ 32) (z : CritbitNode)
    (w : V) (ops : List (Op (BitVec 128) V)) {t : Critbit V N M} {outs : List (Out (BitVec 128) V)}
    (hrun : run call (Critbit.new z w) ops = .ok (t, outs)) (k : BitVec 128) (v v' : V) (hk : t.get k = .ok (some v)) :
    ∃ i t', t.getMut k = .ok (some i) ∧ t.replaceLeaf i v' = .ok t' ∧ t'.get k = .ok (some v') ∧
      (∀ k', k' ≠ k → t'.get k' = t.get k') ∧ t'.len = t.len := by
  obtain ⟨t0, os, E, m, e, h, hm, hs⟩ := Critbit.run_new hN hNM hM0 z w ops
  rw [hrun] at e; cases e
  obtain ⟨i, t', e1, _, e2, h1, h2, h3⟩ := (laws hN hNM hM0).getMut_obs h hk v'
  exact ⟨i, t', e1, e2, h1, h2, h3⟩

/-- C44: on every reachable tree, `iter()` driven by any mix of `next` and `next_back` consumes
from both ends the strictly ascending list of exactly the entries of the tree. -/
theorem C44_critbit_iter (hM0 : 0 < M) (hNM : 2 * M ≤ N) (hN : N + 1 < 2 ^ 32) (z : CritbitNode) (w : V)
    (ops : List (Op (BitVec 128) V)) {t : Critbit V N M} {outs : List (Out (BitVec 128) V)}
    (hrun : run call (Critbit.new z w) ops = .ok (t, outs)) :
    ∃ L : List (BitVec 128 × V), L.Pairwise (fun a b => a.1.toNat < b.1.toNat) ∧
      (∀ k v, (k, v) ∈ L ↔ t.get k = .ok (some v)) ∧ L.length = t.len ∧
      ∀ es, ∃ it', drive (Iter.next t) (Iter.nextBack t) t.iter es = .ok (it', consume L es) := by
  obtain ⟨t0, os, E, m, e, h, hm, hs⟩ := Critbit.run_new hN hNM hM0 z w ops
  rw [hrun] at e; cases e
  exact (laws hN hNM hM0).iter_obs h

/-- C45: `get_min` is the entry with the numerically least key, `None` exactly when the tree is
empty; `get_min_index` is its address. -/
theorem C45_critbit_min (hM0 : 0 < M) (hNM : 2 * M ≤ N) (hN : N + 1 < 2 ^ 32) (z : CritbitNode) (w : V)
    (ops : List (Op (BitVec 128) V)) {t : Critbit V N M} {outs : List (Out (BitVec 128) V)}
    (hrun : run call (Critbit.new z w) ops = .ok (t, outs)) :
    (t.len = 0 ∧ t.getMin = .ok none ∧ t.getMinIndex = .ok SENTINEL) ∨
    ∃ k v i, t.len ≠ 0 ∧ t.getMin = .ok (some (k, v)) ∧ t.getMinIndex = .ok i ∧ i ≠ SENTINEL ∧
      t.getAddr k = .ok i ∧ t.get k = .ok (some v) ∧ ∀ k' v', t.get k' = .ok (some v') → k.toNat ≤ k'.toNat := by
  obtain ⟨t0, os, E, m, e, h, hm, hs⟩ := Critbit.run_new hN hNM hM0 z w ops
  rw [hrun] at e; cases e
  have L := laws (V := V) hN hNM hM0
  rcases id h with ⟨h0, rfl⟩ | ⟨T, hT, rfl⟩
  · exact Or.inl ⟨h0.len, h0.extremes.2.2.1, h0.extremes.1⟩
  · right
    obtain ⟨n, j, k, v, l, hl, h1, h2⟩ := hT.min
    have hm : (n, j, k, v) ∈ T.nents := by rw [hl]; simp
    obtain ⟨_, _, _, _, h5, _⟩ := hT.leaf hm
    refine ⟨k, v, n, hT.len_ne, h2, h1, by simp [SENTINEL]; omega, hT.getAddr_some hm,
      h.get_some (CT.mem_nents hm).1, fun k' v' hk' => ?_⟩
    obtain ⟨y, hy, hyk⟩ := List.mem_map.1 ((L.mem_iff h k' v').2 hk')
    have hso := h.sorted
    rw [← CT.map_nents, hl] at hy hso
    simp only [List.map_cons] at hy hso
    rcases List.mem_cons.1 hy with rfl | hy
    · cases hyk; exact Nat.le_refl _
    · have := (List.pairwise_cons.1 hso).1 y hy
      rw [hyk] at this
      exact Nat.le_of_lt this

/-- C45: `get_max` is the entry with the numerically greatest key, `None` exactly when the tree is
empty; `get_max_index` is its address. -/
theorem C45_critbit_max (hM0 : 0 < M) (hNM : 2 * M ≤ N) (hN : N + 1 < 2 ^ 32) (z : CritbitNode) (w : V)
    (ops : List (Op (BitVec 128) V)) {t : Critbit V N M} {outs : List (Out (BitVec 128) V)}
    (hrun : run call (Critbit.new z w) ops = .ok (t, outs)) :
    (t.len = 0 ∧ t.getMax = .ok none ∧ t.getMaxIndex = .ok SENTINEL) ∨
    ∃ k v i, t.len ≠ 0 ∧ t.getMax = .ok (some (k, v)) ∧ t.getMaxIndex = .ok i ∧ i ≠ SENTINEL ∧
      t.getAddr k = .ok i ∧ t.get k = .ok (some v) ∧ ∀ k' v', t.get k' = .ok (some v') → k'.toNat ≤ k.toNat := by
  obtain ⟨t0, os, E, m, e, h, hm, hs⟩ := Critbit.run_new hN hNM hM0 z w ops
  rw [hrun] at e; cases e
  have L := laws (V := V) hN hNM hM0
  rcases id h with ⟨h0, rfl⟩ | ⟨T, hT, rfl⟩
  · exact Or.inl ⟨h0.len, h0.extremes.2.2.2, h0.extremes.2.1⟩
  · right
    obtain ⟨n, j, k, v, l, hl, h1, h2⟩ := hT.max
    have hm : (n, j, k, v) ∈ T.nents := by rw [hl]; simp
    obtain ⟨_, _, _, _, h5, _⟩ := hT.leaf hm
    refine ⟨k, v, n, hT.len_ne, h2, h1, by simp [SENTINEL]; omega, hT.getAddr_some hm,
      h.get_some (CT.mem_nents hm).1, fun k' v' hk' => ?_⟩
    obtain ⟨y, hy, hyk⟩ := List.mem_map.1 ((L.mem_iff h k' v').2 hk')
    have hso := h.sorted
    rw [← CT.map_nents, hl] at hy hso
    simp only [List.map_append, List.map_cons, List.map_nil] at hy hso
    rcases List.mem_append.1 hy with hy | hy
    · have := (List.pairwise_append.1 hso).2.2 y hy (j, k, v) (by simp)
      rw [hyk] at this
      exact Nat.le_of_lt this
    · simp only [List.mem_singleton] at hy
      subst hy; cases hyk; exact Nat.le_refl _

/-- C46: no call in any history panics or loops, nor does any query afterwards; only `Index` and
`IndexMut` on an absent key and `get_addr` on an empty tree panic. -/
theorem C46_critbit_never_panics (hM0 : 0 < M) (hNM : 2 * M ≤ N) (hN : N + 1 < 2 ^ 32) (z : CritbitNode) (w : V)
    (ops : List (Op (BitVec 128) V)) :
    ∃ (t : Critbit V N M) (outs : List (Out (BitVec 128) V)),
      run call (Critbit.new z w) ops = .ok (t, outs) ∧
      (∀ op, ∃ t' o, call t op = .ok (t', o)) ∧
      (∀ k, (∃ r, t.get k = .ok r) ∧ (∃ r, t.contains k = .ok r) ∧ (∃ r, t.getMut k = .ok r) ∧
        ((∃ p, t.getAddr k = .error p) ↔ t.len = 0) ∧
        ((∃ p, t.index k = .error p) ↔ t.get k = .ok none) ∧
        ((∃ p, t.indexMut k = .error p) ↔ t.get k = .ok none)) ∧
      (∃ r, t.getMin = .ok r) ∧ (∃ r, t.getMax = .ok r) ∧
      (∀ es, ∃ r, drive (Iter.next t) (Iter.nextBack t) t.iter es = .ok r) := by
  obtain ⟨t, os, E, m, e, h, hm, hs⟩ := Critbit.run_new hN hNM hM0 z w ops
  have L := laws (V := V) hN hNM hM0
  obtain ⟨o1, o2, o3, _⟩ := L.observe h hm
  refine ⟨t, os, e, fun op => ?_, fun k => ⟨⟨_, o1 k⟩, ⟨_, o2 k⟩, ?_, ?_, ?_, ?_⟩, ?_, ?_, fun es => ?_⟩
  · obtain ⟨t', o, _, _, e', _⟩ := call_spec hN hNM hM0 t E m op h hm
    exact ⟨t', o, e'⟩
  · rcases Ents.cases E k with ha | ⟨L1, i, v, L2, hE⟩
    · exact ⟨_, L.getMut_none h ha⟩
    · exact ⟨_, L.getMut_some h (i := i) (v := v) (by rw [hE]; simp)⟩
  · rcases h with ⟨h, rfl⟩ | ⟨T, h, rfl⟩
    · simp [h.getAddr k, h.len]
    · simp only [h.len_ne, iff_false]
      rcases Ents.cases T.ents k with ha | ⟨L1, i, v, L2, hE⟩
      · simp [h.getAddr_none ha]
      · obtain ⟨n, hn⟩ := CT.mem_ents (t := T) (j := i) (k := k) (v := v) (by rw [hE]; simp)
        simp [h.getAddr_some hn]
  · rw [show t.index k = _ from o3 k, show t.get k = _ from o1 k]
    cases m.get k <;> simp [unwrap]
  · unfold Critbit.indexMut
    rw [show t.get k = _ from o1 k]
    rcases Ents.cases E k with ha | ⟨L1, i, v, L2, hE⟩
    · rw [show t.getMut k = _ from L.getMut_none h ha, Ents.get_none hm ha]; simp [unwrap]
    · have hi : (i, k, v) ∈ E := by rw [hE]; simp
      rw [show t.getMut k = _ from L.getMut_some h hi, Ents.get_some hm hi]; simp [unwrap]
  · rcases h with ⟨h, rfl⟩ | ⟨T, h, rfl⟩
    · exact ⟨_, h.extremes.2.2.1⟩
    · obtain ⟨_, _, _, _, _, _, _, e⟩ := h.min; exact ⟨_, e⟩
  · rcases h with ⟨h, rfl⟩ | ⟨T, h, rfl⟩
    · exact ⟨_, h.extremes.2.2.2⟩
    · obtain ⟨_, _, _, _, _, _, _, e⟩ := h.max; exact ⟨_, e⟩
  · obtain ⟨it, e⟩ := L.drive h es
    exact ⟨_, e⟩

/-- C47: the loops of all operations handle one node per iteration; on every reachable non-empty
tree 129 iterations (or any larger number) give the result of the operation itself, whatever
`NUM_NODES` is: the search of `get`, `get_mut` and `get_addr`, `insert`, `remove` (whose loop
starts below the root) and the descents of `get_min` and `get_max`. -/
theorem C47_critbit_depth (hM0 : 0 < M) (hNM : 2 * M ≤ N) (hN : N + 1 < 2 ^ 32) (z : CritbitNode) (w : V)
    (ops : List (Op (BitVec 128) V)) {t : Critbit V N M} {outs : List (Out (BitVec 128) V)}
    (hrun : run call (Critbit.new z w) ops = .ok (t, outs)) (hne : t.len ≠ 0) (k : BitVec 128) (v : V)
    (fuel : Nat) (hf : 129 ≤ fuel) :
    (∃ o, t.findLoop k fuel t.root = .ok o ∧ t.getAddr k = .ok (o.getD SENTINEL) ∧
      t.getMut k = (match o with | none => .ok none | some n => (t.getLeafIndex n).map some) ∧
      t.get k = (match o with | none => .ok none | some n => (t.getLeafIndex n).bind fun j => (t.getLeaf j).map some)) ∧
    (t.len < t.capacity → t.insertLoop k v fuel t.root = t.insert k v) ∧
    (∀ n c b, t.isInnerNode t.root = .ok true → t.getNode t.root = .ok n →
      t.getChild n.prefixLen t.root k = .ok (c, b) →
      ∃ o, t.removeLoop k (fuel - 1) t.root c b = .ok o ∧
        match o with
        | none => t.remove k = .ok (t, none)
        | some (p, c, b) => t.remove k = (t.removeAt p c b).map fun x => (x.1, some x.2)) ∧
    t.minLoop fuel t.root = t.getMinIndex ∧ t.maxLoop fuel t.root = t.getMaxIndex := by
  obtain ⟨t0, os, E, m, e, h, hm, hs⟩ := Critbit.run_new hN hNM hM0 z w ops
  rw [hrun] at e; cases e
  have hI := h
  rcases h with ⟨h, rfl⟩ | ⟨T, h, rfl⟩
  · exact absurd h.len hne
  obtain ⟨d1, d2, d3, d4, d5⟩ := h.depth hN hNM k v hf
  refine ⟨?_, d2, ?_, d4, d5⟩
  · rw [d1]
    rcases Ents.cases T.ents k with ha | ⟨L1, i, v, L2, hE⟩
    · exact ⟨none, h.find_none ha, h.getAddr_none ha, hI.getMut_none ha, hI.get_none ha⟩
    · have hi : (i, k, v) ∈ T.ents := by rw [hE]; simp
      obtain ⟨n, hn⟩ := CT.mem_ents hi
      obtain ⟨l1, l2, _⟩ := h.leaf hn
      refine ⟨some n, h.find_some hn, h.getAddr_some hn, ?_, ?_⟩
      · show _ = (t.getLeafIndex n).map some
        rw [hI.getMut_some hi, l1]; rfl
      · show _ = (t.getLeafIndex n).bind fun j => (t.getLeaf j).map some
        rw [hI.get_some hi, l1]
        show _ = (t.getLeaf i).map some
        rw [l2]; rfl
  · intro n c b hi hn hc
    rw [d3 n c b hi hn hc]
    obtain ⟨t', r, e⟩ : ∃ t' r, t.remove k = .ok (t', r) := by
      rcases hI.remove k with ⟨_, e⟩ | ⟨_, _, _, e, _⟩ <;> exact ⟨_, _, e⟩
    have hr := e
    unfold Critbit.remove at hr
    simp only [if_neg hne, hi, hn, hc, except_bind_ok, if_true] at hr
    cases ho : t.removeLoop k (N + 1) t.root c b with
    | error p => rw [ho] at hr; cases hr
    | ok o =>
      refine ⟨o, rfl, ?_⟩
      rw [ho] at hr
      cases o with
      | none => cases hr; exact e
      | some x =>
        obtain ⟨p, c', b'⟩ := x
        simp only [except_bind_ok] at hr
        simp only
        rw [e]
        cases hx : t.removeAt p c' b' with
        | error p => rw [hx] at hr; cases hr
        | ok y =>
          obtain ⟨t1, v1⟩ := y
          rw [hx] at hr
          simp only [except_bind_ok, rassert] at hr
          split at hr
          · cases hr
          split at hr
          · split at hr
            · cases hr
            split at hr
            · cases hr; rfl
            · cases hr
          · cases hr

/-- C48 (deviation): on every reachable empty tree `get_addr` panics, for every key. -/
theorem C48_critbit_get_addr_empty_panics (hM0 : 0 < M) (hNM : 2 * M ≤ N) (hN : N + 1 < 2 ^ 32) (z : CritbitNode)
    (w : V) (ops : List (Op (BitVec 128) V)) {t : Critbit V N M} {outs : List (Out (BitVec 128) V)}
    (hrun : run call (Critbit.new z w) ops = .ok (t, outs)) (hl : t.len = 0) (k : BitVec 128) :
    t.getAddr k = .error .indexOutOfBounds := by
  obtain ⟨t0, os, E, m, e, h, hm, hs⟩ := Critbit.run_new hN hNM hM0 z w ops
  rw [hrun] at e; cases e
  rcases h with ⟨h, rfl⟩ | ⟨T, h, rfl⟩
  · exact h.getAddr k
  · exact absurd hl h.len_ne

/-- C48: on a non-empty tree `get_addr` is `SENTINEL` for an absent key, and otherwise the node that
holds the key and the index of the slot of its value. -/
theorem C48_critbit_get_addr (hM0 : 0 < M) (hNM : 2 * M ≤ N) (hN : N + 1 < 2 ^ 32) (z : CritbitNode)
    (w : V) (ops : List (Op (BitVec 128) V)) {t : Critbit V N M} {outs : List (Out (BitVec 128) V)}
    (hrun : run call (Critbit.new z w) ops = .ok (t, outs)) (hl : t.len ≠ 0) (k : BitVec 128) :
    (t.get k = .ok none ∧ t.getAddr k = .ok SENTINEL) ∨
    ∃ n j v, t.getAddr k = .ok n ∧ n ≠ SENTINEL ∧ t.getKey n = .ok k ∧ t.getLeafIndex n = .ok j ∧
      t.getMut k = .ok (some j) ∧ t.getLeaf j = .ok v ∧ t.get k = .ok (some v) := by
  obtain ⟨t0, os, E, m, e, h, hm, hs⟩ := Critbit.run_new hN hNM hM0 z w ops
  rw [hrun] at e; cases e
  have hI := h
  rcases h with ⟨h, rfl⟩ | ⟨T, h, rfl⟩
  · exact absurd h.len hl
  rcases Ents.cases T.ents k with ha | ⟨L1, i, v, L2, hE⟩
  · exact Or.inl ⟨hI.get_none ha, h.getAddr_none ha⟩
  · have hi : (i, k, v) ∈ T.ents := by rw [hE]; simp
    obtain ⟨n, hn⟩ := CT.mem_ents hi
    obtain ⟨l1, l2, l3, l4, l5, l6⟩ := h.leaf hn
    exact Or.inr ⟨n, i, v, h.getAddr_some hn, by simp [SENTINEL]; omega, l3, l1, hI.getMut_some hi, l2, hI.get_some hi⟩

/-- C49: `insert` returns the address that `get_addr` reports right afterwards. -/
theorem C49_critbit_insert_addr (hM0 : 0 < M) (hNM : 2 * M ≤ N) (hN : N + 1 < 2 ^ 32) (z : CritbitNode)
    (w : V) (ops : List (Op (BitVec 128) V)) {t t' : Critbit V N M} {outs : List (Out (BitVec 128) V)}
    (hrun : run call (Critbit.new z w) ops = .ok (t, outs)) (k : BitVec 128) (v : V) (i : Nat)
    (hi : t.insert k v = .ok (t', some i)) :
    i ≠ SENTINEL ∧ t'.getAddr k = .ok i ∧ t'.getKey i = .ok k := by
  obtain ⟨t0, os, E, m, e, h, hm, hs⟩ := Critbit.run_new hN hNM hM0 z w ops
  rw [hrun] at e; cases e
  rcases h.insert hN hNM hM0 k v with ⟨_, e⟩ | ⟨_, s', n, j, T', e, hT, hn, _⟩
  · rw [hi] at e; cases e
  · rw [hi] at e; cases e
    obtain ⟨l1, l2, l3, l4, l5, l6⟩ := hT.leaf hn
    exact ⟨by simp [SENTINEL]; omega, hT.getAddr_some hn, l3⟩

/-- C49 (deviation): addresses are not stable. For any two keys, inserting the second into a tree that
holds only the first moves the first: its address is no longer the one `insert` returned, which
now belongs to a node without a value. Removing the second moves it back. -/
theorem C49_critbit_addr_unstable (hM : 2 ≤ M) (hNM : 2 * M ≤ N) (hN : N + 1 < 2 ^ 32) (z : CritbitNode)
    (w : V) (ops : List (Op (BitVec 128) V)) {t : Critbit V N M} {outs : List (Out (BitVec 128) V)}
    (hrun : run call (Critbit.new z w) ops = .ok (t, outs)) (hl : t.len = 0) (k₁ k₂ : BitVec 128) (v₁ v₂ : V)
    (hk : k₁ ≠ k₂) :
    ∃ (t₁ t₂ t₃ : Critbit V N M) (a b c : Nat),
      t.insert k₁ v₁ = .ok (t₁, some a) ∧ t₁.insert k₂ v₂ = .ok (t₂, some b) ∧
      t₂.getAddr k₁ = .ok c ∧ c ≠ SENTINEL ∧ c ≠ a ∧ t₂.isInnerNode a = .ok true ∧
      t₂.remove k₂ = .ok (t₃, some v₂) ∧ t₃.getAddr k₁ = .ok a := by
  have hM0 : 0 < M := by omega
  obtain ⟨t0, os, E, m, e, h, hm, hs⟩ := Critbit.run_new hN hNM hM0 z w ops
  rw [hrun] at e; cases e
  have L := laws (V := V) hN hNM hM0
  have hE : E = [] := List.eq_nil_of_length_eq_zero (by rw [← h.len]; exact hl)
  subst hE
  rcases h.insert hN hNM hM0 k₁ v₁ with ⟨h0, _⟩ | ⟨_, t₁, a, j₁, T₁, e₁, h₁, hm₁, hi₁, _⟩
  · simp at h0; omega
  have hE₁ : T₁.ents = [(j₁, k₁, v₁)] := by
    rcases hi₁ with ⟨L1, v0, L2, h1, _⟩ | ⟨_, _, L1, L2, h1, h2⟩
    · simp at h1
    · have := List.append_eq_nil_iff.1 h1.symm
      rw [this.1, this.2] at h2; exact h2
  have ha : a = t₁.root := h₁.addr_root (by rw [hE₁]; rfl) hm₁
  have I₁ : Inv t₁ T₁.ents := Or.inr ⟨T₁, h₁, rfl⟩
  rcases I₁.insert hN hNM hM0 k₂ v₂ with ⟨h0, _⟩ | ⟨_, t₂, b, j₂, T₂, e₂, h₂, hm₂, hi₂, hr₂⟩
  · rw [hE₁] at h0; simp at h0; omega
  have I₂ : Inv t₂ T₂.ents := Or.inr ⟨T₂, h₂, rfl⟩
  have hr₂ : t₂.root = a := by rw [hr₂.1 (by rw [hE₁]; simp), ha]
  have hlen₂ : T₂.ents.length = 2 := by
    rcases hi₂ with ⟨L1, v0, L2, h1, _⟩ | ⟨_, _, L1, L2, h1, h2⟩
    · have : (j₂, k₂, v0) ∈ T₁.ents := by rw [h1]; simp
      rw [hE₁] at this; simp at this; exact absurd this.2.1.symm hk
    · rw [h2]
      have := congrArg List.length h1
      rw [hE₁] at this
      simp at this ⊢; omega
  obtain ⟨v', hv'⟩ := hi₂.kept j₁ k₁ v₁ (by rw [hE₁]; simp) (by simp)
  obtain ⟨c, hc⟩ := CT.mem_ents hv'
  have hca : c ≠ a := by rw [← hr₂]; exact h₂.addr_ne_root (by omega) hc
  have hin : t₂.isInnerNode a = .ok true := by
    rw [← hr₂, h₂.root]
    have hsh := h₂.sh
    have hrad := h₂.rad
    cases T₂ with
    | leaf i j k v => simp at hlen₂
    | inner i p k l r => exact (hsh.inner hrad.1).2.1
  have hj₂ : (j₂, k₂, v₂) ∈ T₂.ents := hi₂.mem
  rcases I₂.remove k₂ with ⟨h0, _⟩ | ⟨t₃, v, E', e₃, I₃, hd, hr₃⟩
  · exact absurd rfl (h0 _ hj₂)
  have hv : v = v₂ := by
    obtain ⟨i, hi⟩ := hd.mem
    exact (Ents.slot_unique (L.lists I₂) hi hj₂).2
  subst hv
  have hk₁ := hd.kept' hv' hk
  have hlen₃ : E'.length = 1 := by
    obtain ⟨L1, i, L2, h1, h2⟩ := hd
    rw [h1] at hlen₂; rw [h2]
    simp at hlen₂ ⊢; omega
  have hr₄ : t₃.root = t₂.root := hr₃.1 (fun hc => by rw [hc] at hk₁; cases hk₁)
  rcases I₃ with ⟨_, rfl⟩ | ⟨T₃, h₃, rfl⟩
  · cases hk₁
  obtain ⟨d, hd⟩ := CT.mem_ents hk₁
  have hda := h₃.addr_root hlen₃ hd
  obtain ⟨_, _, _, _, l5, _⟩ := h₂.leaf hc
  refine ⟨t₁, t₂, t₃, a, b, c, e₁, e₂, h₂.getAddr_some hc, by simp [SENTINEL]; omega, hca, hin, e₃, ?_⟩
  rw [h₃.getAddr_some hd, hda, hr₄, hr₂]

/-- C49: the slot of the value does not move: as long as `k` is not removed, `get_mut` refers to the
same slot, which holds the current value, whatever else happens. -/
theorem C49_critbit_slot_stable (hM0 : 0 < M) (hNM : 2 * M ≤ N) (hN : N + 1 < 2 ^ 32) (z : CritbitNode)
    (w : V) (ops ops' : List (Op (BitVec 128) V)) {t t' : Critbit V N M} {outs outs' : List (Out (BitVec 128) V)}
    (hrun : run call (Critbit.new z w) ops = .ok (t, outs)) (k : BitVec 128) (i : Nat)
    (hi : t.getMut k = .ok (some i)) (hrun' : run call t ops' = .ok (t', outs')) (hno : .remove k ∉ ops') :
    t'.getMut k = .ok (some i) ∧ ∃ v, t'.getLeaf i = .ok v ∧ t'.get k = .ok (some v) := by
  obtain ⟨t0, os, E, m, e, h, hm, hs⟩ := Critbit.run_new hN hNM hM0 z w ops
  rw [hrun] at e; cases e
  obtain ⟨t1, os', E', m', e', h', hm', _, hk⟩ := run_trace (gone := fun op _ k => op = .remove k)
    (call_spec hN hNM hM0) ops' t E m h hm
  rw [hrun'] at e'; cases e'
  obtain ⟨v, hv⟩ := ((laws hN hNM hM0).getMut_iff h k i).1 hi
  obtain ⟨v', hv'⟩ := hk i k v hv (by
    rintro ⟨op, o⟩ hx rfl
    exact hno (List.of_mem_zip hx).1)
  exact ⟨h'.getMut_some hv', v', h'.getLeaf hv', h'.get_some hv'⟩

/-- C50: `iter_mut()` driven in any order with writes through every reference: the slots handed
out are pairwise distinct, in bounds, and each is the slot of the key read there; exactly the
visited entries get the new values; no address and nothing in the node allocator changes. -/
theorem C50_critbit_iter_mut (hM0 : 0 < M) (hNM : 2 * M ≤ N) (hN : N + 1 < 2 ^ 32) (z : CritbitNode)
    (w : V) (ops : List (Op (BitVec 128) V)) {t : Critbit V N M} {outs : List (Out (BitVec 128) V)}
    (hrun : run call (Critbit.new z w) ops = .ok (t, outs)) (es : List (End × (BitVec 128 → V → V))) :
    ∃ t' it items, api.iterMut t es = .ok (t', it, items) ∧
      ((items.filterMap id).map Prod.fst).Nodup ∧
      (∀ x ∈ items.filterMap id, 1 ≤ x.1 ∧ x.1 ≤ M ∧ t.getMut x.2.1 = .ok (some x.1) ∧
        t.get x.2.1 = .ok (some x.2.2)) ∧
      t'.len = t.len ∧ (∀ k, t'.getMut k = t.getMut k) ∧ (∀ k, t'.getAddr k = t.getAddr k) ∧
      t'.root = t.root ∧ t'.nodeAllocator = t.nodeAllocator ∧
      (∀ i r, t'.leaves.getRegister i r = t.leaves.getRegister i r) ∧
      ∃ L : List (BitVec 128 × V), L.Pairwise (fun a b => a.1.toNat < b.1.toNat) ∧
        (∀ k v, (k, v) ∈ L ↔ t.get k = .ok (some v)) ∧
        items.map (Option.map Prod.snd) = (consumeMut L (script es)).1 ∧
        (∀ k v, (k, v) ∈ (consumeMut L (script es)).2 ↔ t'.get k = .ok (some v)) := by
  obtain ⟨t0, os, E, m, e, h, hm, hs⟩ := Critbit.run_new hN hNM hM0 z w ops
  rw [hrun] at e; cases e
  have L := laws (V := V) hN hNM hM0
  obtain ⟨t', it, items, e, h1, h2, h3, h4, h5⟩ := L.iterMut_obs h es
  have hfr : ∀ i r, t'.root = t.root ∧ t'.nodeAllocator = t.nodeAllocator ∧
      t'.leaves.getRegister i r = t.leaves.getRegister i r := by
    intro i r
    have := Api.iterMut_frame (fun s : Critbit V N M => (s.root, s.nodeAllocator, s.leaves.getRegister i r)) (by
      intro s j x s' hw
      have hw : s.replaceLeaf j x = .ok s' := hw
      unfold replaceLeaf at hw
      cases h2 : s.leaves.setValue j x with
      | error _ => rw [h2] at hw; cases hw
      | ok a =>
        rw [h2] at hw; cases hw
        simp only [NodeAllocator.setValue_frame h2]) _ _ e
    simpa using this
  have hA : ∀ k, t'.getAddr k = t.getAddr k := by
    intro k
    unfold Critbit.getAddr
    rw [findLoop_frame (hfr 0 0).2.1, (hfr 0 0).1]
  exact ⟨t', it, items, e, h1, h2, h3, h4, hA, (hfr 0 0).1, (hfr 0 0).2.1, fun i r => (hfr i r).2.2, h5⟩

/-- C51: after every history the leaf allocator holds `len` live nodes and the node allocator
`2 * len - 1` (none when empty). -/
theorem C51_critbit_allocators_in_step (hM0 : 0 < M) (hNM : 2 * M ≤ N) (hN : N + 1 < 2 ^ 32) (z : CritbitNode) (w : V)
    (ops : List (Op (BitVec 128) V)) {t : Critbit V N M} {outs : List (Out (BitVec 128) V)}
    (hrun : run call (Critbit.new z w) ops = .ok (t, outs)) :
    t.leaves.size = t.len ∧ t.nodeAllocator.size = 2 * t.len - 1 ∧ t.len ≤ M ∧ t.nodeAllocator.size < N := by
  obtain ⟨t0, os, E, m, e, h, hm, hs⟩ := Critbit.run_new hN hNM hM0 z w ops
  rw [hrun] at e; cases e
  obtain ⟨h1, h2⟩ := h.sizes
  have h3 := h.len
  have h4 := h.le
  exact ⟨by omega, by omega, by omega, by omega⟩

/-- C51: `Critbit::new` accepts the parameters exactly when `NUM_NODES >= 2 * MAX_SIZE`. -/
theorem C51_critbit_new_checked (z : CritbitNode) (w : V) :
    (2 * M ≤ N → Critbit.newChecked z w = .ok (Critbit.new z w : Critbit V N M)) ∧
    (¬ 2 * M ≤ N → (Critbit.newChecked z w : R (Critbit V N M)) = .error .assertion) := by
  unfold Critbit.newChecked rassert
  constructor <;> intro h <;> simp [h]

/-- C31 (deviation) for the critbit tree: with `MAX_SIZE = 0`, `insert` panics, whatever
`NUM_NODES` is. -/
theorem C31_critbit_capacity_zero_panics (z : CritbitNode) (w : V) (k : BitVec 128) (v : V) :
    ∃ p, (Critbit.new z w : Critbit V N 0).insert k v = .error p := by
  unfold Critbit.insert addLeaf
  rw [if_pos (show (Critbit.new z w : Critbit V N 0).root = SENTINEL from rfl)]
  cases e : (Critbit.new z w : Critbit V N 0).nodeAllocator.addNode ⟨k, 128⟩ with
  | error p => exact ⟨p, rfl⟩
  | ok x => exact ⟨_, rfl⟩

/-- C06 for the critbit tree: `new_from_slice` on zeroed memory gives `Critbit::new()`, and
after any history a second `initialize` or `new_from_slice` panics. -/
theorem C06_critbit_initialize (hM0 : 0 < M) (hNM : 2 * M ≤ N) (hN : N + 1 < 2 ^ 32) (z : CritbitNode) (w : V) :
    (Critbit.zeroed z w : Critbit V N M).newFromSlice = .ok (Critbit.new z w) ∧
    ∀ (ops : List (Op (BitVec 128) V)) (t : Critbit V N M) (outs : List (Out (BitVec 128) V)),
      run call (Critbit.new z w) ops = .ok (t, outs) →
        t.initialise = .error .reinit ∧ t.newFromSlice = .error .reinit := by
  have hi : (Critbit.zeroed z w : Critbit V N M).initialise = .ok (Critbit.new z w) := rfl
  have hn : ∀ t : Critbit V N M, t.newFromSlice = t.initialise := by
    intro t
    unfold Critbit.newFromSlice rassert
    simp [hNM]
  refine ⟨by rw [hn, hi], fun ops t outs hrun => ?_⟩
  obtain ⟨t0, os, E, m, e, h, hm, hs⟩ := Critbit.run_new hN hNM hM0 z w ops
  rw [hrun] at e; cases e
  have : ∃ nf live, NodeAllocator.AInv t.nodeAllocator nf live := by
    rcases h with ⟨⟨_, nf, _, h, _⟩, _⟩ | ⟨T, h, _⟩
    · exact ⟨_, _, h⟩
    · obtain ⟨nf, _, h, _⟩ := h.gi; exact ⟨_, _, h⟩
  obtain ⟨nf, live, ha⟩ := this
  have : t.initialise = .error .reinit := by
    unfold Critbit.initialise
    rw [NodeAllocator.reinit_of_inv ha]; rfl
  exact ⟨this, by rw [hn, this]⟩

/-! ### non-vacuity -/

set_option maxRecDepth 100000 in
/-- A history with splits above and below inner nodes, a full tree that refuses a new and a
present key, `get_mut` when full, removals (also of the last key) and `iter_mut` from both ends. -/
example : ∃ t, run call (Critbit.new ⟨0, 0⟩ 0 : Critbit Nat 8 4)
    [.insert 5 50, .insert 4 40, .insert (1 <<< 127) 90, .insert 5 51, .insert 6 60, .insert 7 70, .insert 4 41,
      .getMut 4 (· + 3), .iterMut [(.back, fun _ v => v + 1), (.front, fun _ v => v + 2), (.front, fun _ v => v),
        (.back, fun _ v => v), (.front, fun _ v => v)], .remove 7, .remove 5, .insert 0 1] =
    .ok (t, [.inserted true, .inserted true, .inserted true, .inserted true, .inserted true, .inserted false,
      .inserted false, .got (some 40), .seen [some (1 <<< 127, 90), some (4, 43), some (5, 51), some (6, 60), none],
      .removed none, .removed (some 51), .inserted true]) ∧
    t.len = 4 ∧ t.nodeAllocator.size = 7 ∧ t.getMin = .ok (some (0, 1)) ∧ t.getMax = .ok (some (1 <<< 127, 91)) ∧
    t.get 4 = .ok (some 45) := ⟨_, rfl, rfl, rfl, rfl, rfl, rfl⟩

set_option maxRecDepth 100000 in
/-- A full tree with a present key (`C43`), and the address of that key, an inner root (`C47`, `C48`). -/
example : ∃ t outs, run call (Critbit.new ⟨0, 0⟩ 0 : Critbit Nat 4 2) [.insert 5 50, .insert 4 40] = .ok (t, outs) ∧
    t.len = t.capacity ∧ t.get 5 = .ok (some 50) ∧ t.insert 5 51 = .ok (t, none) ∧
    t.isInnerNode t.root = .ok true ∧ t.getAddr 5 = .ok 3 ∧ t.getAddr 9 = .ok 0 ∧ t.getMut 5 = .ok (some 1) :=
  ⟨_, _, rfl, rfl, rfl, rfl, rfl, rfl, rfl, rfl⟩

set_option maxRecDepth 100000 in
/-- A tree that has become empty again (`C48`). -/
example : ∃ t outs, run call (Critbit.new ⟨0, 0⟩ 0 : Critbit Nat 4 2)
    [.insert 5 50, .insert 4 40, .remove 5, .remove 4] = .ok (t, outs) ∧ t.len = 0 ∧
    outs = [.inserted true, .inserted true, .removed (some 50), .removed (some 40)] :=
  ⟨_, _, rfl, rfl, rfl⟩

set_option maxRecDepth 100000 in
/-- The hypotheses of `C49_critbit_slot_stable` hold for key 5 (slot 1), whose address changes
from 1 to 3 and to 5. -/
example : ∃ t t' t'' outs outs' outs'', run call (Critbit.new ⟨0, 0⟩ 0 : Critbit Nat 8 4) [.insert 5 50] = .ok (t, outs) ∧
    t.getMut 5 = .ok (some 1) ∧ t.getAddr 5 = .ok 1 ∧
    run call t [.insert 1 10] = .ok (t', outs') ∧ t'.getAddr 5 = .ok 3 ∧
    run call t' [.insert 4 40, .remove 1, .insert 5 51] = .ok (t'', outs'') ∧
    t''.getAddr 5 = .ok 5 ∧ t''.getMut 5 = .ok (some 1) :=
  ⟨_, _, _, _, _, _, rfl, rfl, rfl, rfl, rfl, rfl, rfl, rfl⟩

end Sokoban.Props
