import Verif.Proof.CritbitShape

/-
Property theorems C62 and C63 (the shape of a Critbit). Notation as in Props/Critbit.lean; `trie` and
`Shaped` are in Spec/CritbitShape.lean.
-/
namespace Sokoban.Props
open MapSpec CritbitSpec Critbit
variable {V W : Type} {N M N' M' : Nat}

/-- C62: after every history the tree in memory is the path-compressed binary trie of the keys it
contains, listed in any order and with any repetitions; it has no other shape. -/
theorem C62_critbit_shape_is_trie (hM0 : 0 < M) (hNM : 2 * M ≤ N) (hN : N + 1 < 2 ^ 32) (z : CritbitNode) (w : V)
    (ops : List (Op (BitVec 128) V)) {t : Critbit V N M} {outs : List (Out (BitVec 128) V)}
    (hrun : run call (Critbit.new z w) ops = .ok (t, outs)) (keys : List (BitVec 128))
    (hk : ∀ k, k ∈ keys ↔ t.contains k = .ok true) :
    (keys = [] ∧ t.root = SENTINEL) ∨
    ∃ sh, trie 128 keys = some sh ∧ t.root ≠ SENTINEL ∧ ∀ sh', Shaped t t.root sh' ↔ sh' = sh := by
  obtain ⟨t0, os, E, m, e, h, hm, hs⟩ := Critbit.run_new hN hNM hM0 z w ops
  rw [hrun] at e; cases e
  have hc := h.contains_iff
  rcases h with ⟨h, rfl⟩ | ⟨T, h, rfl⟩
  · left
    refine ⟨List.eq_nil_iff_forall_not_mem.2 fun k hkm => ?_, h.1⟩
    have := (hc k).1 ((hk k).1 hkm)
    simp at this
  · right
    obtain ⟨h1, h2⟩ := h.shape (ks := keys) fun k => (hk k).trans (hc k)
    exact ⟨_, h1, h.root_ne, fun sh' => ⟨fun h' => Shaped.unique h' h2, fun h' => h' ▸ h2⟩⟩

/-- C62: two trees with the same keys have the same shape, whatever calls built them, in whatever
order, and whatever their values and capacities are. -/
theorem C62_critbit_history_independent (hM0 : 0 < M) (hNM : 2 * M ≤ N) (hN : N + 1 < 2 ^ 32) (hM0' : 0 < M')
    (hNM' : 2 * M' ≤ N') (hN' : N' + 1 < 2 ^ 32) (z z' : CritbitNode) (w : V) (w' : W)
    (ops : List (Op (BitVec 128) V)) (ops' : List (Op (BitVec 128) W)) {t : Critbit V N M}
    {t' : Critbit W N' M'} {outs : List (Out (BitVec 128) V)} {outs' : List (Out (BitVec 128) W)}
    (hrun : run call (Critbit.new z w) ops = .ok (t, outs)) (hrun' : run call (Critbit.new z' w') ops' = .ok (t', outs'))
    (hk : ∀ k, t.contains k = t'.contains k) :
    (t.root = SENTINEL ∧ t'.root = SENTINEL) ∨
    ∃ sh, t.root ≠ SENTINEL ∧ t'.root ≠ SENTINEL ∧ Shaped t t.root sh ∧ Shaped t' t'.root sh := by
  obtain ⟨t0, os, E, m, e, h, -, -⟩ := Critbit.run_new hN hNM hM0 z w ops
  rw [hrun] at e; cases e
  have hc : ∀ k, k ∈ E.map (fun e => e.2.1) ↔ t.contains k = .ok true := fun k => (h.contains_iff k).symm
  rcases C62_critbit_shape_is_trie hM0 hNM hN z w ops hrun _ hc with ⟨a1, a2⟩ | ⟨a, a1, a2, a3⟩ <;>
  rcases C62_critbit_shape_is_trie hM0' hNM' hN' z' w' ops' hrun' (E.map fun e => e.2.1)
    (fun k => (hc k).trans (by rw [hk k])) with ⟨b1, b2⟩ | ⟨b, b1, b2, b3⟩
  · exact Or.inl ⟨a2, b2⟩
  · rw [a1, trie_nil] at b1; cases b1
  · rw [b1, trie_nil] at a1; cases a1
  · cases a1.symm.trans b1
    exact Or.inr ⟨a, a2, b2, (a3 a).2 rfl, (b3 a).2 rfl⟩

/-- C63: the bound of C47 cannot be improved: in every tree that contains key 0 and all 128 powers of
two, the search for key 0 is not done after 128 nodes. -/
theorem C63_critbit_deep_search (hM0 : 0 < M) (hNM : 2 * M ≤ N) (hN : N + 1 < 2 ^ 32) (z : CritbitNode) (w : V)
    (ops : List (Op (BitVec 128) V)) {t : Critbit V N M} {outs : List (Out (BitVec 128) V)}
    (hrun : run call (Critbit.new z w) ops = .ok (t, outs)) (h0 : t.contains 0 = .ok true)
    (hp : ∀ i < 128, t.contains (BitVec.twoPow 128 i) = .ok true) (fuel : Nat) (hf : fuel ≤ 128) :
    t.findLoop 0 fuel t.root = .error .diverge := by
  obtain ⟨t0, os, E, m, e, h, hm, hs⟩ := Critbit.run_new hN hNM hM0 z w ops
  rw [hrun] at e; cases e
  have hc := h.contains_iff
  rcases h with ⟨h, rfl⟩ | ⟨T, h, rfl⟩
  · have := (hc 0).1 h0
    simp at this
  · obtain ⟨h1, -⟩ := h.shape (ks := keysOf T) fun k => Iff.rfl
    obtain ⟨sh, h2, h3⟩ := trie_deep 128 (keysOf T) (Nat.le_refl _) ((hc 0).1 h0) fun i hi => (hc _).1 (hp i hi)
    cases h1.symm.trans h2
    have := findLoop_deep (fuel := fuel) h.sh h.rad ((hc 0).1 h0) (by omega)
    rw [← h.root] at this
    exact this

/-- C63: such trees exist for every capacity from 129 on; with C47, the search for key 0 visits exactly
129 nodes. -/
theorem C63_critbit_depth_attained (hM : 129 ≤ M) (hNM : 2 * M ≤ N) (hN : N + 1 < 2 ^ 32) (z : CritbitNode) (w : V) :
    ∃ (ops : List (Op (BitVec 128) V)) (t : Critbit V N M) (outs : List (Out (BitVec 128) V)),
      run call (Critbit.new z w) ops = .ok (t, outs) ∧ t.findLoop 0 128 t.root = .error .diverge ∧
      ∃ n, t.findLoop 0 129 t.root = .ok (some n) := by
  obtain ⟨t, outs, E, e, h, hk, -⟩ := run_inserts hN hNM (by omega) w (0 :: (List.range 128).map (BitVec.twoPow 128))
    (Critbit.new z w) [] (Inv.new z w) (by simp; omega)
  have h0 := hk 0 (by simp)
  refine ⟨_, t, outs, e, C63_critbit_deep_search (by omega) hNM hN z w _ e h0
    (fun i hi => hk _ (by simp; exact Or.inr ⟨i, hi, rfl⟩)) 128 (Nat.le_refl _), ?_⟩
  have hc := (h.contains_iff 0).1 h0
  rcases h with ⟨h, rfl⟩ | ⟨T, h, rfl⟩
  · simp at hc
  obtain ⟨⟨j, k, v⟩, he, hk0⟩ := List.mem_map.1 hc
  simp only at hk0; subst hk0
  obtain ⟨n, hn⟩ := CT.mem_ents he
  exact ⟨n, (h.depth hN hNM 0 v (Nat.le_refl 129)).1.trans (h.find_some hn)⟩

/-! ### non-vacuity -/

set_option maxRecDepth 100000 in
/-- Two histories that lead to the keys 4, 5 and 2^127 by different ways (`C62`): the nodes have other
addresses, the shape is the same. -/
example : ∃ t outs t' outs',
    run call (Critbit.new ⟨0, 0⟩ 0 : Critbit Nat 8 4) [.insert 5 50, .insert 4 40, .insert (1 <<< 127) 90] = .ok (t, outs) ∧
    run call (Critbit.new ⟨0, 0⟩ 0 : Critbit Nat 12 6)
      [.insert (1 <<< 127) 1, .insert 6 2, .insert 4 3, .insert 5 4, .remove 6, .insert 4 5] = .ok (t', outs') ∧
    t.getAddr 5 = .ok 3 ∧ t'.getAddr 5 = .ok 6 ∧
    Shaped t t.root (.inner 0 (.inner 127 (.leaf 4) (.leaf 5)) (.leaf (1 <<< 127))) ∧
    Shaped t' t'.root (.inner 0 (.inner 127 (.leaf 4) (.leaf 5)) (.leaf (1 <<< 127))) := by
  refine ⟨_, _, _, _, rfl, rfl, rfl, rfl, ?_, ?_⟩
  · exact ⟨rfl, ⟨_, rfl, rfl⟩, ⟨_, rfl, rfl, ⟨_, rfl, rfl⟩, ⟨_, rfl, rfl, rfl⟩, _, rfl, rfl, rfl⟩, _, rfl, rfl, rfl⟩
  · exact ⟨rfl, ⟨_, rfl, rfl⟩, ⟨_, rfl, rfl, ⟨_, rfl, rfl⟩, ⟨_, rfl, rfl, rfl⟩, _, rfl, rfl, rfl⟩, _, rfl, rfl, rfl⟩

/-- That shape is the trie of these keys. -/
example : trie 128 [4, (1#128) <<< 127, 5, 4] =
    some (.inner 0 (.inner 127 (.leaf 4) (.leaf 5)) (.leaf ((1#128) <<< 127))) := by
  have f1 : ([4, (1#128) <<< 127, 5, 4] : List (BitVec 128)).filter (fun k => !k.getMsbD (127 - 127)) = [4, 5, 4] := by
    decide +kernel
  have f2 : ([4, (1#128) <<< 127, 5, 4] : List (BitVec 128)).filter (fun k => k.getMsbD (127 - 127)) =
      [(1#128) <<< 127] := by decide +kernel
  rw [trie, f1, f2, trie_same (n := 1) (m := 127) (ks := [4, 5, 4]) 4 (by simp) (by decide) (by decide),
    trie_same (n := 0) (m := 127) (ks := [(1#128) <<< 127]) (1#128 <<< 127) (by simp) (by decide) (by decide)]
  rfl

end Sokoban.Props
