import Verif.Proof.HashShapes

/-
C104: the orders in which a hash table can yield its entries, and that `get_mut` makes all of them.
-/
namespace Sokoban.Props
open MapSpec HashTableSpec
variable {K V : Type} [DecidableEq K] {B M : Nat}

/-- **C104**: some history on a new table leads to one that yields the entries `L` in this order if and only if their keys are distinct and
ordered by `hash % NUM_BUCKETS`, and there are no more than the capacity. -/
theorem C104_hash_orders (hB : 0 < B) (hM : M + 1 < 2 ^ 32) (hash : K → Nat) (z : HashNode K V) (L : List (K × V)) :
    (∃ (ops : List (Op K V)) (h : HashTable K V B M) (outs : List (Out K V)),
      run (call hash) (HashTable.new z) ops = .ok (h, outs) ∧ Yields h L) ↔ ByBucket hash B L ∧ L.length ≤ M := by
  constructor
  · rintro ⟨ops, h, outs, e, hy⟩
    obtain ⟨h', e', hy', hn, hp, hl⟩ := HashTable.run_yields (hash := hash) (M := M) hB hM z ops
    rw [e] at e'; cases e'
    rw [HashTable.Yields.unique hy hy']
    exact ⟨⟨(hp.map Prod.fst).nodup_iff.1 hn, HashTable.rows_pairwise _⟩, by rw [← hp.length_eq]; exact hl⟩
  · rintro ⟨⟨hn, hs⟩, hl⟩
    obtain ⟨h, e, hy, _⟩ := HashTable.run_yields (hash := hash) (M := M) hB hM z (L.reverse.map fun e => .insert e.1 e.2)
    rw [HashTable.recents_insert hn hl, HashTable.rows_sorted hB hs] at hy
    exact ⟨_, h, _, e, hy⟩

/-- **C104**: lookups alone make every order: if a table yields `L` after some history and `L'` are the same entries in another order by
buckets, then calling `get_mut` with the keys of `L'` from the last to the first, writing nothing, leads to a table that yields `L'`. -/
theorem C104_hash_get_mut_orders (hB : 0 < B) (hM : M + 1 < 2 ^ 32) (hash : K → Nat) (z : HashNode K V) (ops : List (Op K V))
    {h : HashTable K V B M} {outs : List (Out K V)} (hrun : run (call hash) (HashTable.new z) ops = .ok (h, outs))
    {L L' : List (K × V)} (hL : Yields h L) (hp : L'.Perm L) (hb : ByBucket hash B L') :
    ∃ (h' : HashTable K V B M) (outs' : List (Out K V)),
      run (call hash) (HashTable.new z) (ops ++ L'.reverse.map fun e => .getMut e.1 id) = .ok (h', outs') ∧ Yields h' L' := by
  obtain ⟨h0, e0, hy0, hn0, hp0, _⟩ := HashTable.run_yields (hash := hash) (M := M) hB hM z ops
  rw [hrun] at e0; cases e0
  have hLr := HashTable.Yields.unique hL hy0
  obtain ⟨h', e', hy', _⟩ := HashTable.run_yields (hash := hash) (M := M) hB hM z (ops ++ L'.reverse.map fun e => .getMut e.1 id)
  refine ⟨h', _, e', ?_⟩
  have hperm : L'.Perm (recents hash B M [] ops).1 := by rw [hLr] at hp; exact hp.trans hp0.symm
  rw [HashTable.recents_append, HashTable.recents_getMut hn0 hb.1 (fun e he => hperm.mem_iff.1 he)] at hy'
  have hnil : ((recents hash B M [] ops).1.filter fun e => e.1 ∉ L'.map Prod.fst) = [] := by
    rw [List.filter_eq_nil_iff]
    intro e he
    have := List.mem_map_of_mem (f := Prod.fst) (hperm.mem_iff.2 he)
    simpa using this
  rw [hnil, List.append_nil, HashTable.rows_sorted hB hb.2] at hy'
  exact hy'

/-! ### examples -/

/-- Two buckets, three entries: the odd keys in either order after the even one. -/
example : ∃ (ops : List (Op Nat Nat)) (h : HashTable Nat Nat 2 3) (outs : List (Out Nat Nat)),
    run (call id) (HashTable.new ⟨0, 0⟩) ops = .ok (h, outs) ∧ Yields h [(4, 40), (3, 30), (1, 10)] :=
  (C104_hash_orders (by decide) (by decide) id ⟨0, 0⟩ _).2 ⟨⟨by decide, by decide⟩, by decide⟩

/-- The even key cannot come last. -/
example : ¬ ∃ (ops : List (Op Nat Nat)) (h : HashTable Nat Nat 2 3) (outs : List (Out Nat Nat)),
    run (call id) (HashTable.new ⟨0, 0⟩) ops = .ok (h, outs) ∧ Yields h [(3, 30), (1, 10), (4, 40)] := by
  rw [C104_hash_orders (by decide) (by decide)]
  exact fun h => absurd h.1.2 (by decide)

/-- From one order to another with lookups. -/
example : ∃ (h h' : HashTable Nat Nat 2 3) (outs outs' : List (Out Nat Nat)),
    run (call id) (HashTable.new ⟨0, 0⟩) [.insert 1 10, .insert 3 30, .insert 4 40] = .ok (h, outs) ∧
    Yields h [(4, 40), (3, 30), (1, 10)] ∧
    run (call id) (HashTable.new ⟨0, 0⟩) [.insert 1 10, .insert 3 30, .insert 4 40, .getMut 3 id, .getMut 1 id, .getMut 4 id] =
      .ok (h', outs') ∧ Yields h' [(4, 40), (1, 10), (3, 30)] := by
  obtain ⟨h, e, hy, _⟩ := HashTable.run_yields (hash := id) (B := 2) (M := 3) (by decide) (by decide) (⟨0, 0⟩ : HashNode Nat Nat)
    [.insert 1 10, .insert 3 30, .insert 4 40]
  obtain ⟨h', outs', e', hy'⟩ := C104_hash_get_mut_orders (by decide) (by decide) id ⟨0, 0⟩ _ e hy
    (L' := [(4, 40), (1, 10), (3, 30)]) (by decide) ⟨by decide, by decide⟩
  exact ⟨h, h', _, outs', e, hy, e', hy'⟩

end Sokoban.Props
