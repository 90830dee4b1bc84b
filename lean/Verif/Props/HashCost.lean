import Verif.Proof.HashCost

/-
C105: what the lookups of all keys of a hash table cost together.
-/
namespace Sokoban.Props
open MapSpec HashTableSpec
variable {K V : Type} [DecidableEq K] {B M : Nat}

/-- **C105**: after any history, let `L` be what the table yields and `f` tell for each key how many iterations its search takes. Then twice
the sum of `f` over all keys in the table is the sum of `c * (c + 1)` over the numbers `c` of entries in the buckets, in whatever order they
are in the buckets. -/
theorem C105_hash_total (hB : 0 < B) (hM : M + 1 < 2 ^ 32) (hash : K → Nat) (z : HashNode K V) (ops : List (Op K V))
    {h : HashTable K V B M} {outs : List (Out K V)} (hrun : run (call hash) (HashTable.new z) ops = .ok (h, outs))
    {L : List (K × V)} (hL : Yields h L) {f : K → Nat} (hf : ∀ e ∈ L, Iterations hash h e.1 (f e.1)) :
    2 * (L.map fun e => f e.1).sum = ((List.range B).map fun b => load hash B L b * (load hash B L b + 1)).sum := by
  obtain ⟨R, hR, hLR, hp, _, ha, hi⟩ := HashTable.run_iterations hB hM z ops hrun hL
  rw [← HashTable.sum_steps hR hLR hp]
  congr 2
  refine List.map_congr_left fun e he => ?_
  obtain ⟨i, hk⟩ := ha e.1
  exact HashTable.Iterations.unique hk (hf e he) (hi e.1)

/-- **C105**: every search ends, so there is such an `f`; the search for a key that is not in the table takes one iteration more than its bucket
has entries. -/
theorem C105_hash_each (hB : 0 < B) (hM : M + 1 < 2 ^ 32) (hash : K → Nat) (z : HashNode K V) (ops : List (Op K V))
    {h : HashTable K V B M} {outs : List (Out K V)} (hrun : run (call hash) (HashTable.new z) ops = .ok (h, outs))
    {L : List (K × V)} (hL : Yields h L) :
    (∃ f : K → Nat, ∀ k, Iterations hash h k (f k)) ∧
    ∀ k, k ∉ L.map Prod.fst → Iterations hash h k (load hash B L (hash k % B) + 1) := by
  obtain ⟨R, hR, hLR, hp, _, _, hi⟩ := HashTable.run_iterations hB hM z ops hrun hL
  refine ⟨⟨_, hi⟩, fun k hk => ?_⟩
  have := hi k
  rw [HashTable.takeWhile_all (fun x hx => ?_)] at this
  · have hl : load hash B L (hash k % B) = (R.filter fun e => hash e.1 % B = hash k % B).length := ((hp.filter _).length_eq).symm
    rw [hl]; exact this
  · have hx' := hp.mem_iff.1 (List.mem_filter.1 hx).1
    have : x.1 ≠ k := fun q => hk (q ▸ List.mem_map_of_mem (f := Prod.fst) hx')
    simpa using this

/-- **C105**: so the lookups of all `n` keys together take at least `n * (n / NUM_BUCKETS + 1) / 2` iterations, whatever the hash function, and at
most `n * (n + 1) / 2`. -/
theorem C105_hash_bounds (hB : 0 < B) (hM : M + 1 < 2 ^ 32) (hash : K → Nat) (z : HashNode K V) (ops : List (Op K V))
    {h : HashTable K V B M} {outs : List (Out K V)} (hrun : run (call hash) (HashTable.new z) ops = .ok (h, outs))
    {L : List (K × V)} (hL : Yields h L) {f : K → Nat} (hf : ∀ e ∈ L, Iterations hash h e.1 (f e.1)) :
    L.length * L.length + B * L.length ≤ 2 * B * (L.map fun e => f e.1).sum ∧
    2 * (L.map fun e => f e.1).sum ≤ L.length * (L.length + 1) := by
  have ht := C105_hash_total hB hM hash z ops hrun hL hf
  obtain ⟨_, _, _, _, hb, _⟩ := HashTable.run_iterations hB hM z ops hrun hL
  have hs := HashTable.sum_loads hB hb
  have e : ((List.range B).map fun b => load hash B L b * (load hash B L b + 1)).sum =
      (((List.range B).map (load hash B L)).map fun c => c * c).sum + L.length := by
    rw [← hs]
    generalize List.range B = l
    induction l with
    | nil => rfl
    | cons b l ih =>
      simp only [List.map_cons, List.sum_cons]
      rw [ih]; ring
  have h1 := HashTable.sq_sum_le ((List.range B).map (load hash B L))
  have h2 := HashTable.sum_sq_le ((List.range B).map (load hash B L))
  rw [hs, List.length_map, List.length_range] at h1
  rw [hs] at h2
  rw [e] at ht
  constructor
  · nlinarith
  · nlinarith

/-! ### examples -/

/-- Two buckets, the keys 1, 3, 5 in one and 4 in the other: 3 * 4 / 2 + 1 * 2 / 2 = 7 iterations for all of them. -/
example : ∃ (h : HashTable Nat Nat 2 5) (outs : List (Out Nat Nat)) (f : Nat → Nat),
    run (call id) (HashTable.new ⟨0, 0⟩) [.insert 1 10, .insert 3 30, .insert 4 40, .insert 5 50, .getMut 1 id] = .ok (h, outs) ∧
    Yields h [(4, 40), (1, 10), (5, 50), (3, 30)] ∧ (∀ k, Iterations id h k (f k)) ∧ f 4 + f 1 + f 5 + f 3 = 7 ∧
    Iterations id h 7 4 ∧ Iterations id h 6 2 := by
  obtain ⟨h, e, hy, _⟩ := HashTable.run_yields (hash := id) (B := 2) (M := 5) (by decide) (by decide) (⟨0, 0⟩ : HashNode Nat Nat)
    [.insert 1 10, .insert 3 30, .insert 4 40, .insert 5 50, .getMut 1 id]
  have hy' : Yields h [(4, 40), (1, 10), (5, 50), (3, 30)] := hy
  obtain ⟨⟨f, hf⟩, h2⟩ := C105_hash_each (by decide) (by decide) id ⟨0, 0⟩ _ e hy'
  have ht := C105_hash_total (by decide) (by decide) id ⟨0, 0⟩ _ e hy' (f := f) fun e _ => hf e.1
  refine ⟨h, _, f, e, hy', hf, ?_, h2 7 (by decide), h2 6 (by decide)⟩
  have e1 : ((List.range 2).map fun b => load id 2 [(4, 40), (1, 10), (5, 50), (3, 30)] b *
      (load id 2 [(4, 40), (1, 10), (5, 50), (3, 30)] b + 1)).sum = 14 := by decide
  rw [e1] at ht
  simp only [List.map_cons, List.map_nil, List.sum_cons, List.sum_nil] at ht
  omega

end Sokoban.Props
