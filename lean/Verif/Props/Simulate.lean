import Verif.Proof.SimulateMaps

/-
Property C89: the crate's randomised test `simulate` (tests/test.rs), for every capacity, every number of rounds and
every outcome of the random choices.
-/
namespace Sokoban.Props
open Simulate
variable {S K V It P : Type} {B N M : Nat}

/-- What is assumed of the random choices: as many entries are drawn as the capacity, with different keys;
`shuffle` returns a permutation; the keys that the rounds before the last may draw (at most one per free slot and round)
are different. Nothing is assumed of the keys of the last round. -/
structure Drawn (M : Nat) (c : Choices K V) : Prop where
  fill : c.fill.length = M
  keys : (c.fill.map Prod.fst).Nodup
  shuffled : c.shuffled.Perm (c.fill.map Prod.fst)
  rounds : (c.rounds.dropLast.flatMap fun r => (List.range M).map r.key).Nodup

/-- What the test does on a structure of capacity `M`; `strict`: a full structure accepts a key that is there. -/
structure TestOutcome [DecidableEq K] [LT K] [DecidableLT K] [LinearOrder V] (D : TestMap S K V It P) (M : Nat)
    (sorted strict : Bool) (new : S) : Prop where
  /-- The rounds go through. So does the rest, except that the test of a sorted structure panics in the computation of
  a breakpoint if fewer than three entries are left. The keys are in the end those after the rounds. -/
  passes : ∀ (c : Choices K V) (fuel : Nat), M < fuel → Drawn M c →
    (strict = true → c.extra.1 ∉ c.fill.map Prod.fst) →
    ∃ x, churn D c new = .ok x ∧
      (sorted = false ∨ 3 ≤ D.len x.tree → ∃ t, simulate D fuel sorted c new = .ok t ∧ D.len t = D.len x.tree ∧
        ∀ k, (∃ v, D.get t k = .ok (some v)) ↔ ∃ v, D.get x.tree k = .ok (some v)) ∧
      (sorted = true → D.len x.tree < 3 →
        simulate D fuel sorted c new = .error (if D.len x.tree = 0 then .overflow else .assertion))
  /-- A key drawn twice while the structure is filled up makes the test fail. -/
  fill : ∀ (c : Choices K V) (fuel : Nat), c.fill.length = M → ¬ (c.fill.map Prod.fst).Nodup →
    simulate D fuel sorted c new = .error .assertion
  /-- So does, if the structure is strict, a repetition of one of these keys right afterwards. -/
  extra : strict = true → ∀ (c : Choices K V) (fuel : Nat), c.fill.length = M → (c.fill.map Prod.fst).Nodup →
    c.extra.1 ∈ c.fill.map Prod.fst → simulate D fuel sorted c new = .error .assertion
  /-- And so does a round, unless it is the last one, in which a key is drawn that the structure already holds or that
  was drawn before in the same round. -/
  repeats : ∀ (c : Choices K V) (fuel : Nat) (pre : List (Round K V)) (r r' : Round K V) (post : List (Round K V)) x,
    Drawn M { c with rounds := pre } → (strict = true → c.extra.1 ∉ c.fill.map Prod.fst) →
    churn D { c with rounds := pre } new = .ok x → x.s = D.len x.tree → r.third = 0 → D.len x.tree < M →
    (∃ i < r.count % (M - D.len x.tree), (∃ v, D.get x.tree (r.key i) = .ok (some v)) ∨ ∃ j < i, r.key j = r.key i) →
    simulate D fuel sorted { c with rounds := pre ++ r :: r' :: post } new = .error .assertion

theorem outcome_of_fits [DecidableEq K] [LT K] [DecidableLT K] [LinearOrder V] {D : TestMap S K V It P} {M : Nat}
    {sorted strict : Bool} {refuses : FMap K V → K → Prop} {Inv : S → FMap K V → Prop}
    {Walk : S → FMap K V → It → List K → Prop} (H : Fits D M sorted refuses Inv Walk) (T : Tot K) {new : S}
    (hnew : Inv new FMap.empty) (hr : Fits.Room M refuses)
    (hfull : ∀ (m : FMap K V) k, m.len = M → (strict = true → m.get k = none) → refuses m k)
    (hstrict : strict = true → ∀ (m : FMap K V) k, (m.get k).isSome → ¬ refuses m k) :
    TestOutcome D M sorted strict new := by
  have hget : ∀ {s m}, Inv s m → ∀ k, (∃ v, D.get s k = .ok (some v)) ↔ (m.get k).isSome := by
    intro s m h k
    rw [H.get h, Option.isSome_iff_exists]; simp
  have hchurn : ∀ c : Choices K V, Drawn M c → (strict = true → c.extra.1 ∉ c.fill.map Prod.fst) →
      ∃ x m, churn D c new = .ok x ∧ Fits.Tracks Inv x m := by
    intro c hd hx
    refine H.churn T hr hnew hd.fill hd.keys (fun m hm hk => hfull m _ hm fun hs => ?_) hd.shuffled hd.rounds
    have := hx hs
    rw [hk] at this
    simpa using this
  refine ⟨?_, ?_, ?_, ?_⟩
  · intro c fuel hf hd hx
    obtain ⟨x, m, e, h⟩ := hchurn c hd hx
    have hlen := H.len h.inv
    refine ⟨x, e, fun h3 => ?_, fun hs h3 => ?_⟩
    · have key : ∃ t m', Simulate.verify D fuel sorted c x = .ok t ∧ Inv t m' ∧ Fits.Over m m' := by
        cases hs : sorted with
        | false => have := H.verify_unsorted T hs h.inv h.same hf c; rwa [hs] at this
        | true =>
          rcases H.verify_sorted T hs h.inv h.same hf c with ⟨_, h'⟩ | ⟨h', _⟩
          · rwa [hs] at h'
          · rw [hs] at h3; rcases h3 with h3 | h3
            · cases h3
            · omega
      obtain ⟨t, m', e', h', ho⟩ := key
      refine ⟨t, by simp only [simulate, e, except_bind_ok, e'], ?_, fun k => ?_⟩
      · rw [H.len h', hlen, ho.1]
      · rw [hget h', hget h.inv, ho.2]
    · rcases H.verify_sorted T hs h.inv h.same hf c with ⟨h', _⟩ | ⟨_, e'⟩
      · omega
      · simp only [simulate, e, except_bind_ok, e', hlen]
        rfl
  · intro c fuel hl hn
    simp only [simulate, H.churn_fill T hr hnew (Nat.le_of_eq hl) hn]; rfl
  · intro hs c fuel hl hn hx
    have := H.churn_extra T hr hnew (Nat.le_of_eq hl) hn fun m hm => hstrict hs m _ ((hm _).1 hx)
    simp only [simulate, this]; rfl
  · intro c fuel pre r r' post x hd hx e hs h0 hl hrep
    obtain ⟨x', m, e', h⟩ := hchurn _ hd hx
    rw [e] at e'; cases e'
    have e2 := H.rounds_repeat T hr h (r2 := r') h0 hl hs (fun hn => ?_) post
    · have : churn D { c with rounds := pre ++ r :: r' :: post } new = .error .assertion := by
        rw [Fits.churn_append (c := c) e]; exact e2
      simp only [simulate, this]; rfl
    · obtain ⟨i, hi, hv⟩ := hrep
      obtain ⟨_, hn2, hn3⟩ := List.nodup_append.1 hn
      have hmem : ∀ j, j < r.count % (M - D.len x.tree) → r.key j ∈ Fits.inserted M (D.len x.tree) r :=
        fun j hj => List.mem_map.2 ⟨j, List.mem_range.2 hj, rfl⟩
      rcases hv with hv | ⟨j, hj, hk⟩
      · rw [hget h.inv, ← h.keys] at hv
        exact hn3 _ hv _ (hmem i hi) rfl
      · unfold Fits.inserted at hn2
        rw [List.nodup_iff_pairwise_ne, List.pairwise_map] at hn2
        have := List.pairwise_iff_getElem.1 hn2 j i (by simp; omega) (by simpa using hi) hj
        simp only [List.getElem_range] at this
        exact this hk

theorem tot_linear [LinearOrder K] : Tot K := ⟨lt_irrefl, lt_trans, lt_trichotomy⟩

/-- C89 for the red-black tree. -/
theorem C89_rb_simulate [LinearOrder K] [LinearOrder V] (hM0 : 0 < M) (hM : M + 1 < 2 ^ 32) (z : RBNode K V) :
    TestOutcome redBlack M true true (RedBlackTree.new z : RedBlackTree K V M) :=
  outcome_of_fits (fits_redBlack hM hM0) tot_linear ⟨[], RedBlackTree.Inv.new z, FMap.lists_empty⟩
    (fun m k hl hc => by omega) (fun m k hl hg => ⟨hg rfl, hl⟩) (fun _ m k hg hc => by rw [hc.1] at hg; cases hg)

/-- C89 for the AVL tree. -/
theorem C89_avl_simulate [LinearOrder K] [LinearOrder V] (hM0 : 0 < M) (hM : M + 1 < 2 ^ 32) (z : AVLNode K V) :
    TestOutcome avl M true true (AVLTree.new z : AVLTree K V M) :=
  outcome_of_fits (fits_avl hM hM0) tot_linear ⟨[], AVLTree.Inv.new z, FMap.lists_empty⟩
    (fun m k hl hc => by omega) (fun m k hl hg => ⟨hg rfl, hl⟩) (fun _ m k hg hc => by rw [hc.1] at hg; cases hg)

/-- C89 for the hash table, whatever the hash function: it never panics when the test computes a breakpoint, because it
does not compute one. -/
theorem C89_hash_simulate [LinearOrder K] [LinearOrder V] (hB : 0 < B) (hM : M + 1 < 2 ^ 32) (hash : K → Nat)
    (z : HashNode K V) :
    TestOutcome (Simulate.hashTable hash) M false true (HashTable.new z : HashTable K V B M) :=
  outcome_of_fits (fits_hashTable hM) tot_linear
    ⟨_, HashTable.new_HRep hB hash z, by
      rw [show HashTable.kvs (HashTable.all B fun _ => ([] : List (HashTable.Ent K V))) = [] by simp [HashTable.kvs]]
      exact FMap.lists_empty⟩
    (fun m k hl hc => by omega) (fun m k hl hg => ⟨hg rfl, hl⟩) (fun _ m k hg hc => by rw [hc.1] at hg; cases hg)

/-- C89 for `Critbit`, which refuses every key when it is full: the key drawn after the filling may be one of those
that are there. -/
theorem C89_critbit_simulate [LinearOrder V] (hM0 : 0 < M) (hNM : 2 * M ≤ N) (hN : N + 1 < 2 ^ 32) (z : CritbitNode)
    (w : V) : TestOutcome critbit M true false (Critbit.new z w : Critbit V N M) :=
  outcome_of_fits (fits_critbit hN hNM hM0)
    ⟨BitVec.lt_irrefl, fun h h' => BitVec.lt_trans h h', fun a b => by
      rcases Nat.lt_trichotomy a.toNat b.toNat with h | h | h
      · exact Or.inl (BitVec.lt_def.2 h)
      · exact Or.inr (Or.inl (BitVec.eq_of_toNat_eq h))
      · exact Or.inr (Or.inr (BitVec.lt_def.2 h))⟩
    ⟨[], Critbit.Inv.new z w, FMap.lists_empty⟩ (fun m k hl hc => by omega) (fun m k hl _ => hl) (by simp)

/-- C89: the test never looks anything up with `get` (nor with `contains`, which is not even among the functions that it is
given): whatever `get` returns, the outcome is the same. -/
theorem C89_get_unused [DecidableEq K] [LT K] [DecidableLT K] [LinearOrder V] (D : TestMap S K V It P)
    (get : S → K → R (Option V)) (fuel : Nat) (sorted : Bool) (c : Choices K V) (new : S) :
    simulate { D with get := get } fuel sorted c new = simulate D fuel sorted c new :=
  simulate_get D get fuel sorted c new

/-- C89: what the comparison of a map with a sorted structure finds out. The two loops stop with the shorter of the two
iterators: the comparison succeeds exactly if what the structure yields from the front, `L`, and what it yields from
the back, `L'`, agree with the map as far as both go; a structure that yields nothing at all passes. -/
theorem C89_compare_sorted [DecidableEq K] [DecidableEq V] [LT K] [DecidableLT K] [LE V] [DecidableLE V] (D : TestMap S K V It P)
    {fuel : Nat} {map L L' : List (K × V)} {tree : S} {it : It} (hit : D.iter tree = .ok it)
    (hL : collect (D.next tree) fuel it = .ok L) (hL' : collect (D.nextBack tree) fuel it = .ok L') :
    Simulate.compare D fuel true map tree = .ok () ↔
      (map <+: L ∨ L <+: map) ∧ (map.reverse <+: L' ∨ L' <+: map.reverse) := by
  rw [← zipList_ok, ← zipList_ok, Simulate.compare, hit]
  simp only [if_true, bind, Except.bind, zipIter_zipList _ _ _ _ _ hL, zipIter_zipList _ _ _ _ _ hL']
  cases zipList map L <;> simp

/-- C89: the same for a structure which is not sorted, whose items are sorted before they are compared. -/
theorem C89_compare_unsorted [DecidableEq K] [DecidableEq V] [LT K] [DecidableLT K] [LE V] [DecidableLE V]
    (D : TestMap S K V It P) {fuel : Nat} {map L : List (K × V)} {tree : S} {it : It} (hit : D.iter tree = .ok it)
    (hL : collect (D.next tree) fuel it = .ok L) :
    Simulate.compare D fuel false map tree = .ok () ↔ map <+: L.mergeSort itemLe ∨ L.mergeSort itemLe <+: map := by
  rw [← zipList_ok, Simulate.compare, hit]
  simp [bind, Except.bind, hL]

/-! ### cases -/

/-- `C89`: a red-black tree without the last entry of the map, and an empty one, pass the first loop; the tree without
the last entry fails in the loop from the back. A hash table passes without the greatest entry. -/
example : (do let (t, _) ← (RedBlackTree.new ⟨0, 0⟩ : RedBlackTree Nat Nat 5).insert 2 20
              Simulate.compare redBlack 6 true [(2, 20), (3, 30)] t) = .error .assertion ∧
    (do let (t, _) ← (RedBlackTree.new ⟨0, 0⟩ : RedBlackTree Nat Nat 5).insert 2 20
        zipIter (redBlack.next t) [(2, 20), (3, 30)] (← redBlack.iter t)) = .ok () ∧
    Simulate.compare redBlack 6 true [(2, 20), (3, 30)] (RedBlackTree.new ⟨0, 0⟩ : RedBlackTree Nat Nat 5) = .ok () ∧
    (do let (t, _) ← (HashTable.new ⟨0, 0⟩ : HashTable Nat Nat 2 5).insert id 2 20
        Simulate.compare (Simulate.hashTable id) 6 false [(2, 20), (3, 30)] t) = .ok () := by
  decide +kernel

/-- choices for a capacity of five: four insertions, one removal, two writes, and in the last round the insertion of a
key that is there -/
private def five (key : Nat → K) : Choices K Nat where
  fill := [(key 4, 1), (key 2, 2), (key 9, 3), (key 7, 5), (key 1, 1)]
  extra := (key 5, 5)
  shuffled := [key 9, key 4, key 1, key 7, key 2]
  rounds := [⟨0, 4, fun i => key (10 + 3 * i), fun i => i, fun _ => 0⟩, ⟨1, 1, fun i => key (30 + i), fun _ => 0, fun i => i⟩,
    ⟨2, 2, fun i => key (40 + i), fun i => 60 + i, fun i => i + 1⟩, ⟨0, 1, fun _ => key 13, fun _ => 99, fun _ => 0⟩]
  val1 i := 100 + i
  break1 := 3
  break2 := 8
  val2 i := 200 + i
  val3 i := 300 + i

/-- the choices meet the hypotheses -/
example : Drawn 5 (five fun n => n) ∧ (five fun n => n).extra.1 ∉ (five fun n => n).fill.map Prod.fst ∧
    Drawn 5 (five (BitVec.ofNat 128)) :=
  ⟨⟨rfl, by decide, by decide, by decide⟩, by decide, ⟨rfl, by decide, by decide, by decide⟩⟩

set_option maxRecDepth 100000 in
/-- `C89`: the run on the three trees leaves three entries, and the test passes. -/
example : (simulate redBlack 6 true (five fun n => n) (RedBlackTree.new ⟨0, 0⟩ : RedBlackTree Nat Nat 5)).map (·.len) =
      .ok 3 ∧
    (simulate avl 6 true (five fun n => n) (AVLTree.new ⟨0, 0⟩ : AVLTree Nat Nat 5)).map (·.len) = .ok 3 ∧
    (simulate critbit 11 true (five (BitVec.ofNat 128)) (Critbit.new ⟨0, 0⟩ 0 : Critbit Nat 10 5)).map (·.len) = .ok 3 :=
  ⟨rfl, rfl, rfl⟩

set_option maxRecDepth 100000 in
/-- `C89`: with two insertions in the first round two entries are left, and the test panics; without any round it
panics for another reason. With another round after the repetition it fails, on the hash table too. -/
example : (simulate redBlack 6 true { five (fun n => n) with
      rounds := (five fun n => n).rounds.set 0 ⟨0, 2, fun i => 10 + 3 * i, fun i => i, fun _ => 0⟩ }
      (RedBlackTree.new ⟨0, 0⟩ : RedBlackTree Nat Nat 5)).map (·.len) = .error .assertion ∧
    (simulate avl 6 true { five (fun n => n) with rounds := [] } (AVLTree.new ⟨0, 0⟩ : AVLTree Nat Nat 5)).map (·.len) =
      .error .overflow ∧
    (simulate (Simulate.hashTable id) 6 false { five (fun n => n) with
      rounds := (five fun n => n).rounds ++ [⟨1, 0, fun _ => 0, fun _ => 0, fun _ => 0⟩] }
      (HashTable.new ⟨0, 0⟩ : HashTable Nat Nat 2 5)).map (·.len) = .error .assertion ∧
    (churn (Simulate.hashTable id) (five fun n => n) (HashTable.new ⟨0, 0⟩ : HashTable Nat Nat 2 5)).map
      (fun x => (x.tree.len, x.s, x.keys)) = .ok (3, 4, [19, 13, 16, 13]) :=
  ⟨rfl, rfl, rfl, rfl⟩

end Sokoban.Props
