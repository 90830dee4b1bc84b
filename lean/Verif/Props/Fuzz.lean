import Verif.Proof.Fuzz

/-
Property C79: the crate's fuzz targets (fuzz/) cannot fail, except the one for `Critbit`.
-/
namespace Sokoban.Props
open Fuzz
variable {K V : Type} [DecidableEq V] {B N M : Nat}

/-- C79 for the red-black tree: whatever the actions and the random choices, no assertion, `unwrap` or index of
the target fails, the tree is valid after every action, and the keys that the harness remembers are in the end
exactly the keys of the tree. -/
theorem C79_rb_fuzz [LinearOrder K] (hM0 : 0 < M) (hM : M + 1 < 2 ^ 32) (z : RBNode K V)
    (actions : List (Action K V × Nat)) {fuel : Nat} (hf : M < fuel) :
    ∃ t keys, target redBlack assertValid fuel (RedBlackTree.new z : RedBlackTree K V M) [] actions = .ok (t, keys) ∧
      keys.Nodup ∧ ∀ k, k ∈ keys ↔ ∃ v, t.get k = .ok (some v) := by
  have H := good_redBlack (K := K) (V := V) hM hM0
  rcases H.target (check := assertValid) (fun ⟨E, ⟨t, hz, hg, _⟩, _⟩ => by
      simp only [assertValid, RedBlackTree.isValid_spec hz hg]; rfl) hf actions
    (m := FMap.empty) (keys := []) ⟨[], RedBlackTree.Inv.new z, FMap.lists_empty⟩ ⟨by simp, by simp [FMap.empty]⟩ with
    ⟨s, keys, m, e, h, hk⟩ | ⟨_, _, _, _, _, _, _, _, _, _, _, _, ⟨_, _, _, _, _, hr, hg, _⟩⟩
  · refine ⟨s, keys, e, hk.1, fun k => ?_⟩
    have : s.get k = .ok (m.get k) := H.get h k
    rw [hk.2, this, Option.isSome_iff_exists]; simp
  · rw [hr.1] at hg; cases hg

/-- C79 for the AVL tree. -/
theorem C79_avl_fuzz [LinearOrder K] (hM0 : 0 < M) (hM : M + 1 < 2 ^ 32) (z : AVLNode K V)
    (actions : List (Action K V × Nat)) {fuel : Nat} (hf : M < fuel) :
    ∃ t keys, target avl assertNothing fuel (AVLTree.new z : AVLTree K V M) [] actions = .ok (t, keys) ∧
      keys.Nodup ∧ ∀ k, k ∈ keys ↔ ∃ v, t.get k = .ok (some v) := by
  have H := good_avl (K := K) (V := V) hM hM0
  rcases H.target (check := assertNothing) (fun _ => rfl) hf actions
    (m := FMap.empty) (keys := []) ⟨[], AVLTree.Inv.new z, FMap.lists_empty⟩ ⟨by simp, by simp [FMap.empty]⟩ with
    ⟨s, keys, m, e, h, hk⟩ | ⟨_, _, _, _, _, _, _, _, _, _, _, _, ⟨_, _, _, _, _, hr, hg, _⟩⟩
  · refine ⟨s, keys, e, hk.1, fun k => ?_⟩
    have : s.get k = .ok (m.get k) := H.get h k
    rw [hk.2, this, Option.isSome_iff_exists]; simp
  · rw [hr.1] at hg; cases hg

/-- C79 for the hash table, whatever the hash function. -/
theorem C79_hash_fuzz [DecidableEq K] (hB : 0 < B) (hM : M + 1 < 2 ^ 32) (hash : K → Nat) (z : HashNode K V)
    (actions : List (Action K V × Nat)) {fuel : Nat} (hf : M < fuel) :
    ∃ t keys, target (hashTable hash) assertNothing fuel (HashTable.new z : HashTable K V B M) [] actions =
        .ok (t, keys) ∧
      keys.Nodup ∧ ∀ k, k ∈ keys ↔ ∃ v, t.get hash k = .ok (some v) := by
  have H := good_hashTable (K := K) (V := V) (B := B) (hash := hash) hM
  rcases H.target (check := assertNothing) (fun _ => rfl) hf actions
    (m := FMap.empty) (keys := []) ⟨_, HashTable.new_HRep hB hash z, by
      rw [show HashTable.kvs (HashTable.all B fun _ => ([] : List (HashTable.Ent K V))) = [] by simp [HashTable.kvs]]
      exact FMap.lists_empty⟩
      ⟨by simp, by simp [FMap.empty]⟩ with
    ⟨s, keys, m, e, h, hk⟩ | ⟨_, _, _, _, _, _, _, _, _, _, _, _, ⟨_, _, _, _, _, hr, hg, _⟩⟩
  · refine ⟨s, keys, e, hk.1, fun k => ?_⟩
    have : s.get hash k = .ok (m.get k) := H.get h k
    rw [hk.2, this, Option.isSome_iff_exists]; simp
  · rw [hr.1] at hg; cases hg

/-- The only way in which the target of `Critbit` can fail: an `Upsert` of a new value on a full tree. -/
def UpsertOnFull (t : Critbit V N M) (keys : List (BitVec 128)) (a : Action (BitVec 128) V) (r : Nat) : Prop :=
  ∃ v k w, a = .upsert v ∧ keys[r % keys.length]? = some k ∧ t.len = M ∧ t.get k = .ok (some w) ∧ w ≠ v

/-- C79 for `Critbit`: the target gets through, with the same result as the others, or it fails with an assertion;
it fails exactly if an `Upsert` of another value for the chosen key comes when the tree is full. -/
theorem C79_critbit_fuzz (hM0 : 0 < M) (hNM : 2 * M ≤ N) (hN : N + 1 < 2 ^ 32) (z : CritbitNode) (w : V)
    (actions : List (Action (BitVec 128) V × Nat)) {fuel : Nat} (hf : M < fuel) :
    ((∃ t keys, target critbit assertNothing fuel (Critbit.new z w : Critbit V N M) [] actions = .ok (t, keys) ∧
        keys.Nodup ∧ ∀ k, k ∈ keys ↔ ∃ v, t.get k = .ok (some v)) ∨
      target critbit assertNothing fuel (Critbit.new z w : Critbit V N M) [] actions = .error .assertion) ∧
    (target critbit assertNothing fuel (Critbit.new z w : Critbit V N M) [] actions = .error .assertion ↔
      ∃ pre a r post t keys, actions = pre ++ (a, r) :: post ∧
        target critbit assertNothing fuel (Critbit.new z w : Critbit V N M) [] pre = .ok (t, keys) ∧
        UpsertOnFull t keys a r) := by
  have H := good_critbit (V := V) hN hNM hM0
  have hnew : ∃ E, Critbit.Inv (Critbit.new z w : Critbit V N M) E ∧
      (FMap.empty : FMap (BitVec 128) V).Lists (E.map Prod.snd) := ⟨[], Critbit.Inv.new z w, FMap.lists_empty⟩
  have hlen : ∀ {s : Critbit V N M} {m : FMap (BitVec 128) V},
      (∃ E, Critbit.Inv s E ∧ m.Lists (E.map Prod.snd)) → s.len = m.len :=
    fun ⟨_, h, hm⟩ => (Critbit.laws hN hNM hM0).len' h hm
  have hup : ∀ {s : Critbit V N M} {m : FMap (BitVec 128) V} {keys a r},
      (∃ E, Critbit.Inv s E ∧ m.Lists (E.map Prod.snd)) →
      (Good.Fails (fun m _ => m.len = M) m keys a r ↔ UpsertOnFull s keys a r) := by
    intro s m keys a r h
    have hget : ∀ k, s.get k = .ok (m.get k) := fun k => H.get h k
    simp only [Good.Fails, UpsertOnFull, hget, hlen h, Except.ok.injEq]
  have key := fun as => H.target (check := assertNothing) (fun _ => rfl) hf as
    (m := FMap.empty) (keys := []) hnew ⟨by simp, by simp [FMap.empty]⟩
  refine ⟨?_, ?_, ?_⟩
  · rcases key actions with ⟨s, keys, m, e, h, hk⟩ | ⟨e, _⟩
    · refine Or.inl ⟨s, keys, e, hk.1, fun k => ?_⟩
      have : s.get k = .ok (m.get k) := H.get h k
      rw [hk.2, this, Option.isSome_iff_exists]; simp
    · exact Or.inr e
  · intro he
    rcases key actions with ⟨s, keys, m, e, h, hk⟩ | ⟨_, pre, a, r, post, s, keys, m, rfl, e, h, hk, hfl⟩
    · rw [he] at e; cases e
    · exact ⟨pre, a, r, post, s, keys, rfl, e, (hup h).1 hfl⟩
  · rintro ⟨pre, a, r, post, t, keys, rfl, e, hu⟩
    rw [Good.target_append pre _ e]
    rcases key pre with ⟨s', keys', m, e', h, hk⟩ | ⟨e', _⟩
    · rw [e] at e'; cases e'
      exact H.fails hf h hk ((hup h).2 hu) post
    · rw [e] at e'; cases e'

/-- C79: so the target of `Critbit` does fail, for every capacity and every two values: insert as many different keys
as there is room for with one value, then upsert the other. -/
theorem C79_critbit_fuzz_fails (hM0 : 0 < M) (hNM : 2 * M ≤ N) (hN : N + 1 < 2 ^ 32) (z : CritbitNode) (w : V)
    {v v' : V} (hv : v ≠ v') {fuel : Nat} (hf : M < fuel) :
    target critbit assertNothing fuel (Critbit.new z w : Critbit V N M) []
      ((List.range M).map (fun i => (.insert (BitVec.ofNat 128 i) v, 0)) ++ [(.upsert v', 0)]) = .error .assertion := by
  have H := good_critbit (V := V) hN hNM hM0
  have hnd : ((List.range M).map (BitVec.ofNat 128)).Nodup := by
    rw [List.nodup_iff_pairwise_ne, List.pairwise_map]
    refine (List.nodup_iff_pairwise_ne.1 List.nodup_range).imp_of_mem ?_
    intro a b ha hb hne he
    rw [List.mem_range] at ha hb
    have h128 : (2 : Nat) ^ 32 ≤ 2 ^ 128 := Nat.pow_le_pow_right (by decide) (by decide)
    have := congrArg BitVec.toNat he
    rw [BitVec.toNat_ofNat, BitVec.toNat_ofNat, Nat.mod_eq_of_lt (by omega), Nat.mod_eq_of_lt (by omega)] at this
    exact hne this
  obtain ⟨s, m, e, h, hl, hall⟩ := H.fill (check := assertNothing) (fun _ => rfl) fuel v
    (fun m _ hlt he => by omega) ((List.range M).map (BitVec.ofNat 128)) (m := FMap.empty) (keys := [])
    (s := Critbit.new z w) ⟨[], Critbit.Inv.new z w, FMap.lists_empty⟩ (by simp [FMap.empty]) hnd
    (by simp [FMap.empty]) (by simp [FMap.empty])
  rw [List.map_map, List.nil_append] at e
  refine ((C79_critbit_fuzz hM0 hNM hN z w _ hf).2).2 ⟨_, _, _, [], s, _, rfl, e, ?_⟩
  have hget : ∀ k, s.get k = .ok (m.get k) := fun k => H.get h k
  have hlen : s.len = m.len := by
    obtain ⟨_, h, hm⟩ := h
    exact (Critbit.laws hN hNM hM0).len' h hm
  rcases H.target (check := assertNothing) (fun _ => rfl) hf _ (m := FMap.empty) (keys := [])
    ⟨[], Critbit.Inv.new z w, FMap.lists_empty⟩ ⟨by simp, by simp [FMap.empty]⟩ with
    ⟨s', keys', m', e', h', hk'⟩ | ⟨e', _⟩
  · rw [e] at e'
    simp only [Except.ok.injEq, Prod.mk.injEq] at e'
    obtain ⟨rfl, rfl⟩ := e'
    have h0 : BitVec.ofNat 128 0 ∈ (List.range M).map (BitVec.ofNat 128) :=
      List.mem_map.2 ⟨0, List.mem_range.2 hM0, rfl⟩
    obtain ⟨x, hx⟩ := Option.isSome_iff_exists.1 ((hk'.2 _).1 h0)
    have hget' : s.get (BitVec.ofNat 128 0) = .ok (m'.get (BitVec.ofNat 128 0)) := H.get h' _
    have hxv : x = v := by
      refine hall (BitVec.ofNat 128 0) x ?_
      rw [hget] at hget'
      simp only [Except.ok.injEq] at hget'
      rw [hget', hx]
    refine ⟨v', BitVec.ofNat 128 0, x, rfl, ?_, ?_, by rw [hget', hx], by rw [hxv]; exact hv⟩
    · simp [hM0]
    · rw [hlen, hl]; simp [FMap.empty]
  · rw [e] at e'; cases e'

/-- `C79`: a run in which every kind of action does something, including an insertion refused by the full tree. -/
example : (∃ t, target redBlack assertValid 4 (RedBlackTree.new ⟨0, 0⟩ : RedBlackTree Nat Nat 3) []
    [(.insert 5 50, 0), (.insert 2 20, 0), (.insert 8 80, 0), (.insert 9 90, 0), (.upsert 51, 3), (.replace 21, 4),
      (.iter, 0), (.iterRev, 0), (.remove, 0), (.iterMut, 0), (.iterMutRev, 0)] = .ok (t, [8, 2])) ∧
    (∃ t, target avl assertNothing 4 (AVLTree.new ⟨0, 0⟩ : AVLTree Nat Nat 3) []
    [(.insert 5 50, 0), (.insert 2 20, 0), (.insert 8 80, 0), (.insert 9 90, 0), (.upsert 51, 3), (.replace 21, 4),
      (.iter, 0), (.iterRev, 0), (.remove, 0), (.iterMut, 0), (.iterMutRev, 0)] = .ok (t, [8, 2])) ∧
    ∃ t, target (hashTable id) assertNothing 4 (HashTable.new ⟨0, 0⟩ : HashTable Nat Nat 2 3) []
    [(.insert 5 50, 0), (.insert 2 20, 0), (.insert 8 80, 0), (.insert 9 90, 0), (.upsert 51, 3), (.replace 21, 4),
      (.iter, 0), (.iterRev, 0), (.remove, 0), (.iterMut, 0), (.iterMutRev, 0)] = .ok (t, [8, 2]) :=
  ⟨⟨_, rfl⟩, ⟨_, rfl⟩, ⟨_, rfl⟩⟩

set_option maxRecDepth 100000 in
/-- `C79`: on `Critbit` the same kind of run goes through as long as the tree is not full, and fails when it is; the
sizes of the real target meet the hypotheses. -/
example : (∃ t, target critbit assertNothing 4 (Critbit.new ⟨0, 0⟩ 0 : Critbit Nat 6 3) []
    [(.insert 5 50, 0), (.insert 2 20, 0), (.upsert 51, 2), (.iterRev, 0), (.insert 8 80, 0), (.replace 21, 4),
      (.upsert 80, 2), (.remove, 1)] = .ok (t, [5, 8])) ∧
    target critbit assertNothing 4 (Critbit.new ⟨0, 0⟩ 0 : Critbit Nat 6 3) []
    [(.insert 5 50, 0), (.insert 2 20, 0), (.insert 8 80, 0), (.upsert 51, 0)] = .error .assertion ∧
    (0 < 1024 ∧ 2 * 1024 ≤ 2048 ∧ 2048 + 1 < 2 ^ 32) :=
  ⟨⟨_, rfl⟩, rfl, by decide⟩

end Sokoban.Props
