import Verif.Proof.Rehash

/-
Property theorems C87: hash tables whose hash function changes between calls.
-/
namespace Sokoban.Props
open MapSpec Rehash
variable {K V : Type} {B M : Nat}

/-- **C87**: every history in which each call comes with a hash function of its own, with any equality of keys, ends
without panic, and has the results of `steps` on rows: a call looks at the row that its own hash function selects.
Afterwards `len` and `iter` do not depend on any hash function and yield all rows, and lookups with any hash function
agree with the rows. -/
theorem C87_hash_changing [BEq K] (hB : 0 < B) (hM : M + 1 < 2 ^ 32) (z : HashNode K V) (xs : List ((K → Nat) × Op K V)) :
    ∃ (h : HashTable K V B M) (T : List (List (K × V))) (it : HashTable.Iter),
      T = (steps M (List.replicate B []) xs).1 ∧
      run call (HashTable.new z) xs = .ok (h, (steps M (List.replicate B []) xs).2) ∧
      T.length = B ∧ h.len = T.flatten.length ∧ h.len ≤ M ∧
      h.iter = .ok it ∧
      (∀ es, ∃ it', drive (HashTable.Iter.next h) HashTable.Iter.nextBack it es = .ok (it', consumeFwd T.flatten es)) ∧
      ∀ (hash : K → Nat) (k : K), h.get hash k = .ok ((AnyEq.found hash T k).map Prod.snd) ∧
        h.contains hash k = .ok (AnyEq.found hash T k).isSome ∧
        ∃ i, h.getAddr hash k = .ok i ∧
          match AnyEq.found hash T k with
          | none => i = 0
          | some e => 1 ≤ i ∧ i ≤ M ∧ h.getNode i = .ok ⟨e.1, e.2⟩ := by
  have hrep : (HashTable.rowsOf B fun _ => ([] : List (HashTable.Ent K V))) = List.replicate B [] := by
    rw [List.eq_replicate_iff]; simp
  obtain ⟨h, c, e, H, hr⟩ := HashTable.run_rehash hM (fun _ => 0) xs (HashTable.new z : HashTable K V B M) (fun _ => [])
    (HashTable.new_HHeld hB _ z)
  rw [hrep] at e hr
  obtain ⟨it, _, ei, _⟩ := HashTable.drive_iter H []
  have hlen : h.len = (HashTable.rowsOf B c).flatten.length := by
    rw [H.len, HashTable.rowsOf_flatten]; simp only [HashTable.kvs, List.length_map]
  refine ⟨h, HashTable.rowsOf B c, it, hr, e, HashTable.rowsOf_length, hlen, by rw [H.len]; exact H.le, ei,
    fun es => ?_, fun hash k => ?_⟩
  · obtain ⟨it1, it', e1, e2⟩ := HashTable.drive_iter H es
    rw [ei] at e1; cases e1
    exact ⟨it', by rw [HashTable.rowsOf_flatten]; exact e2⟩
  · obtain ⟨h1, _, h3⟩ := HashTable.lookup_held (H.rehash hash) k
    refine ⟨h1, ?_, h3⟩
    unfold HashTable.contains
    rw [h1]
    simp

/-- **C87**: a table filled with `hash` and then used with `hash'`. A key whose two hashes select the same bucket is
treated as before, by all calls. Any other key is not found, whether it is there or not; `remove` and `get_mut` change
nothing. `insert` stores it a second time if there is room: then `hash'` finds the new value, and `hash` finds for
this and all other keys what it found before. -/
theorem C87_hash_other [DecidableEq K] (hB : 0 < B) (hM : M + 1 < 2 ^ 32) (hash hash' : K → Nat) (z : HashNode K V)
    (ops : List (Op K V)) {h : HashTable K V B M} {outs : List (Out K V)}
    (hrun : run (HashTableSpec.call hash) (HashTable.new z) ops = .ok (h, outs)) (k : K) :
    (hash' k % B = hash k % B →
      h.get hash' k = h.get hash k ∧ h.contains hash' k = h.contains hash k ∧ h.getAddr hash' k = h.getAddr hash k ∧
      h.getMut hash' k = h.getMut hash k ∧ h.remove hash' k = h.remove hash k ∧
      ∀ v, h.insert hash' k v = h.insert hash k v) ∧
    (hash' k % B ≠ hash k % B →
      h.get hash' k = .ok none ∧ h.contains hash' k = .ok false ∧ h.getAddr hash' k = .ok SENTINEL ∧
      h.getMut hash' k = .ok (h, none) ∧ h.remove hash' k = .ok (h, none) ∧
      ∀ v, (h.len = M ∧ h.insert hash' k v = .ok (h, none)) ∨
        (h.len < M ∧ ∃ h' i, h.insert hash' k v = .ok (h', some i) ∧ h'.len = h.len + 1 ∧
          h'.get hash' k = .ok (some v) ∧ ∀ q, h'.get hash q = h.get hash q)) := by
  obtain ⟨h0, os, c, m, e, H, hm, _⟩ := HashTable.run_new hB hM hash z ops
  rw [hrun] at e; cases e
  refine ⟨fun hk => HashTable.calls_congr h hk, fun hk => ?_⟩
  have hf := HashTable.find_elsewhere (hash' := hash') H hk
  have H' := H.toHHeld.rehash hash'
  have hfound : AnyEq.found hash' (HashTable.rowsOf B c) k = none := by rw [HashTable.found_rowsOf hB, hf]; rfl
  obtain ⟨g1, _, i, g3, g4⟩ := HashTable.lookup_held H' k
  rw [hfound] at g1 g4
  refine ⟨g1, by unfold HashTable.contains; rw [g1]; rfl, by rw [g3]; exact congrArg _ g4,
    HashTable.getMut_none_held H' hf, HashTable.remove_none_held H' hf, fun v => ?_⟩
  rw [H.toHHeld.len]
  by_cases hlt : (HashTable.all B c).length < M
  · right
    obtain ⟨h1, i, e1, H1⟩ := HashTable.insert_new_held H' hM v hlt hf
    have H1 := H1.forget
    refine ⟨hlt, h1, i, e1, ?_, ?_, fun q => ?_⟩
    · obtain ⟨A, C, e1, e2⟩ := HashTable.all_split c (Nat.mod_lt (hash' k) hB)
      rw [H1.len, e1, e2]; simp; omega
    · rw [(HashTable.lookup_held H1 k).1, HashTable.found_rowsOf hB]
      simp [HashTable.updB]
    · rw [(HashTable.lookup_held (H1.rehash hash) q).1, (HashTable.lookup_held H.toHHeld q).1,
        HashTable.found_rowsOf hB, HashTable.found_rowsOf hB]
      unfold HashTable.updB
      split
      · rename_i hq
        have hkq : (k == q) = false := by
          rw [beq_eq_false_iff_ne]; rintro rfl; exact hk hq.symm
        rw [List.find?_cons_of_neg (by simpa using hkq), hq]
      · rfl
  · left
    have := H.toHHeld.le
    exact ⟨by omega, HashTable.insert_full_held H' v (by omega) hf⟩

/-- **C87**: hash functions that select the same buckets are interchangeable: a history that mixes them is the
history with one of them. In particular (`usize32`) machines with 32-bit and with 64-bit addresses can work on the same
bytes if `NUM_BUCKETS` divides 2^32. -/
theorem C87_hash_same_buckets [BEq K] (hash : K → Nat) (h : HashTable K V B M) (xs : List ((K → Nat) × Op K V)) :
    ((∀ x ∈ xs, ∀ k, x.1 k % B = hash k % B) → run call h xs = run (HashTableSpec.call hash) h (xs.map Prod.snd)) ∧
    (B ∣ 2 ^ 32 → (∀ x ∈ xs, x.1 = hash ∨ x.1 = usize32 hash) →
      run call h xs = run (HashTableSpec.call hash) h (xs.map Prod.snd)) := by
  refine ⟨HashTable.run_congr xs h, fun hd hx => HashTable.run_congr xs h fun x hm k => ?_⟩
  rcases hx x hm with e | e
  · rw [e]
  · rw [e]; exact Nat.mod_mod_of_dvd _ hd

/-- **C87**, a deviation: for every other number of buckets there is a hash function and a key that the 32-bit machine
does not find although the 64-bit machine has just stored it. -/
theorem C87_hash_usize32_loses [DecidableEq K] (hB : 0 < B) (hd : ¬ B ∣ 2 ^ 32) (hM0 : 0 < M) (hM : M + 1 < 2 ^ 32)
    (z : HashNode K V) (k : K) (v : V) :
    ∃ (hash : K → Nat) (h : HashTable K V B M), (∀ q, hash q < 2 ^ 64) ∧
      run (HashTableSpec.call hash) (HashTable.new z) [.insert k v] = .ok (h, [.inserted true]) ∧
      h.get hash k = .ok (some v) ∧ h.get (usize32 hash) k = .ok none := by
  let hash : K → Nat := fun _ => 2 ^ 32
  have hne : usize32 hash k % B ≠ hash k % B := by
    intro h
    exact hd (Nat.dvd_of_mod_eq_zero (by simpa [usize32, hash] using h.symm))
  obtain ⟨h, os, c, m, e, H, hm, hs⟩ := HashTable.run_new (M := M) hB hM hash z [.insert k v]
  match os, hs with
  | [], hs => exact hs.elim
  | _ :: _ :: _, ⟨_, _, hs⟩ => exact hs.elim
  | [o], ⟨m', h1, hs⟩ =>
  obtain rfl : m = m' := hs
  rcases h1 with ⟨⟨_, h0⟩, _⟩ | ⟨_, rfl, rfl⟩
  · exact absurd h0 (by simp [FMap.empty]; omega)
  refine ⟨hash, h, fun _ => by simp [hash], e, ?_, ((C87_hash_other hB hM hash (usize32 hash) z _ e k).2 hne).1⟩
  rcases HashTable.lookup_spec H hm k with ⟨hg, _⟩ | ⟨i, v', hg, _, _, _, _, _, e1, _⟩
  · simp [FMap.insert] at hg
  · simp only [FMap.insert, if_true] at hg
    cases hg
    exact e1

/-! Cases. -/

/-- With two buckets, key 5 is stored under both hash functions; 6 is missed by the second one. -/
example :
    let ops : List ((Nat → Nat) × Op Nat Nat) := [(id, .insert 5 50), (id, .insert 6 60), ((· / 2), .insert 5 51),
      ((· / 2), .remove 6), (id, .getMut 5 (· + 1)), ((· / 2), .iterMut [(.front, fun _ v => v), (.front, fun _ v => v)])]
    (steps 4 (List.replicate 2 []) ops).1 = [[(5, 51), (6, 60)], [(5, 51)]] ∧
    (run call (HashTable.new ⟨0, 0⟩ : HashTable Nat Nat 2 4) ops).map Prod.snd =
      .ok [.inserted true, .inserted true, .inserted true, .removed none, .got (some 50),
        .seen [some (5, 51), some (6, 60)]] := by
  intro ops
  refine ⟨by decide, ?_⟩
  obtain ⟨h, T, it, _, e, _⟩ := C87_hash_changing (M := 4) (B := 2) (by omega) (by omega) ⟨0, 0⟩ ops
  rw [e]
  rfl

/-- A table and a key of the second kind in `C87_hash_other`: it is there, and it is not found. -/
example : ∃ (h : HashTable Nat Nat 2 4) (outs : List (Out Nat Nat)),
    run (HashTableSpec.call id) (HashTable.new ⟨0, 0⟩) [.insert 5 50, .insert 6 60] = .ok (h, outs) ∧
    h.get id 6 = .ok (some 60) ∧ h.get (· / 2) 6 = .ok none ∧ h.len < 4 ∧ 6 / 2 % 2 ≠ id 6 % 2 ∧ 4 / 2 % 2 = id 4 % 2 :=
  ⟨_, _, rfl, rfl, rfl, by decide, by decide, by decide⟩

/-- Numbers of buckets of both kinds (the crate asks for an even number). -/
example : 1024 ∣ 2 ^ 32 ∧ ¬ 10 ∣ 2 ^ 32 := by decide

end Sokoban.Props
