import Verif.Proof.AnyEq

/-
Property theorems C68: what a hash table does with an equality of keys that obeys no law.
-/
namespace Sokoban.Props
open MapSpec HashTableSpec AnyEq
variable {K V : Type} [BEq K] {B M : Nat}

/-- C68: whatever `==` on keys says and whatever the hash function is, no call on a table with at least one
bucket panics or loops, and every history has exactly the results of `steps` on one row of entries for each
remainder of the hash: a call concerns the first entry of the row whose key says that it equals the given one,
or none. Afterwards `len`, `iter`, `get`, `contains`, `get_addr` and the entry behind that address agree with the
rows, and every entry is in the row of its own hash. -/
theorem C68_hash_any_eq (hB : 0 < B) (hM : M + 1 < 2 ^ 32) (hash : K → Nat) (z : HashNode K V) (ops : List (Op K V)) :
    ∃ (h : HashTable K V B M) (T : List (List (K × V))) (it : HashTable.Iter),
      T = (steps hash M (List.replicate B []) ops).1 ∧
      run (call hash) (HashTable.new z) ops = .ok (h, (steps hash M (List.replicate B []) ops).2) ∧
      T.length = B ∧ h.len = T.flatten.length ∧ h.len ≤ M ∧
      (∀ b l, T[b]? = some l → ∀ e ∈ l, hash e.1 % B = b) ∧
      h.iter = .ok it ∧
      (∀ es, ∃ it', drive (HashTable.Iter.next h) HashTable.Iter.nextBack it es = .ok (it', consumeFwd T.flatten es)) ∧
      ∀ k, h.get hash k = .ok ((found hash T k).map Prod.snd) ∧
        h.contains hash k = .ok (found hash T k).isSome ∧
        h.containsInherent hash k = .ok (found hash T k).isSome ∧
        ∃ i, h.getAddr hash k = .ok i ∧
          match found hash T k with
          | none => i = 0
          | some e => 1 ≤ i ∧ i ≤ M ∧ h.getNode i = .ok ⟨e.1, e.2⟩ := by
  have hrep : (HashTable.rowsOf B fun _ => ([] : List (HashTable.Ent K V))) = List.replicate B [] := by
    rw [List.eq_replicate_iff]; simp
  obtain ⟨h, c, e, H, hr⟩ := HashTable.run_any (st := True) hM ops (HashTable.new z : HashTable K V B M) (fun _ => [])
    (HashTable.new_HHeld hB hash z)
  rw [hrep] at e hr
  obtain ⟨it, _, ei, _⟩ := HashTable.drive_iter H []
  have hlen : h.len = (HashTable.rowsOf B c).flatten.length := by
    rw [H.len, HashTable.rowsOf_flatten]; simp only [HashTable.kvs, List.length_map]
  refine ⟨h, HashTable.rowsOf B c, it, hr, e, HashTable.rowsOf_length, hlen, by rw [H.len]; exact H.le,
    HashTable.rows_home H, ei, fun es => ?_, fun k => ?_⟩
  · obtain ⟨it1, it', e1, e2⟩ := HashTable.drive_iter H es
    rw [ei] at e1; cases e1
    exact ⟨it', by rw [HashTable.rowsOf_flatten]; exact e2⟩
  · obtain ⟨h1, h2, h3⟩ := HashTable.lookup_held H k
    refine ⟨h1, ?_, h2, h3⟩
    unfold HashTable.contains
    rw [h1]
    simp

/-- C68: a key that no key equals (such as a NaN) is never found, not even right after it was inserted: on every
reachable table `get`, `contains`, `remove` and `get_mut` miss it without changing anything, and `insert` adds
one more entry for it as long as there is room. -/
theorem C68_hash_key_equal_to_none (hB : 0 < B) (hM : M + 1 < 2 ^ 32) (hash : K → Nat) (z : HashNode K V)
    (ops : List (Op K V)) (k : K) (hk : ∀ k' : K, (k' == k) = false) :
    ∃ (h : HashTable K V B M) (outs : List (Out K V)),
      run (call hash) (HashTable.new z) ops = .ok (h, outs) ∧
      h.get hash k = .ok none ∧ h.contains hash k = .ok false ∧ h.remove hash k = .ok (h, none) ∧
      h.getMut hash k = .ok (h, none) ∧
      ∀ v, ∃ h' r, h.insert hash k v = .ok (h', r) ∧ (r = none ↔ h.len = M) ∧ (r = none → h' = h) ∧
        (r ≠ none → h'.len = h.len + 1 ∧ h'.get hash k = .ok none) := by
  obtain ⟨h, c, e, H, hr⟩ := HashTable.run_any (st := True) hM ops (HashTable.new z : HashTable K V B M) (fun _ => [])
    (HashTable.new_HHeld hB hash z)
  have hf : ∀ c : Nat → List (HashTable.Ent K V), (c (hash k % B)).find? (fun e => e.2.1 == k) = none := by
    intro c
    rw [List.find?_eq_none]
    intro e _
    simp [hk]
  have hfound : ∀ c : Nat → List (HashTable.Ent K V), found hash (HashTable.rowsOf B c) k = none := by
    intro c; rw [HashTable.found_rowsOf hB, hf]; rfl
  have hget : ∀ {h : HashTable K V B M} {c}, HashTable.HHeld True hash h c → h.get hash k = .ok none := by
    intro h c H
    rw [(HashTable.lookup_held H k).1, hfound]; rfl
  refine ⟨h, _, e, hget H, ?_, HashTable.remove_none_held H (hf c), HashTable.getMut_none_held H (hf c), fun v => ?_⟩
  · unfold HashTable.contains; rw [hget H]; rfl
  · by_cases hlt : (HashTable.all B c).length < M
    · obtain ⟨h', i, ei, H'⟩ := HashTable.insert_new_held H hM v hlt (hf c)
      refine ⟨h', _, ei, ?_, by simp, fun _ => ⟨?_, hget H'⟩⟩
      · rw [H.len]; exact ⟨nofun, fun h => by omega⟩
      · rw [H.len, H'.len]
        obtain ⟨A, C, e1, e2⟩ := HashTable.all_split c (Nat.mod_lt (hash k) hB)
        rw [e1, e2]; simp; omega
    · have := H.le
      refine ⟨h, none, HashTable.insert_full_held H v (by omega) (hf c), ?_, by simp, by simp⟩
      rw [H.len]; exact ⟨fun _ => by omega, fun _ => rfl⟩

/-- C68: an entry whose key equals no key can not be removed: once it is yielded by `iter`, it (with some value)
is yielded after every further history. -/
theorem C68_hash_entry_equal_to_none_stays (hB : 0 < B) (hM : M + 1 < 2 ^ 32) (hash : K → Nat) (z : HashNode K V)
    (ops ops' : List (Op K V)) (k : K) (hk : ∀ k' : K, (k == k') = false) :
    ∃ (h h' : HashTable K V B M) (outs outs' : List (Out K V)) (it it' j j' : HashTable.Iter) (L L' : List (K × V)),
      run (call hash) (HashTable.new z) ops = .ok (h, outs) ∧
      run (call hash) (HashTable.new z) (ops ++ ops') = .ok (h', outs') ∧
      h.iter = .ok it ∧ drive (HashTable.Iter.next h) HashTable.Iter.nextBack it (List.replicate M .front) =
        .ok (j, consumeFwd L (List.replicate M .front)) ∧ L.length = h.len ∧
      h'.iter = .ok it' ∧ drive (HashTable.Iter.next h') HashTable.Iter.nextBack it' (List.replicate M .front) =
        .ok (j', consumeFwd L' (List.replicate M .front)) ∧ L'.length = h'.len ∧
      ((∃ v, (k, v) ∈ L) → ∃ v, (k, v) ∈ L') := by
  obtain ⟨h, T, it, hT, e, _, hl, _, _, ei, hd, _⟩ := C68_hash_any_eq (M := M) hB hM hash z ops
  obtain ⟨h', T', it', hT', e', _, hl', _, _, ei', hd', _⟩ := C68_hash_any_eq (M := M) hB hM hash z (ops ++ ops')
  obtain ⟨j, hj⟩ := hd (List.replicate M .front)
  obtain ⟨j', hj'⟩ := hd' (List.replicate M .front)
  refine ⟨h, h', _, _, it, it', j, j', T.flatten, T'.flatten, e, e', ei, hj, hl.symm, ei', hj', hl'.symm, ?_⟩
  intro hv
  rw [hT', HashTable.steps_append, ← hT]
  exact HashTable.steps_keeps hk M ops' hv

/-- keys of which `nan` equals nothing, not even itself, and `three` equals `two`, but not conversely -/
inductive Odd
  | nan | one | two | three
deriving DecidableEq

/-- an equality without any law -/
def Odd.eq : Odd → Odd → Bool
  | .three, .two => true
  | .one, .one => true
  | _, _ => false

/-- `nan` is a key that no key equals and that equals no key. -/
example : (∀ k' : Odd, Odd.eq k' .nan = false) ∧ (∀ k' : Odd, Odd.eq .nan k' = false) ∧
    Odd.eq .three .two = true ∧ Odd.eq .two .three = false :=
  ⟨fun k => by cases k <;> rfl, fun k => by cases k <;> rfl, rfl, rfl⟩

/-- `nan` is stored twice and never found, `two` finds the entry of `three`, and the last insertion is refused. -/
example :
    let _ : BEq Odd := ⟨Odd.eq⟩
    let ops : List (Op Odd Nat) := [.insert .nan 10, .insert .nan 11, .insert .three 30, .getMut .two (· + 1),
      .insert .one 5, .remove .nan, .insert .two 20, .insert .nan 12, .iterMut [(.front, fun _ v => v), (.front, fun _ _ => 0)]]
    let hash : Odd → Nat := fun _ => 0
    (steps hash 4 (List.replicate 2 []) ops).1 = [[(.one, 5), (.three, 0), (.nan, 11), (.nan, 10)], []] ∧
    (run (call hash) (HashTable.new ⟨.nan, 0⟩ : HashTable Odd Nat 2 4) ops).map Prod.snd =
      .ok [.inserted true, .inserted true, .inserted true, .got (some 30), .inserted true, .removed none,
        .inserted true, .inserted false, .seen [some (.one, 5), some (.three, 20)]] := by
  intro _ ops hash
  refine ⟨by decide, ?_⟩
  obtain ⟨h, T, it, _, e, _⟩ := C68_hash_any_eq (M := 4) (B := 2) (by omega) (by omega) hash ⟨.nan, 0⟩ ops
  rw [e]
  rfl

end Sokoban.Props
