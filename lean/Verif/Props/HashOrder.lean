import Verif.Proof.HashOrder

/-
Property theorem C66: the order in which a hash table yields its entries is determined by the hash function,
the number of buckets and the history.
-/
namespace Sokoban.Props
open MapSpec HashTableSpec
variable {K V : Type} [DecidableEq K] {B M : Nat}

/-- C66: every history on a new table has exactly the results of `recents`, a list of entries with the most
recently touched one first, and then `iter()` yields the entries by ascending `hash % NUM_BUCKETS`, and among
equal remainders the most recently touched one first. Neither the filler of unused slots nor the slots the
allocator hands out have any influence. -/
theorem C66_hash_iteration_order (hB : 0 < B) (hM : M + 1 < 2 ^ 32) (hash : K → Nat) (z : HashNode K V)
    (ops : List (Op K V)) :
    ∃ (h : HashTable K V B M) (it : HashTable.Iter),
      run (call hash) (HashTable.new z) ops = .ok (h, (recents hash B M [] ops).2) ∧ h.iter = .ok it ∧
      ∀ es, ∃ it', drive (HashTable.Iter.next h) HashTable.Iter.nextBack it es =
        .ok (it', consumeFwd (rows hash B (recents hash B M [] ops).1) es) := by
  obtain ⟨h, c, e, H, hp, _⟩ := HashTable.run_recent hM ops (HashTable.new z : HashTable K V B M) (fun _ => []) []
    (HashTable.new_HRep hB hash z) (fun _ _ => rfl) (by simp)
  obtain ⟨it, _, ei, _⟩ := HashTable.drive_iter H.toHHeld []
  refine ⟨h, it, e, ei, fun es => ?_⟩
  obtain ⟨it1, it', e1, e2⟩ := HashTable.drive_iter H.toHHeld es
  rw [ei] at e1; cases e1
  exact ⟨it', by rw [hp.rows]; exact e2⟩

/-- C66: consequently two tables with the same hash function, number of buckets and history, whatever was in
their memory before, answer alike and yield the same entries in the same order. -/
theorem C66_hash_iteration_deterministic (hB : 0 < B) (hM : M + 1 < 2 ^ 32) (hash : K → Nat)
    (z z' : HashNode K V) (ops : List (Op K V)) (es : List End) :
    ∃ (h h' : HashTable K V B M) (outs : List (Out K V)) (it it' : HashTable.Iter) (seen : List (Option (K × V))),
      run (call hash) (HashTable.new z) ops = .ok (h, outs) ∧ run (call hash) (HashTable.new z') ops = .ok (h', outs) ∧
      h.iter = .ok it ∧ h'.iter = .ok it' ∧
      (∃ j, drive (HashTable.Iter.next h) HashTable.Iter.nextBack it es = .ok (j, seen)) ∧
      ∃ j, drive (HashTable.Iter.next h') HashTable.Iter.nextBack it' es = .ok (j, seen) := by
  obtain ⟨h, it, e, ei, hd⟩ := C66_hash_iteration_order (M := M) hB hM hash z ops
  obtain ⟨h', it', e', ei', hd'⟩ := C66_hash_iteration_order (M := M) hB hM hash z' ops
  exact ⟨h, h', _, it, it', _, e, e', ei, ei', hd es, hd' es⟩

/-- C66 (deviation from what a lookup suggests): a call of `get_mut` that writes nothing changes the order in
which the table is iterated: the first entry yielded is another one. -/
theorem C66_hash_get_mut_reorders (z : HashNode Nat Nat) :
    ∃ (ops : List (Op Nat Nat)) (h h' : HashTable Nat Nat 2 4) (o o' : List (Out Nat Nat)) (it it' j j' : HashTable.Iter),
      run (call id) (HashTable.new z) ops = .ok (h, o) ∧ run (call id) (HashTable.new z) (ops ++ [.getMut 1 id]) = .ok (h', o') ∧
      h.iter = .ok it ∧ h'.iter = .ok it' ∧
      HashTable.Iter.next h it = .ok (j, some (3, 30)) ∧ HashTable.Iter.next h' it' = .ok (j', some (1, 10)) := by
  have one : ∀ {h : HashTable Nat Nat 2 4} {it j : HashTable.Iter} {x},
      drive (HashTable.Iter.next h) HashTable.Iter.nextBack it [.front] = .ok (j, [x]) →
      HashTable.Iter.next h it = .ok (j, x) := by
    intro h it j x e
    simp only [drive] at e
    cases hn : HashTable.Iter.next h it with
    | error p => rw [hn] at e; cases e
    | ok r => rw [hn] at e; cases r; cases e; rfl
  obtain ⟨h, it, e, ei, hd⟩ := C66_hash_iteration_order (M := 4) (B := 2) (by omega) (by omega) id z [.insert 1 10, .insert 3 30]
  obtain ⟨h', it', e', ei', hd'⟩ := C66_hash_iteration_order (M := 4) (B := 2) (by omega) (by omega) id z
    ([.insert 1 10, .insert 3 30] ++ [.getMut 1 id])
  obtain ⟨j, hj⟩ := hd [.front]
  obtain ⟨j', hj'⟩ := hd' [.front]
  exact ⟨_, h, h', _, _, it, it', j, j', e, e', ei, ei', one hj, one hj'⟩

/-- a history with collisions, an overwritten value, a removal, a lookup that moves, a refused insertion
and a mutable iteration; the table and the specification agree, and this is the order. -/
example :
    let ops : List (Op Nat Nat) := [.insert 1 10, .insert 3 30, .insert 2 20, .insert 5 50, .insert 7 70,
      .insert 1 11, .remove 3, .insert 9 90, .getMut 5 (· + 1), .iterMut [(.front, fun _ _ => 0), (.front, fun _ v => v)]]
    (rows id 2 (recents id 2 4 [] ops).1 = [(2, 0), (5, 51), (9, 90), (1, 11)]) ∧
    (run (call id) (HashTable.new ⟨0, 0⟩ : HashTable Nat Nat 2 4) ops).map Prod.snd = .ok (recents id 2 4 [] ops).2 := by
  intro ops
  exact ⟨by decide, rfl⟩

end Sokoban.Props
