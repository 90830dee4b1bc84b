import Verif.Proof.SharedInst

/-
C98: several maps in the memory of one structure, by assignments to its public field.
-/
namespace Sokoban.Props
open MapSpec (Rules treeRules hashRules Steps)
open Shared

section RB
variable {K V : Type} [LinearOrder K] {M n : Nat}
open RedBlackSpec (api)

/-- **C98**, red-black tree: a client which keeps `n` roots and assigns `tree.root` before it calls has `n` maps in one tree. Every
call acts on the map in place alone, as on a tree whose capacity is what the other maps leave; afterwards each of the maps
shows what its own calls made of it. `len` and `is_empty` speak of all maps together. The one call that fails is an
`insert` into an empty map when the others fill the tree: it panics, where a full tree otherwise refuses. -/
theorem C98_rb_several (hM : M + 1 < 2 ^ 32) (z : RBNode K V) (j0 : Fin n) (ops : List (Op n K V)) :
    (∃ c outs x, run (exec RedBlackTree.root RedBlackTree.setRoot api.call) ⟨(RedBlackTree.new z : RedBlackTree K V M), fun _ => SENTINEL, j0⟩ ops = .ok (c, outs) ∧
      Trace (Step (treeRules K V) M) ⟨fun _ => FMap.empty, j0⟩ ops outs x ∧ c.cur = x.cur ∧
      (∀ j, Shows api (c.switch RedBlackTree.root RedBlackTree.setRoot j).state (x.maps j)) ∧ Shows api c.state (x.maps x.cur) ∧
      x.total ≤ M ∧ c.state.len = x.total ∧ c.state.isEmpty = decide (x.total = 0)) ∨
    (∃ pre k v post c outs x, ops = pre ++ .call (.insert k v) :: post ∧
      run (exec RedBlackTree.root RedBlackTree.setRoot api.call) ⟨(RedBlackTree.new z : RedBlackTree K V M), fun _ => SENTINEL, j0⟩ pre = .ok (c, outs) ∧
      Trace (Step (treeRules K V) M) ⟨fun _ => FMap.empty, j0⟩ pre outs x ∧ (x.maps x.cur).len = 0 ∧ x.total = M ∧
      run (exec RedBlackTree.root RedBlackTree.setRoot api.call) ⟨(RedBlackTree.new z : RedBlackTree K V M), fun _ => SENTINEL, j0⟩ ops = .error .bufferFull) := by
  have H := RedBlackTree.shared (K := K) (V := V) hM
  rcases run_fam H ops _ _ _ (Fam.start H rfl (RedBlackTree.shared_new hM z) j0) with ⟨c, os, x, Es, e, ht, hf⟩ |
    ⟨pre, k, v, post, c, os, x, Es, rfl, er, ht, hf, h0, h1, _, hr⟩
  · left
    have hs := Fam.size H hf
    have hsh : ∀ j, Shows api (c.switch RedBlackTree.root RedBlackTree.setRoot j).state (x.maps j) := fun j =>
      RedBlackTree.Inv.shows hM (hf.rep j) (hf.lists j)
    refine ⟨c, os, x, e, ht, hf.cur, hsh, ?_, ?_, hs, ?_⟩
    · have := hsh x.cur
      rw [← hf.cur] at this ⊢
      simpa [Client.switch, Client.aside, RedBlackTree.setRoot] using this
    · obtain ⟨⟨free, hfr⟩, _⟩ := H.base (hf.rep c.cur)
      have h1 := hfr.live_le
      have h2 := (foreign_perm Es c.cur).length_eq
      rw [hf.total, ← h2]; exact h1
    · show decide (c.state.allocator.size = 0) = _
      rw [hs]
  · exact Or.inr ⟨pre, k, v, post, c, os, x, rfl, er, ht, h0, h1, hr⟩

/-- **C98**, red-black tree: a tree which was used and whose `root` is then set to the sentinel is empty to the eye, but the room
stays taken: it is a map of capacity `MAX_SIZE - len` (if there is any left; else `insert` panics). Nothing done to it
reaches the old entries: with the old root they are all back. -/
theorem C98_rb_forget (hM : M + 1 < 2 ^ 32) (z : RBNode K V) (ops : List (MapSpec.Op K V)) {s : RedBlackTree K V M}
    {outs : List (MapSpec.Out K V)} (hrun : run api.call (RedBlackTree.new z) ops = .ok (s, outs)) :
    Shows api (s.setRoot SENTINEL) FMap.empty ∧ (s.setRoot SENTINEL).len = s.len ∧
    (s.len = M → ∀ k v, (s.setRoot SENTINEL).insert k v = .error .bufferFull) ∧
    ∃ m0, Shows api s m0 ∧ m0.len = s.len ∧ (s.len < M → ∀ ops', ∃ s' outs' m,
      run api.call (s.setRoot SENTINEL) ops' = .ok (s', outs') ∧
      Steps (treeRules K V (M - s.len)) FMap.empty ops' outs' m ∧ Shows api s' m ∧ s'.len = s.len + m.len ∧
      Shows api (s'.setRoot s.root) m0) := by
  have H := RedBlackTree.shared (K := K) (V := V) hM
  rcases run_one H (kn := .nothing) rfl (fun _ h => nomatch h) ops (RedBlackTree.new z) [] FMap.empty (RedBlackTree.Inv.new z) FMap.lists_empty with
    ⟨s1, os, E, m0, e, h, hm, _⟩ | ⟨_, _, _, _, _, _, _, _, _, _, _, _, _, _, _, e⟩
  swap
  · rw [hrun] at e; cases e
  rw [hrun] at e; cases e
  have hsz : s.len = E.length := h.base.size
  have h2 := H.forget (kn0 := .nothing) (kn1 := .nothing) (RedBlackTree.Inv.new z : RedBlackTree.Inv (kn := .nothing) (RedBlackTree.new z : RedBlackTree K V M) []) h rfl
  have hL : (snap s.allocator (E.map Prod.fst)).lost.length = s.len := by rw [hsz]; exact List.length_map ..
  have hm0 : m0.len = s.len := by rw [hm.len, hsz, List.length_map]
  refine ⟨RedBlackTree.Inv.shows hM h2 FMap.lists_empty, rfl, fun hl k v => ?_, m0,
    RedBlackTree.Inv.shows hM h hm, hm0, fun hl ops' => ?_⟩
  · exact RedBlackTree.Inv.insert_stuck hM (hL.trans hl) h2
  · rcases run_one H (kn := snap s.allocator (E.map Prod.fst)) rfl (fun _ _ => trivial) ops' _ [] FMap.empty h2 FMap.lists_empty with
      ⟨s', os', E', m, e', h', hm', hst⟩ | ⟨_, _, _, _, _, _, _, _, _, _, _, _, _, hc, _⟩
    · refine ⟨s', os', m, e', by rw [← hL]; exact hst, RedBlackTree.Inv.shows hM h' hm', ?_, ?_⟩
      · have := h'.base.sizeL
        rw [hL] at this
        rw [hm'.len, List.length_map, Nat.add_comm]; exact this
      · have hr := H.restore (kn1 := .nothing) h h'
        exact RedBlackTree.Inv.shows hM hr hm
    · exact absurd (hL.symm.trans hc) (by omega)

end RB

section AVL
variable {K V : Type} [LinearOrder K] {M n : Nat}
open AVLSpec (api)

/-- **C98**, AVL tree: a client which keeps `n` roots and assigns `tree.root` before it calls has `n` maps in one tree. Every
call acts on the map in place alone, as on a tree whose capacity is what the other maps leave; afterwards each of the maps
shows what its own calls made of it. `len` and `is_empty` speak of all maps together. The one call that fails is an
`insert` into an empty map when the others fill the tree: it panics, where a full tree otherwise refuses. -/
theorem C98_avl_several (hM : M + 1 < 2 ^ 32) (z : AVLNode K V) (j0 : Fin n) (ops : List (Op n K V)) :
    (∃ c outs x, run (exec AVLTree.root AVLTree.setRoot api.call) ⟨(AVLTree.new z : AVLTree K V M), fun _ => SENTINEL, j0⟩ ops = .ok (c, outs) ∧
      Trace (Step (treeRules K V) M) ⟨fun _ => FMap.empty, j0⟩ ops outs x ∧ c.cur = x.cur ∧
      (∀ j, Shows api (c.switch AVLTree.root AVLTree.setRoot j).state (x.maps j)) ∧ Shows api c.state (x.maps x.cur) ∧
      x.total ≤ M ∧ c.state.len = x.total ∧ c.state.isEmpty = decide (x.total = 0)) ∨
    (∃ pre k v post c outs x, ops = pre ++ .call (.insert k v) :: post ∧
      run (exec AVLTree.root AVLTree.setRoot api.call) ⟨(AVLTree.new z : AVLTree K V M), fun _ => SENTINEL, j0⟩ pre = .ok (c, outs) ∧
      Trace (Step (treeRules K V) M) ⟨fun _ => FMap.empty, j0⟩ pre outs x ∧ (x.maps x.cur).len = 0 ∧ x.total = M ∧
      run (exec AVLTree.root AVLTree.setRoot api.call) ⟨(AVLTree.new z : AVLTree K V M), fun _ => SENTINEL, j0⟩ ops = .error .bufferFull) := by
  have H := AVLTree.shared (K := K) (V := V) hM
  rcases run_fam H ops _ _ _ (Fam.start H rfl (AVLTree.shared_new hM z) j0) with ⟨c, os, x, Es, e, ht, hf⟩ |
    ⟨pre, k, v, post, c, os, x, Es, rfl, er, ht, hf, h0, h1, _, hr⟩
  · left
    have hs := Fam.size H hf
    have hsh : ∀ j, Shows api (c.switch AVLTree.root AVLTree.setRoot j).state (x.maps j) := fun j =>
      have _low : (snap c.state.allocator (foreign Es j)).Low := ⟨Fam.tags H hf j⟩
      AVLTree.Inv.shows hM (hf.rep j) (hf.lists j)
    refine ⟨c, os, x, e, ht, hf.cur, hsh, ?_, ?_, hs, ?_⟩
    · have := hsh x.cur
      rw [← hf.cur] at this ⊢
      simpa [Client.switch, Client.aside, AVLTree.setRoot] using this
    · obtain ⟨⟨free, hfr⟩, _⟩ := H.base (hf.rep c.cur)
      have h1 := hfr.live_le
      have h2 := (foreign_perm Es c.cur).length_eq
      rw [hf.total, ← h2]; exact h1
    · show decide (c.state.allocator.size = 0) = _
      rw [hs]
  · exact Or.inr ⟨pre, k, v, post, c, os, x, rfl, er, ht, h0, h1, hr⟩

/-- **C98**, AVL tree: a tree which was used and whose `root` is then set to the sentinel is empty to the eye, but the room
stays taken: it is a map of capacity `MAX_SIZE - len` (if there is any left; else `insert` panics). Nothing done to it
reaches the old entries: with the old root they are all back. -/
theorem C98_avl_forget (hM : M + 1 < 2 ^ 32) (z : AVLNode K V) (ops : List (MapSpec.Op K V)) {s : AVLTree K V M}
    {outs : List (MapSpec.Out K V)} (hrun : run api.call (AVLTree.new z) ops = .ok (s, outs)) :
    Shows api (s.setRoot SENTINEL) FMap.empty ∧ (s.setRoot SENTINEL).len = s.len ∧
    (s.len = M → ∀ k v, (s.setRoot SENTINEL).insert k v = .error .bufferFull) ∧
    ∃ m0, Shows api s m0 ∧ m0.len = s.len ∧ (s.len < M → ∀ ops', ∃ s' outs' m,
      run api.call (s.setRoot SENTINEL) ops' = .ok (s', outs') ∧
      Steps (treeRules K V (M - s.len)) FMap.empty ops' outs' m ∧ Shows api s' m ∧ s'.len = s.len + m.len ∧
      Shows api (s'.setRoot s.root) m0) := by
  have H := AVLTree.shared (K := K) (V := V) hM
  rcases run_one H (kn := .nothing) rfl (fun _ h => nomatch h) ops (AVLTree.new z) [] FMap.empty (AVLTree.Inv.new z) FMap.lists_empty with
    ⟨s1, os, E, m0, e, h, hm, _⟩ | ⟨_, _, _, _, _, _, _, _, _, _, _, _, _, _, _, e⟩
  swap
  · rw [hrun] at e; cases e
  rw [hrun] at e; cases e
  have hsz : s.len = E.length := h.base.size
  have h2 := H.forget (kn0 := .nothing) (kn1 := .nothing) (AVLTree.Inv.new z : AVLTree.Inv (kn := .nothing) (AVLTree.new z : AVLTree K V M) []) h rfl
  have hL : (snap s.allocator (E.map Prod.fst)).lost.length = s.len := by rw [hsz]; exact List.length_map ..
  have _low : (snap s.allocator (E.map Prod.fst)).Low := ⟨H.tag (kn := .nothing) h⟩
  have hm0 : m0.len = s.len := by rw [hm.len, hsz, List.length_map]
  refine ⟨AVLTree.Inv.shows hM h2 FMap.lists_empty, rfl, fun hl k v => ?_, m0,
    AVLTree.Inv.shows hM h hm, hm0, fun hl ops' => ?_⟩
  · exact AVLTree.Inv.insert_stuck hM (hL.trans hl) h2
  · rcases run_one H (kn := snap s.allocator (E.map Prod.fst)) rfl (H.tag (kn := .nothing) h) ops' _ [] FMap.empty h2 FMap.lists_empty with
      ⟨s', os', E', m, e', h', hm', hst⟩ | ⟨_, _, _, _, _, _, _, _, _, _, _, _, _, hc, _⟩
    · refine ⟨s', os', m, e', by rw [← hL]; exact hst, AVLTree.Inv.shows hM h' hm', ?_, ?_⟩
      · have := h'.base.sizeL
        rw [hL] at this
        rw [hm'.len, List.length_map, Nat.add_comm]; exact this
      · have hr := H.restore (kn1 := .nothing) h h'
        have _low' : (snap s'.allocator (E'.map Prod.fst)).Low := ⟨H.tag h'⟩
        exact AVLTree.Inv.shows hM hr hm
    · exact absurd (hL.symm.trans hc) (by omega)

end AVL

section Hash
variable {K V : Type} [DecidableEq K] {B M n : Nat} {hash : K → Nat}
open HashTableSpec (call)

/-- **C98**, hash table: a client which keeps `n` arrays of bucket heads and assigns `table.buckets` before it calls has `n`
maps in one table. Every call acts on the map in place alone, as on a table whose capacity is what the other maps leave,
and none panics; afterwards each of the maps shows what its own calls made of it. `len` and `is_empty` speak of all maps
together. -/
theorem C98_hash_several (hB : 0 < B) (hM : M + 1 < 2 ^ 32) (z : HashNode K V) (j0 : Fin n) (ops : List (Op n K V)) :
    ∃ c outs x, run (exec HashTable.buckets HashTable.setBuckets (call hash))
        ⟨(HashTable.new z : HashTable K V B M), fun _ => Vector.replicate B SENTINEL, j0⟩ ops = .ok (c, outs) ∧
      Trace (Step (hashRules K V) M) ⟨fun _ => FMap.empty, j0⟩ ops outs x ∧ c.cur = x.cur ∧
      (∀ j, HashShows hash (c.switch HashTable.buckets HashTable.setBuckets j).state (x.maps j)) ∧
      HashShows hash c.state (x.maps x.cur) ∧
      x.total ≤ M ∧ c.state.len = x.total ∧ c.state.isEmpty = decide (x.total = 0) := by
  have H := HashTable.shared (K := K) (V := V) (B := B) (hash := hash) hM
  rcases run_fam H ops _ _ _ (Fam.start H rfl (HashTable.shared_new hB hM z) j0) with ⟨c, os, x, Es, e, ht, hf⟩ |
    ⟨pre, k, v, post, c, os, x, Es, rfl, er, ht, hf, h0, h1, hc, hr⟩
  · have hs := Fam.size H hf
    have hsh : ∀ j, HashShows hash (c.switch HashTable.buckets HashTable.setBuckets j).state (x.maps j) := fun j =>
      HashTable.Rep.shows (hf.rep j) (hf.lists j)
    refine ⟨c, os, x, e, ht, hf.cur, hsh, ?_, ?_, hs, ?_⟩
    · have := hsh x.cur
      rw [← hf.cur] at this ⊢
      simpa [Client.switch, Client.aside, HashTable.setBuckets] using this
    · obtain ⟨⟨free, hfr⟩, _⟩ := H.base (hf.rep c.cur)
      have h1 := hfr.live_le
      have h2 := (foreign_perm Es c.cur).length_eq
      rw [hf.total, ← h2]; exact h1
    · show decide (c.state.allocator.size = 0) = _
      rw [hs]
  · exfalso
    have h2 := hf.rep c.cur
    have hv : c.view HashTable.buckets HashTable.setBuckets c.cur = c.state := by
      simp [Client.view, Client.aside, HashTable.setBuckets]
    rw [hv] at h2
    obtain ⟨_, _, _, _, e, _⟩ := HashTable.call_specL (snap c.state.allocator (foreign Es c.cur)) hM _ _ _ (.insert k v) h2 (hf.lists c.cur)
    rw [hc] at e; cases e

/-- **C98**, hash table: a table which was used and whose `buckets` are then all set to the sentinel is empty to the eye, but
the room stays taken: it is a map of capacity `MAX_SIZE - len`. Nothing done to it reaches the old entries: with the old
buckets they are all back. -/
theorem C98_hash_forget (hB : 0 < B) (hM : M + 1 < 2 ^ 32) (z : HashNode K V) (ops : List (MapSpec.Op K V)) {s : HashTable K V B M}
    {outs : List (MapSpec.Out K V)} (hrun : run (call hash) (HashTable.new z) ops = .ok (s, outs)) :
    ∃ m0, HashShows hash s m0 ∧ m0.len = s.len ∧ ∀ ops', ∃ s' outs' m,
      run (call hash) (s.setBuckets (Vector.replicate B SENTINEL)) ops' = .ok (s', outs') ∧
      Steps (hashRules K V (M - s.len)) FMap.empty ops' outs' m ∧ HashShows hash s' m ∧ s'.len = s.len + m.len ∧
      HashShows hash (s'.setBuckets s.buckets) m0 := by
  have H := HashTable.shared (K := K) (V := V) (B := B) (hash := hash) hM
  have hn : HashTable.Rep (kn := .nothing) hash (HashTable.new z : HashTable K V B M) [] := ⟨_, HashTable.new_HRep hB hash z, by simp⟩
  rcases run_one H (kn := .nothing) rfl (fun _ h => nomatch h) ops (HashTable.new z) [] FMap.empty hn FMap.lists_empty with
    ⟨s1, os, E, m0, e, h, hm, _⟩ | ⟨_, _, _, _, _, _, _, _, _, _, _, _, _, _, _, e⟩
  swap
  · rw [hrun] at e; cases e
  rw [hrun] at e; cases e
  have hsz : s.len = E.length := by obtain ⟨c, hc, rfl⟩ := h; exact hc.len
  have h2 := H.forget (kn0 := .nothing) (kn1 := .nothing) hn h rfl
  have hL : (snap s.allocator (E.map Prod.fst)).lost.length = s.len := by rw [hsz]; exact List.length_map ..
  have hm0 : m0.len = s.len := by rw [hm.len, hsz, List.length_map]
  refine ⟨m0, HashTable.Rep.shows h hm, hm0, fun ops' => ?_⟩
  rcases run_one H (kn := snap s.allocator (E.map Prod.fst)) rfl (fun _ _ => trivial) ops' _ [] FMap.empty h2 FMap.lists_empty with
    ⟨s', os', E', m, e', h', hm', hst⟩ | ⟨_, k, v, _, s', os', E', m', _, _, h', _, _, _, hc, _⟩
  · refine ⟨s', os', m, e', by rw [← hL]; exact hst, HashTable.Rep.shows h' hm', ?_, ?_⟩
    · obtain ⟨c, hc, hE⟩ := id h'
      have := hc.lenL
      rw [hL, ← hE] at this
      rw [hm'.len, List.length_map, Nat.add_comm]; exact this
    · exact HashTable.Rep.shows (H.restore (kn1 := .nothing) h h') hm
  · exfalso
    have hm2 : (FMap.ofList (E'.map Prod.snd)).Lists (E'.map Prod.snd) := by
      obtain ⟨c, hc', rfl⟩ := id h'
      exact FMap.lists_ofList hc'.keys_nodup
    obtain ⟨_, _, _, _, e, _⟩ := HashTable.call_specL (snap s.allocator (E.map Prod.fst)) hM _ _ _ (.insert k v) h' hm2
    rw [hc] at e; cases e

end Hash

/-! ### examples -/

/-- the results of a client, as numbers -/
def sharedText {S W : Type} {n : Nat} (r : R (Client n S W × List (Out Nat Nat))) : Option (List (List Nat)) :=
  let num : Option Nat → List Nat := fun o => (o.map fun v => [v]).getD []
  match r with
  | .error _ => none
  | .ok (_, os) => some (os.map fun
    | .did (.inserted b) => [b.toNat]
    | .did (.removed v) => num v
    | .did (.got v) => num v
    | .did (.seen es) => es.flatMap fun e => (e.map fun e => [e.1, e.2]).getD [0]
    | .switched => [])

/-- Two maps in a red-black tree of capacity 3: the key 1 is in both; the fourth entry is refused; the first map is as it was. -/
example : sharedText (run (exec (n := 2) RedBlackTree.root RedBlackTree.setRoot RedBlackSpec.api.call)
    ⟨(RedBlackTree.new ⟨0, 0⟩ : RedBlackTree Nat Nat 3), fun _ => SENTINEL, 0⟩
    [.call (.insert 1 10), .call (.insert 2 20), .switch 1, .call (.getMut 1 id), .call (.insert 1 11), .call (.insert 3 33),
      .call (.remove 2), .switch 0, .call (.getMut 1 id), .call (.remove 2), .switch 1, .call (.insert 3 33),
      .call (.iterMut [(.back, fun _ v => v), (.front, fun _ v => v), (.front, fun _ v => v)])]) =
    some [[1], [1], [], [], [1], [0], [], [], [10], [20], [], [1], [3, 33, 1, 11, 0]] := by decide +kernel

/-- The panic: two maps in a tree of capacity 1. -/
example : run (exec (n := 2) AVLTree.root AVLTree.setRoot AVLSpec.api.call)
    ⟨(AVLTree.new ⟨0, 0⟩ : AVLTree Nat Nat 1), fun _ => SENTINEL, 0⟩
    [.call (.insert 1 10), .switch 1, .call (.insert 2 20)] = .error .bufferFull := rfl

/-- Two maps in a hash table of two buckets and capacity 2. -/
example : sharedText (run (exec (n := 2) HashTable.buckets HashTable.setBuckets (HashTableSpec.call id))
    ⟨(HashTable.new ⟨0, 0⟩ : HashTable Nat Nat 2 2), fun _ => Vector.replicate 2 SENTINEL, 0⟩
    [.call (.insert 1 10), .switch 1, .call (.insert 3 30), .call (.insert 1 11), .switch 0, .call (.insert 1 12),
      .call (.remove 3), .call (.remove 1), .switch 1, .call (.remove 3)]) =
    some [[1], [], [1], [0], [], [1], [], [12], [], [30]] := by decide +kernel

/-- Forgetting two entries of a tree of capacity 3 leaves room for one; the old root brings them back. -/
example : (do
    let (s, _) ← run RedBlackSpec.api.call (RedBlackTree.new ⟨0, 0⟩ : RedBlackTree Nat Nat 3) [.insert 1 10, .insert 2 20]
    let (s', os) ← run RedBlackSpec.api.call (s.setRoot SENTINEL) [.insert 5 50, .insert 6 60]
    return (s'.len, s'.get 5, s'.get 1, (s'.setRoot s.root).get 1, (s'.setRoot s.root).get 5,
      os.map fun | .inserted b => b | _ => false) : R _) =
    .ok (3, .ok (some 50), .ok none, .ok (some 10), .ok none, [true, false]) := rfl

end Sokoban.Props
