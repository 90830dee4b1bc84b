import Verif.Proof.Poke
import Verif.Spec.Critbit

/-
Property theorems C72: what a client can and can not break by writing whole nodes, keys included, through the public
`get_node_mut`.

A history is a list of calls (`.op`) and of writes `*get_node_mut(i) = (k, v)` (`.put i k v`) to any slot of the
buffer, in use or not. `Trace (Poke.PStep ..) [] ops outs E` (Spec/Poke.lean) describes what every step does to the
sequence `E` of the entries (address, key, value). Nothing is assumed about the comparison of keys.
-/
namespace Sokoban.Props
open MapSpec
variable {K V : Type} {B M : Nat}

section rb
open RedBlackSpec RedBlackTree
variable [Ord K]

/-- C72 for the red-black tree: every such history completes without a panic and an endless loop. A call concerns
at most one entry, one whose key then compares equal to the given one; a write changes the entry in that slot, if there
is one, and nothing else. Afterwards the addresses are distinct slots, `get_node` and both ends of `iter` show
exactly the entries, lookups find an entry whose key compares equal or none, and the tree is still a red-black tree
in which every search ends within `2 log2 (n + 1)` steps. -/
theorem C72_rb_node_writes (hM0 : 0 < M) (hM : M + 1 < 2 ^ 32) (z : RBNode K V) (ops : List (Poke.POp (TOp K V) K V))
    (hr : Poke.InRange M ops) :
    ∃ (t : RedBlackTree K V M) (outs : List (Poke.POut (TOut K V))) (E : List (Nat × K × V)),
      run (Poke.call call fun t i k v => t.setNode i ⟨k, v⟩) (RedBlackTree.new z) ops = .ok (t, outs) ∧
      Trace (Poke.PStep (Poke.TStep (fun k k' => compare k k' = .eq) M)) [] ops outs E ∧
      t.len = E.length ∧ E.length ≤ M ∧ (E.map Prod.fst).Nodup ∧
      (∀ e ∈ E, 1 ≤ e.1 ∧ e.1 ≤ M ∧ t.getNode e.1 = .ok ⟨e.2.1, e.2.2⟩) ∧
      (∀ es, ∃ it', drive (Iter.next t) (Iter.nextBack t) t.iter es = .ok (it', consume (E.map Prod.snd) es)) ∧
      (∀ k, AnyOrder.Finds api (fun k k' => compare k k' = .eq) M t (E.map Prod.snd) k ∧
        ∃ i, t.getAddr k = .ok i ∧ (i = 0 ∨ ∃ k' v, (i, k', v) ∈ E ∧ compare k k' = .eq)) ∧
      t.isRed t.root = .ok false ∧
      (∀ p, ∃ i, walk t t.root p = .ok i ∧ (t.isRed i = .ok true →
        ∃ l r, t.getLeft i = .ok l ∧ t.getRight i = .ok r ∧ t.isRed l = .ok false ∧ t.isRed r = .ok false)) ∧
      (∃ n, ∀ p, ToNil t t.root p → blacks t t.root p = .ok n) ∧
      t.isValid = .ok true ∧
      (t.len ≠ 0 → ∀ k v fuel, 2 * (t.len + 1).log2 ≤ fuel →
        t.getAddrLoop k fuel t.root = t.getAddr k ∧ t.insertLoop k v fuel t.root = t.insert k v ∧
        t.removeLoop k fuel t.root = t.remove k) := by
  obtain ⟨t, os, E, e, h, hs⟩ := Poke.run (M := M) (Rep := Held) (RedBlackTree.call_at hM hM0)
    (fun s E i k v h h1 h2 => h.poke h1 h2 k v) ops (RedBlackTree.new z) [] (Held.new z) hr
  have hl : t.len = E.length := h.base.size
  obtain ⟨r1, r2, r3, r4⟩ := h.redBlack
  refine ⟨t, os, E, e, hs, hl, h.base.le, h.base.nodup, fun x hx => ?_, (loose hM hM0).drive h, fun k => ⟨(loose hM hM0).finds h k, ?_⟩,
    r1, r2, r3, r4, fun hne k v fuel hf => ?_⟩
  · have := h.base.range (List.mem_map_of_mem (f := Prod.fst) hx)
    exact ⟨this.1, this.2, NodeAllocator.getValue_ok _ (h.base.vals x hx)⟩
  · rcases h.find hM hM0 k with ⟨e0, _⟩ | ⟨L1, i, k', w, L2, hE, hk, e0, _⟩
    · exact ⟨0, e0, Or.inl rfl⟩
    · exact ⟨i, e0, Or.inr ⟨k', w, by rw [hE]; simp, hk⟩⟩
  · rw [hl] at hne hf
    exact h.depth hM (fun hc => hne (by rw [hc]; rfl)) k v hf

/-- C72: on every tree whatsoever, writing a value through `get_node_mut` to the node that `get_addr` finds is what
`insert` does with that key. -/
theorem C72_rb_value_write_is_insert (t : RedBlackTree K V M) {k : K} {i : Nat} {n : RBNode K V}
    (hi : t.getAddr k = .ok i) (hi0 : i ≠ SENTINEL) (hn : t.getNode i = .ok n) (v : V) :
    t.insert k v = (t.setNode i { n with value := v }).map fun t' => (t', some i) := by
  have aux : ∀ fuel node, t.getAddrLoop k fuel node = .ok i →
      t.insertLoop k v fuel node = (t.setNode i { n with value := v }).map fun t' => (t', some i) := by
    intro fuel
    induction fuel with
    | zero => intro node h; simp [RedBlackTree.getAddrLoop] at h
    | succ fuel ih =>
      intro node h
      simp only [RedBlackTree.getAddrLoop] at h
      simp only [RedBlackTree.insertLoop]
      cases hg : t.getNode node with
      | error p => rw [hg] at h; cases h
      | ok m =>
        rw [hg] at h
        simp only [except_bind_ok] at h ⊢
        cases hc : compare k m.key with
        | lt =>
          rw [hc] at h; simp only at h ⊢
          cases hl : t.getLeft node with
          | error p => rw [hl] at h; cases h
          | ok x =>
            rw [hl] at h; simp only [except_bind_ok] at h ⊢
            by_cases hx : x = SENTINEL
            · rw [if_pos hx] at h; cases h; exact absurd rfl hi0
            · rw [if_neg hx] at h ⊢; exact ih x h
        | gt =>
          rw [hc] at h; simp only at h ⊢
          cases hl : t.getRight node with
          | error p => rw [hl] at h; cases h
          | ok x =>
            rw [hl] at h; simp only [except_bind_ok] at h ⊢
            by_cases hx : x = SENTINEL
            · rw [if_pos hx] at h; cases h; exact absurd rfl hi0
            · rw [if_neg hx] at h ⊢; exact ih x h
        | eq =>
          rw [hc] at h; cases h
          simp only [RedBlackTree.setNodeValue, RedBlackTree.setNode]
          rw [show t.allocator.getValue i = .ok n from hn]
          simp only [except_bind_ok]
          cases t.allocator.setValue i { n with value := v } <;> rfl
  unfold RedBlackTree.getAddr at hi
  unfold RedBlackTree.insert
  by_cases hr : t.root = SENTINEL
  · rw [if_pos hr] at hi; cases hi; exact absurd rfl hi0
  · rw [if_neg hr] at hi ⊢; exact aux _ _ (RedBlackTree.getAddrLoop_mono k hi (by omega))

omit [Ord K] in
/-- C72: a write to an index that is no slot panics. -/
theorem C72_rb_node_write_out_of_range (t : RedBlackTree K V M) (i : Nat) (n : RBNode K V) (hi : i = 0 ∨ M < i) :
    t.setNode i n = .error .indexOutOfBounds := by
  unfold RedBlackTree.setNode NodeAllocator.setValue NodeAllocator.get
  rw [dif_neg (by omega)]; rfl

end rb

section avl
open AVLSpec AVLTree
variable [LT K] [DecidableLT K] [PartialGt K]

/-- C72 for the AVL tree, which stays height-balanced. -/
theorem C72_avl_node_writes (hM0 : 0 < M) (hM : M + 1 < 2 ^ 32) (z : AVLNode K V) (ops : List (Poke.POp (Op K V) K V))
    (hr : Poke.InRange M ops) :
    ∃ (t : AVLTree K V M) (outs : List (Poke.POut (Out K V))) (E : List (Nat × K × V)),
      run (Poke.call call fun t i k v => t.setNode i ⟨k, v⟩) (AVLTree.new z) ops = .ok (t, outs) ∧
      Trace (Poke.PStep (Poke.Step (fun k k' => ¬ k < k' ∧ ¬ PartialGt.gt k k') M)) [] ops outs E ∧
      t.len = E.length ∧ E.length ≤ M ∧ (E.map Prod.fst).Nodup ∧
      (∀ e ∈ E, 1 ≤ e.1 ∧ e.1 ≤ M ∧ t.getNode e.1 = .ok ⟨e.2.1, e.2.2⟩) ∧
      (∀ es, ∃ it', drive (Iter.next t) (Iter.nextBack t) t.iter es = .ok (it', consume (E.map Prod.snd) es)) ∧
      (∀ k, AnyOrder.Finds api (fun k k' => ¬ k < k' ∧ ¬ PartialGt.gt k k') M t (E.map Prod.snd) k ∧
        ∃ i, t.getAddr k = .ok i ∧ (i = 0 ∨ ∃ k' v, (i, k', v) ∈ E ∧ ¬ k < k' ∧ ¬ PartialGt.gt k k')) ∧
      (∀ p, ∃ i, walk t t.root p = .ok i ∧ (i ≠ SENTINEL →
        ∃ l r a b, t.getField i LEFT = .ok l ∧ t.getField i RIGHT = .ok r ∧ Levels t l a ∧ Levels t r b ∧
          a ≤ b + 1 ∧ b ≤ a + 1 ∧ t.getField i HEIGHT = .ok (max a b))) ∧
      (t.len ≠ 0 → ∀ k v fuel, 2 * (t.len + 1).log2 + 1 ≤ fuel →
        t.searchLoop k fuel t.root = t.getAddr k ∧
        t.insertLoop k v fuel t.root [(none, none, t.root)] = t.insert k v ∧
        (∃ i path, t.removePath k (fuel + 1) t.root [(none, none, t.root)] = .ok (i, path) ∧
          t.remove k = if i = SENTINEL then .ok (t, none) else t.removeNode i path)) := by
  obtain ⟨t, os, E, e, h, hs⟩ := Poke.run (M := M) (Rep := Held) (loose hM hM0).call_at
    (fun s E i k v h h1 h2 => h.poke h1 h2 k v) ops (AVLTree.new z) [] (Held.new z) hr
  have hl : t.len = E.length := h.base.size
  refine ⟨t, os, E, e, hs, hl, h.base.le, h.base.nodup, fun x hx => ?_, (loose hM hM0).drive h, fun k => ⟨(loose hM hM0).finds h k, ?_⟩,
    h.balanced, fun hne k v fuel hf => ?_⟩
  · have := h.base.range (List.mem_map_of_mem (f := Prod.fst) hx)
    exact ⟨this.1, this.2, NodeAllocator.getValue_ok _ (h.base.vals x hx)⟩
  · rcases h.find hM hM0 k with ⟨e0, _⟩ | ⟨L1, i, k', w, L2, hE, hk, e0, _⟩
    · exact ⟨0, e0, Or.inl rfl⟩
    · exact ⟨i, e0, Or.inr ⟨k', w, by rw [hE]; simp, hk⟩⟩
  · rw [hl] at hne hf
    exact h.depth hM (fun hc => hne (by rw [hc]; rfl)) k v (deep_of_log hf)

/-- C72 for the AVL tree: a value written through `get_node_mut` is an `insert`. -/
theorem C72_avl_value_write_is_insert (t : AVLTree K V M) {k : K} {i : Nat} {n : AVLNode K V}
    (hi : t.getAddr k = .ok i) (hi0 : i ≠ SENTINEL) (hn : t.getNode i = .ok n) (v : V) :
    t.insert k v = (t.setNode i { n with value := v }).map fun t' => (t', some i) := by
  have aux : ∀ fuel node path, t.searchLoop k fuel node = .ok i →
      t.insertLoop k v fuel node path = (t.setNode i { n with value := v }).map fun t' => (t', some i) := by
    intro fuel
    induction fuel with
    | zero => intro node path h; simp [AVLTree.searchLoop] at h
    | succ fuel ih =>
      intro node path h
      simp only [AVLTree.searchLoop] at h
      simp only [AVLTree.insertLoop]
      cases hg : t.getNode node with
      | error p => rw [hg] at h; cases h
      | ok m =>
        rw [hg] at h
        simp only [except_bind_ok] at h ⊢
        by_cases hc : k < m.key
        · rw [if_pos hc] at h ⊢
          cases hl : t.getField node AVLTree.LEFT with
          | error p => rw [hl] at h; cases h
          | ok x =>
            rw [hl] at h; simp only [except_bind_ok] at h ⊢
            by_cases hx : x = SENTINEL
            · rw [if_pos hx] at h; cases h; exact absurd rfl hi0
            · rw [if_neg hx] at h ⊢; exact ih x _ h
        · rw [if_neg hc] at h ⊢
          by_cases hc' : PartialGt.gt k m.key
          · rw [if_pos hc'] at h ⊢
            cases hl : t.getField node AVLTree.RIGHT with
            | error p => rw [hl] at h; cases h
            | ok x =>
              rw [hl] at h; simp only [except_bind_ok] at h ⊢
              by_cases hx : x = SENTINEL
              · rw [if_pos hx] at h; cases h; exact absurd rfl hi0
              · rw [if_neg hx] at h ⊢; exact ih x _ h
          · rw [if_neg hc'] at h ⊢; cases h
            simp only [AVLTree.setNodeValue, AVLTree.setNode]
            rw [show t.allocator.getValue i = .ok n from hn]
            simp only [except_bind_ok]
            cases t.allocator.setValue i { n with value := v } <;> rfl
  unfold AVLTree.getAddr at hi
  unfold AVLTree.insert
  by_cases hr : t.root = SENTINEL
  · rw [if_pos hr] at hi; cases hi; exact absurd rfl hi0
  · rw [if_neg hr] at hi ⊢; exact aux _ _ _ hi

omit [LT K] [DecidableLT K] [PartialGt K] in
/-- C72 for the AVL tree: a write to an index that is no slot panics. -/
theorem C72_avl_node_write_out_of_range (t : AVLTree K V M) (i : Nat) (n : AVLNode K V) (hi : i = 0 ∨ M < i) :
    t.setNode i n = .error .indexOutOfBounds := by
  unfold AVLTree.setNode NodeAllocator.setValue NodeAllocator.get
  rw [dif_neg (by omega)]; rfl

end avl

section hash
open HashTableSpec AnyEq
variable [BEq K]

/-- C72 for the hash table: whatever equality and hash of keys, every such history completes, and its results are
those of `AnyEq.step` on the rows, in which a write replaces the entry where it is. The entries stay in their slots.
Afterwards `len`, `iter`, `get_node` and all lookups agree with the rows. -/
theorem C72_hash_node_writes (hB : 0 < B) (hM : M + 1 < 2 ^ 32) (hash : K → Nat) (z : HashNode K V)
    (ops : List (Poke.POp (Op K V) K V)) (hr : Poke.InRange M ops) :
    ∃ (h : HashTable K V B M) (outs : List (Poke.POut (Out K V))) (T : List (List (Nat × K × V))) (it : HashTable.Iter),
      run (Poke.call (call hash) fun h i k v => h.setNode i ⟨k, v⟩) (HashTable.new z) ops = .ok (h, outs) ∧
      Trace (Poke.HPStep hash M) (List.replicate B []) ops outs T ∧
      T.length = B ∧ h.len = T.flatten.length ∧ h.len ≤ M ∧ (T.flatten.map Prod.fst).Nodup ∧
      (∀ e ∈ T.flatten, 1 ≤ e.1 ∧ e.1 ≤ M ∧ h.getNode e.1 = .ok ⟨e.2.1, e.2.2⟩) ∧
      h.iter = .ok it ∧
      (∀ es, ∃ it', drive (HashTable.Iter.next h) HashTable.Iter.nextBack it es =
        .ok (it', consumeFwd (T.flatten.map Prod.snd) es)) ∧
      ∀ k, h.get hash k = .ok ((found hash (Poke.bare T) k).map Prod.snd) ∧
        h.contains hash k = .ok (found hash (Poke.bare T) k).isSome ∧
        ∃ i, h.getAddr hash k = .ok i ∧
          match found hash (Poke.bare T) k with
          | none => i = 0
          | some e => 1 ≤ i ∧ i ≤ M ∧ h.getNode i = .ok ⟨e.1, e.2⟩ := by
  have hrep : (HashTable.rowsAt B fun _ => ([] : List (HashTable.Ent K V))) = List.replicate B [] := by
    rw [List.eq_replicate_iff]; simp
  obtain ⟨h, c, os, e, H, ht⟩ := HashTable.run_poke hM ops (HashTable.new z : HashTable K V B M) (fun _ => [])
    (HashTable.new_HHeld (st := True) hB hash z).loose hr
  rw [hrep] at ht
  obtain ⟨it, _, ei, _⟩ := HashTable.drive_iter H []
  refine ⟨h, os, HashTable.rowsAt B c, it, e, ht, by simp, ?_, by rw [H.len]; exact H.le, ?_, ?_, ei, fun es => ?_, fun k => ?_⟩
  · rw [HashTable.rowsAt_flatten]; exact H.len
  · rw [HashTable.rowsAt_flatten]; exact H.nodup_all
  · intro x hx
    rw [HashTable.rowsAt_flatten] at hx
    obtain ⟨b, hb, hx⟩ := HashTable.mem_all.1 hx
    have := H.range hb (List.mem_map_of_mem (f := Prod.fst) hx)
    exact ⟨this.1, this.2, NodeAllocator.getValue_ok _ (H.vals b hb x hx)⟩
  · obtain ⟨it1, it', e1, e2⟩ := HashTable.drive_iter H es
    rw [ei] at e1; cases e1
    exact ⟨it', by rw [HashTable.rowsAt_flatten]; exact e2⟩
  · obtain ⟨h1, _, h3⟩ := HashTable.lookup_held H k
    rw [HashTable.bare_rowsAt]
    refine ⟨h1, ?_, h3⟩
    unfold HashTable.contains
    rw [h1]
    simp

/-- C72 for the hash table: a value written through `get_node_mut` is an `insert`. -/
theorem C72_hash_value_write_is_insert (hash : K → Nat) (h : HashTable K V B M) {k : K} {i : Nat} {n : HashNode K V}
    (hi : h.getAddr hash k = .ok i) (hi0 : i ≠ SENTINEL) (hn : h.getNode i = .ok n) (v : V) :
    h.insert hash k v = (h.setNode i { n with value := v }).map fun h' => (h', some i) := by
  unfold HashTable.getAddr at hi
  unfold HashTable.insert
  cases hb : HashTable.bucketIndex B hash k with
  | error p => rw [hb] at hi; cases hi
  | ok b =>
    rw [hb] at hi; simp only [except_bind_ok] at hi ⊢
    cases hh : h.bucket b with
    | error p => rw [hh] at hi; cases hi
    | ok head =>
      rw [hh] at hi; simp only [except_bind_ok] at hi ⊢
      rw [hi]; simp only [except_bind_ok]
      rw [if_pos hi0]
      simp only [HashTable.setNodeValue, HashTable.setNode]
      rw [show h.allocator.getValue i = .ok n from hn]
      simp only [except_bind_ok]
      cases h.allocator.setValue i { n with value := v } <;> rfl

omit [BEq K] in
/-- C72 for the hash table: a write to an index that is no slot panics. -/
theorem C72_hash_node_write_out_of_range (h : HashTable K V B M) (i : Nat) (n : HashNode K V) (hi : i = 0 ∨ M < i) :
    h.setNode i n = .error .indexOutOfBounds := by
  unfold HashTable.setNode NodeAllocator.setValue NodeAllocator.get
  rw [dif_neg (by omega)]; rfl

end hash

/-! ### what is lost -/

/-- C72, the limit: after the key of the root is overwritten by `9` the tree is no longer sorted. `2` is stored, and
yielded by `iter`, but not found, and inserting it stores it a second time. -/
theorem C72_rb_key_write_breaks_the_map : ∃ (t t' : RedBlackTree Nat Nat 4) (outs : List _) (r : Option Nat) (it it' : RedBlackTree.Iter),
    run (Poke.call RedBlackSpec.call fun t i k v => t.setNode i ⟨k, v⟩) (RedBlackTree.new ⟨0, 0⟩)
      [.op (.map (.insert 1 10)), .op (.map (.insert 0 0)), .op (.map (.insert 2 20)), .put 1 9 90] = .ok (t, outs) ∧
    drive (RedBlackTree.Iter.next t) (RedBlackTree.Iter.nextBack t) t.iter [.front, .front, .front] =
      .ok (it, [some (0, 0), some (9, 90), some (2, 20)]) ∧
    t.get 9 = .ok (some 90) ∧ t.get 1 = .ok none ∧ t.get 2 = .ok none ∧
    t.insert 2 21 = .ok (t', r) ∧
    drive (RedBlackTree.Iter.next t') (RedBlackTree.Iter.nextBack t') t'.iter [.front, .front, .front, .front] =
      .ok (it', [some (0, 0), some (2, 21), some (9, 90), some (2, 20)]) :=
  ⟨_, _, _, _, _, _, rfl, rfl, rfl, rfl, rfl, rfl, rfl⟩

/-- C72, the same for the AVL tree. -/
theorem C72_avl_key_write_breaks_the_map : ∃ (t t' : AVLTree Nat Nat 4) (outs : List _) (r : Option Nat) (it it' : AVLTree.Iter),
    run (Poke.call AVLSpec.call fun t i k v => t.setNode i ⟨k, v⟩) (AVLTree.new ⟨0, 0⟩)
      [.op (.insert 1 10), .op (.insert 0 0), .op (.insert 2 20), .put 1 9 90] = .ok (t, outs) ∧
    drive (AVLTree.Iter.next t) (AVLTree.Iter.nextBack t) t.iter [.front, .front, .front] =
      .ok (it, [some (0, 0), some (9, 90), some (2, 20)]) ∧
    t.get 9 = .ok (some 90) ∧ t.get 1 = .ok none ∧ t.get 2 = .ok none ∧
    t.insert 2 21 = .ok (t', r) ∧
    drive (AVLTree.Iter.next t') (AVLTree.Iter.nextBack t') t'.iter [.front, .front, .front, .front] =
      .ok (it', [some (0, 0), some (2, 21), some (9, 90), some (2, 20)]) :=
  ⟨_, _, _, _, _, _, rfl, rfl, rfl, rfl, rfl, rfl, rfl⟩

/-- C72, the same for the hash table: an entry whose new key hashes to another bucket is stored but not found. -/
theorem C72_hash_key_write_breaks_the_map : ∃ (h : HashTable Nat Nat 2 3) (outs : List _) (it it' : HashTable.Iter),
    run (Poke.call (HashTableSpec.call fun k => k) fun h i k v => h.setNode i ⟨k, v⟩) (HashTable.new ⟨0, 0⟩)
      [.op (.insert 4 40), .put 1 5 50] = .ok (h, outs) ∧
    h.iter = .ok it ∧ drive (HashTable.Iter.next h) HashTable.Iter.nextBack it [.front, .front] =
      .ok (it', [some (5, 50), none]) ∧
    h.get (fun k => k) 5 = .ok none ∧ h.get (fun k => k) 4 = .ok none :=
  ⟨_, _, _, _, rfl, rfl, rfl, rfl, rfl⟩

set_option maxRecDepth 100000 in
/-- C72, the critbit tree: its nodes carry the position of the bit to test. Overwriting it with `128`, the value that
every leaf has, makes one key unreachable, the lookup of another overflow, and all removals overflow. -/
theorem C72_critbit_node_write_panics : ∃ (t t' : Critbit Nat 4 2) (outs : List _),
    run CritbitSpec.call (Critbit.new ⟨0, 0⟩ 0) [.insert 0 7, .insert 1 8] = .ok (t, outs) ∧
    t.get 1 = .ok (some 8) ∧ t.setNode t.root ⟨0, 128⟩ = .ok t' ∧ t'.get 1 = .ok none ∧
    t'.get 0 = .error .overflow ∧ t'.remove 1 = .error .overflow :=
  ⟨_, _, _, rfl, rfl, rfl, rfl, rfl, rfl⟩

/-- A history that meets the hypotheses: an entry is overwritten, then removed under its new key, and a free slot is
written to. -/
example : Poke.InRange 4 ([.op (.map (.insert 1 10)), .put 1 9 90, .op (.map (.remove 9)), .put 3 5 5,
      .op .removeRoot] : List (Poke.POp (RedBlackSpec.TOp Nat Nat) Nat Nat)) ∧
    ∃ t : RedBlackTree Nat Nat 4, run (Poke.call RedBlackSpec.call fun t i k v => t.setNode i ⟨k, v⟩) (RedBlackTree.new ⟨0, 0⟩)
      [.op (.map (.insert 1 10)), .put 1 9 90, .op (.map (.remove 9)), .put 3 5 5, .op .removeRoot] =
      .ok (t, [.op (.map (.inserted true)), .put, .op (.map (.removed (some 90))), .put, .op (.root none)]) := by
  refine ⟨fun i k v h => ?_, _, rfl⟩
  simp only [List.mem_cons, List.not_mem_nil, or_false, reduceCtorEq, false_or, Poke.POp.put.injEq] at h
  omega

end Sokoban.Props
