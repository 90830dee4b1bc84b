import Verif.Proof.Undo
import Verif.Proof.UndoCritbit
import Verif.Proof.UndoMap
import Verif.Proof.AVLLaws
import Verif.Proof.RBLaws
import Verif.Props.Keep

/-
C93: a call and its opposite. Inserting a new key and removing it again, pushing and popping at the same end, popping
and pushing back the value.
-/
namespace Sokoban.Props
open Sokoban MapSpec NodeAllocator
variable {K V : Type} {B M : Nat}

/-- **C93**, hash table. After every history, inserting a new key and removing it again leaves the buckets, the length,
the head of the free list, all links and all nodes as they were, except for the node that the key had; that node is the
head of the free list, before and after. -/
theorem C93_hash_insert_remove [DecidableEq K] (hB : 0 < B) (hM : M + 1 < 2 ^ 32) (hash : K → Nat) (z : HashNode K V)
    (ops : List (Op K V)) :
    ∃ t outs, run (HashTableSpec.call hash) (HashTable.new z : HashTable K V B M) ops = .ok (t, outs) ∧
      ∀ k v t1 i, t.get hash k = .ok none → t.insert hash k v = .ok (t1, some i) →
        ∃ t2, t1.remove hash k = .ok (t2, some v) ∧ t2.buckets = t.buckets ∧ t2.len = t.len ∧
          t2.allocator.freeListHead = t.allocator.freeListHead ∧ t.allocator.freeListHead = i ∧
          ∀ j, j ≠ i → t2.getNext j = t.getNext j ∧ t2.getPrev j = t.getPrev j ∧ t2.getNode j = t.getNode j := by
  obtain ⟨t, outs, c, m, e, H, hm, _⟩ := HashTable.run_new (B := B) hB hM hash z ops
  refine ⟨t, outs, e, fun k v t1 i hk e1 => ?_⟩
  have ha : ∀ e ∈ HashTable.all B c, e.2.1 ≠ k := by
    rcases HashTable.lookup_spec H hm k with ⟨h1, _⟩ | ⟨i, w, _, _, _, _, _, _, h2, _⟩
    · rintro x hx rfl
      have := (hm.mem x.2.1 x.2.2).1 (List.mem_map.2 ⟨x, hx, rfl⟩)
      rw [h1] at this; cases this
    · rw [hk] at h2; cases h2
  obtain ⟨t2, e2, H2, h1, h2, h3⟩ := HashTable.insert_remove H hM ha e1
  refine ⟨t2, e2, H.same_buckets H2, by rw [H.len, H2.len], h1, h2, fun j hj => ⟨(h3 j hj).1, (h3 j hj).2, ?_⟩⟩
  rw [(C70_hash_writes hash t1 t2).1 _ _ e2 j]
  exact ((C70_hash_writes hash t t1).2.2 _ _ _ e1).1 j fun h => hj (by cases h; rfl)

/-- **C93**, hash table. After every history, removing the first key of a chain and inserting it again with its value
restores the state: buckets, length, head of the free list, all links and all nodes. -/
theorem C93_hash_remove_insert [DecidableEq K] (hB : 0 < B) (hM : M + 1 < 2 ^ 32) (hash : K → Nat) (z : HashNode K V)
    (ops : List (Op K V)) :
    ∃ t outs, run (HashTableSpec.call hash) (HashTable.new z : HashTable K V B M) ops = .ok (t, outs) ∧
      ∀ k v i, t.get hash k = .ok (some v) → t.getAddr hash k = .ok i → t.getPrev i = .ok SENTINEL →
        ∃ t1 t2, t.remove hash k = .ok (t1, some v) ∧ t1.insert hash k v = .ok (t2, some i) ∧ t2.buckets = t.buckets ∧
          t2.len = t.len ∧ t2.allocator.freeListHead = t.allocator.freeListHead ∧
          ∀ j, t2.getNext j = t.getNext j ∧ t2.getPrev j = t.getPrev j ∧ t2.getNode j = t.getNode j := by
  obtain ⟨t, outs, c, m, e, H, hm, _⟩ := HashTable.run_new (B := B) hB hM hash z ops
  refine ⟨t, outs, e, fun k v i hk hi hp => ?_⟩
  rcases HashTable.lookup_spec H hm k with ⟨_, _, h2, _⟩ | ⟨i', v', _, hmem, h1, hi1, hiM, hnode, h2, _⟩
  · rw [hk] at h2; cases h2
  rw [hk] at h2; cases h2
  rw [hi] at h1; cases h1
  have hb : hash k % B < B := Nat.mod_lt _ hB
  obtain ⟨b, hb', hmem⟩ := HashTable.mem_all.1 hmem
  obtain rfl : hash k % B = b := H.home trivial b hb' _ hmem
  obtain ⟨l1, l2, hc⟩ := List.append_of_mem hmem
  have hl1 : l1 = [] := by
    rcases List.eq_nil_or_concat l1 with h | ⟨l0, x, rfl⟩
    · exact h
    · have hs := H.seg _ hb
      rw [hc, List.concat_eq_append, HashTable.ids, List.map_append, List.map_append, DSeg.append_iff] at hs
      have h0 : t.allocator.reg i 0 = x.1 := by
        have h3 := hs.2.1
        simpa using h3
      have hx := H.range hb (i := x.1) (by rw [hc]; simp)
      unfold HashTable.getPrev at hp
      rw [getRegister_ok _ hiM (by decide)] at hp
      simp only [HashTable.LEFT, SENTINEL, h0, Except.ok.injEq] at hp
      omega
  subst hl1
  obtain ⟨t1, t2, e1, e2, H2, h1, h3⟩ := HashTable.remove_insert H hM hc
  refine ⟨t1, t2, e1, e2, H.same_buckets H2, by rw [H.len, H2.len], h1, fun j => ⟨(h3 j).1, (h3 j).2, ?_⟩⟩
  by_cases hj : j = i
  · subst hj
    exact getValue_eq ((H2.vals _ hb _ hmem).trans (H.vals _ hb _ hmem).symm)
  · rw [((C70_hash_writes hash t1 t2).2.2 _ _ _ e2).1 j fun h => hj (by cases h; rfl)]
    exact (C70_hash_writes hash t t1).1 _ _ e1 j

section Deque
variable {T : Type}

/-- what a call of `pop_back` / `pop_front` after `push_back` / `push_front` gives back, except for the slot `i` -/
structure Back (d d2 : Deque T M) (i : Option Nat) : Prop where
  head : d2.head = d.head
  tail : d2.tail = d.tail
  len : d2.len = d.len
  free : d2.allocator.freeListHead = d.allocator.freeListHead
  seq : d2.sequenceNumber = d.sequenceNumber + 2
  rest : ∀ j, some j ≠ i → d2.getNext j = d.getNext j ∧ d2.getPrev j = d.getPrev j ∧ d2.getNode j = d.getNode j

/-- **C93**, deque. After every history, `push_back` and `pop_back` give back the value and the deque: both ends, the
length, the head of the free list, all links and all values, except for those of the slot used, which is the head of the
free list. The sequence number has grown by two. -/
theorem C93_deque_push_back_pop_back (hM : M + 1 < 2 ^ 32) (z : T) (ops : List (DequeSpec.Op T)) (hs : ops.length + 2 < 2 ^ 64)
    (d d1 : Deque T M) (outs : List (DequeSpec.Out T)) (e : run DequeSpec.call (Deque.new z : Deque T M) ops = .ok (d, outs))
    (v : T) (e1 : d.pushBack v = .ok d1) :
    ∃ d2, d1.popBack = .ok (d2, some v) ∧ d1.tail = d.allocator.freeListHead ∧ Back d d2 (some d1.tail) := by
  obtain ⟨l, h, _, hq⟩ := Deque.run_new hM z (by omega) e
  have := Deque.mutations_le ops outs
  obtain ⟨d2, e2, S, h1, h2, h3⟩ := Deque.pushBack_popBack h hM (by omega) e1
  refine ⟨d2, e2, h1, S.head, S.tail, S.len, S.free, h2, fun j hj => ?_⟩
  rw [h1] at hj
  exact ⟨(S.links j hj).1, (S.links j hj).2, h3 j fun h => hj (by rw [h])⟩

/-- **C93**, deque, front end. -/
theorem C93_deque_push_front_pop_front (hM : M + 1 < 2 ^ 32) (z : T) (ops : List (DequeSpec.Op T)) (hs : ops.length + 2 < 2 ^ 64)
    (d d1 : Deque T M) (outs : List (DequeSpec.Out T)) (e : run DequeSpec.call (Deque.new z : Deque T M) ops = .ok (d, outs))
    (v : T) (e1 : d.pushFront v = .ok d1) :
    ∃ d2, d1.popFront = .ok (d2, some v) ∧ d1.head = d.allocator.freeListHead ∧ Back d d2 (some d1.head) := by
  obtain ⟨l, h, _, hq⟩ := Deque.run_new hM z (by omega) e
  have := Deque.mutations_le ops outs
  obtain ⟨d2, e2, S, h1, h2, h3⟩ := Deque.pushFront_popFront h hM (by omega) e1
  refine ⟨d2, e2, h1, S.head, S.tail, S.len, S.free, h2, fun j hj => ?_⟩
  rw [h1] at hj
  exact ⟨(S.links j hj).1, (S.links j hj).2, h3 j fun h => hj (by rw [h])⟩

/-- **C93**, deque. After every history, `pop_back` and pushing the value back restores the deque, no slot excepted. -/
theorem C93_deque_pop_back_push_back (hM : M + 1 < 2 ^ 32) (z : T) (ops : List (DequeSpec.Op T)) (hs : ops.length + 2 < 2 ^ 64)
    (d d1 : Deque T M) (outs : List (DequeSpec.Out T)) (e : run DequeSpec.call (Deque.new z : Deque T M) ops = .ok (d, outs))
    (v : T) (e1 : d.popBack = .ok (d1, some v)) :
    ∃ d2, d1.pushBack v = .ok d2 ∧ Back d d2 none := by
  obtain ⟨l, h, _, hq⟩ := Deque.run_new hM z (by omega) e
  have := Deque.mutations_le ops outs
  obtain ⟨d2, e2, S, h2, h3⟩ := Deque.popBack_pushBack h hM (by omega) e1
  exact ⟨d2, e2, S.head, S.tail, S.len, S.free, h2, fun j hj => ⟨(S.links j hj).1, (S.links j hj).2, h3 j⟩⟩

/-- **C93**, deque, front end. -/
theorem C93_deque_pop_front_push_front (hM : M + 1 < 2 ^ 32) (z : T) (ops : List (DequeSpec.Op T)) (hs : ops.length + 2 < 2 ^ 64)
    (d d1 : Deque T M) (outs : List (DequeSpec.Out T)) (e : run DequeSpec.call (Deque.new z : Deque T M) ops = .ok (d, outs))
    (v : T) (e1 : d.popFront = .ok (d1, some v)) :
    ∃ d2, d1.pushFront v = .ok d2 ∧ Back d d2 none := by
  obtain ⟨l, h, _, hq⟩ := Deque.run_new hM z (by omega) e
  have := Deque.mutations_le ops outs
  obtain ⟨d2, e2, S, h2, h3⟩ := Deque.popFront_pushFront h hM (by omega) e1
  exact ⟨d2, e2, S.head, S.tail, S.len, S.free, h2, fun j hj => ⟨(S.links j hj).1, (S.links j hj).2, h3 j⟩⟩
end Deque

/-- **C93**, crit-bit tree with enough nodes. After every history, inserting a new key and removing it again gives back
the tree node by node: the root, the length, and for every path from the root the node reached, its contents, its parent,
its children, whether it is a leaf, the slot of the value and the value. -/
theorem C93_critbit_insert_remove {N : Nat} (hN : N + 1 < 2 ^ 32) (hNM : 2 * M ≤ N) (hM0 : 0 < M) (z : CritbitNode) (w : V)
    (ops : List (Op (BitVec 128) V)) :
    ∃ t outs, run CritbitSpec.call (Critbit.new z w : Critbit V N M) ops = .ok (t, outs) ∧
      ∀ k v t1 n, t.get k = .ok none → t.insert k v = .ok (t1, some n) →
        ∃ t2, t1.remove k = .ok (t2, some v) ∧ t2.root = t.root ∧ t2.len = t.len ∧ ∀ path, ∃ i,
          CritbitSpec.walk t t.root path = .ok i ∧ CritbitSpec.walk t2 t2.root path = .ok i ∧
          (i = SENTINEL ∨ t2.getNode i = t.getNode i ∧ t2.getParent i = t.getParent i ∧
            t2.isInnerNode i = t.isInnerNode i ∧ t2.getLeft i = t.getLeft i ∧ t2.getRight i = t.getRight i ∧
            t2.getLeafIndex i = t.getLeafIndex i ∧
            ∀ j, t.isInnerNode i = .ok false → t.getLeafIndex i = .ok j → t2.getLeaf j = t.getLeaf j) := by
  obtain ⟨t, outs, E, m, e, h, _, _⟩ := Critbit.run_new hN hNM hM0 z w ops
  refine ⟨t, outs, e, fun k v t1 n hk e1 => ?_⟩
  have ha : Ents.Absent E k := by
    rintro ⟨j, k', u⟩ hx rfl
    have := h.get_some hx
    rw [hk] at this; cases this
  obtain ⟨t2, e2, h2, hr, hw⟩ := h.insert_remove hN hNM hM0 ha e1
  refine ⟨t2, e2, hr, by rw [h.len, h2.len], ?_⟩
  rw [hr]
  exact hw

/-- **C93**, red-black tree. After every history, inserting a new key and removing it again gives back all entries with
their addresses; iteration yields the same from both ends. -/
theorem C93_rb_insert_remove [LinearOrder K] (hM : M + 1 < 2 ^ 32) (hM0 : 0 < M) (z : RBNode K V) (ops : List (RedBlackSpec.TOp K V)) :
    ∃ t outs, run RedBlackSpec.call (RedBlackTree.new z : RedBlackTree K V M) ops = .ok (t, outs) ∧
      ∀ k v t1 i, t.get k = .ok none → t.insert k v = .ok (t1, some i) →
        ∃ t2, t1.remove k = .ok (t2, some v) ∧ t2.len = t.len ∧ (∀ k', t2.getAddr k' = t.getAddr k' ∧ t2.get k' = t.get k') ∧
          ∀ es, ∃ it it2 xs, drive (RedBlackTree.Iter.next t) (RedBlackTree.Iter.nextBack t) t.iter es = .ok (it, xs) ∧
            drive (RedBlackTree.Iter.next t2) (RedBlackTree.Iter.nextBack t2) t2.iter es = .ok (it2, xs) := by
  obtain ⟨t, outs, E, m, e, h, _, _⟩ := RedBlackTree.run_new hM hM0 z ops
  refine ⟨t, outs, e, fun k v t1 n hk e1 => ?_⟩
  have L := RedBlackTree.laws (K := K) (V := V) hM hM0
  have ha : Ents.Absent E k := by
    rintro ⟨j, k', u⟩ hx rfl
    have := L.get_some h hx
    rw [show RedBlackTree.get t k' = _ from this] at hk; cases hk
  obtain ⟨t2, e2, h2⟩ := L.insert_remove h ha e1
  refine ⟨t2, e2, (L.len h2).trans (L.len h).symm, fun k' => ?_, fun es => ?_⟩
  · rcases h.getAddr k' with ⟨a, e3⟩ | ⟨i, u, hi, e3⟩
    · exact ⟨(h2.getAddr_none a).trans e3.symm, (L.get_none h2 a).trans (L.get_none h a).symm⟩
    · exact ⟨(h2.getAddr_some hi).trans e3.symm, (L.get_some h2 hi).trans (L.get_some h hi).symm⟩
  · obtain ⟨it, h3⟩ := L.drive h es
    obtain ⟨it2, h4⟩ := L.drive h2 es
    exact ⟨it, it2, _, h3, h4⟩

/-- **C93**, AVL tree. -/
theorem C93_avl_insert_remove [LinearOrder K] (hM : M + 1 < 2 ^ 32) (hM0 : 0 < M) (z : AVLNode K V) (ops : List (Op K V)) :
    ∃ t outs, run AVLSpec.call (AVLTree.new z : AVLTree K V M) ops = .ok (t, outs) ∧
      ∀ k v t1 i, t.get k = .ok none → t.insert k v = .ok (t1, some i) →
        ∃ t2, t1.remove k = .ok (t2, some v) ∧ t2.len = t.len ∧ (∀ k', t2.getAddr k' = t.getAddr k' ∧ t2.get k' = t.get k') ∧
          ∀ es, ∃ it it2 xs, drive (AVLTree.Iter.next t) (AVLTree.Iter.nextBack t) t.iter es = .ok (it, xs) ∧
            drive (AVLTree.Iter.next t2) (AVLTree.Iter.nextBack t2) t2.iter es = .ok (it2, xs) := by
  obtain ⟨t, outs, E, m, e, h, _, _⟩ := AVLTree.run_new hM hM0 z ops
  refine ⟨t, outs, e, fun k v t1 n hk e1 => ?_⟩
  have L := AVLTree.laws (K := K) (V := V) hM hM0
  have ha : Ents.Absent E k := by
    rintro ⟨j, k', u⟩ hx rfl
    have := L.get_some h hx
    rw [show AVLTree.get t k' = _ from this] at hk; cases hk
  obtain ⟨t2, e2, h2⟩ := L.insert_remove h ha e1
  refine ⟨t2, e2, (L.len h2).trans (L.len h).symm, fun k' => ?_, fun es => ?_⟩
  · rcases h.getAddr k' with ⟨a, e3⟩ | ⟨i, u, hi, e3⟩
    · exact ⟨(h2.getAddr_none a).trans e3.symm, (L.get_none h2 a).trans (L.get_none h a).symm⟩
    · exact ⟨(h2.getAddr_some hi).trans e3.symm, (L.get_some h2 hi).trans (L.get_some h hi).symm⟩
  · obtain ⟨it, h3⟩ := L.drive h es
    obtain ⟨it2, h4⟩ := L.drive h2 es
    exact ⟨it, it2, _, h3, h4⟩

/-! Cases -/

/-- **C93**: in the two balanced trees the shape is not given back. With the keys 1 and 2, inserting and removing 3 moves
the root from the node of 1 to the node of 2. -/
theorem C93_shape_changes :
    (∃ (t t1 t2 : RedBlackTree Nat Nat 4) (outs : List (RedBlackSpec.TOut Nat Nat)),
      run RedBlackSpec.call (RedBlackTree.new ⟨0, 0⟩) [.map (.insert 1 10), .map (.insert 2 20)] = .ok (t, outs) ∧
      t.insert 3 30 = .ok (t1, some 3) ∧ t1.remove 3 = .ok (t2, some 30) ∧ t.root = 1 ∧ t2.root = 2) ∧
    (∃ (t t1 t2 : AVLTree Nat Nat 4) (outs : List (Out Nat Nat)),
      run AVLSpec.call (AVLTree.new ⟨0, 0⟩) [.insert 1 10, .insert 2 20] = .ok (t, outs) ∧
      t.insert 3 30 = .ok (t1, some 3) ∧ t1.remove 3 = .ok (t2, some 30) ∧ t.root = 1 ∧ t2.root = 2) :=
  ⟨⟨_, _, _, _, rfl, rfl, rfl, rfl, rfl⟩, ⟨_, _, _, _, rfl, rfl, rfl, rfl, rfl⟩⟩

/-- `C93_hash_insert_remove`: all keys in one bucket, the new key gets node 1, which was given back before. -/
example : ∃ (t t1 t2 : HashTable Nat Nat 2 4) (outs : List (Out Nat Nat)),
    run (HashTableSpec.call (fun _ => 0)) (HashTable.new ⟨0, 0⟩) [.insert 1 10, .insert 2 20, .insert 3 30, .remove 1] = .ok (t, outs) ∧
    t.get (fun _ => 0) 9 = .ok none ∧ t.insert (fun _ => 0) 9 90 = .ok (t1, some 1) ∧
    t1.remove (fun _ => 0) 9 = .ok (t2, some 90) ∧ t2.getNext 3 = .ok 2 ∧ t1.getPrev 3 = .ok 1 ∧ t2.getPrev 3 = .ok 0 :=
  ⟨_, _, _, _, rfl, rfl, rfl, rfl, rfl, rfl, rfl⟩

/-- the exception in `C93_hash_insert_remove` is needed: after the first insertion the links of node 1 are those of the
free list -/
example : ∃ (t t1 t2 : HashTable Nat Nat 2 4),
    t = HashTable.new ⟨0, 0⟩ ∧ t.insert (fun _ => 0) 9 90 = .ok (t1, some 1) ∧ t1.remove (fun _ => 0) 9 = .ok (t2, some 90) ∧
    t.getPrev 1 = .ok 0 ∧ t2.getPrev 1 = .ok 2 ∧ t2.getNode 1 = .ok ⟨9, 90⟩ :=
  ⟨_, _, _, rfl, rfl, rfl, rfl, rfl, rfl⟩

/-- `C93_hash_remove_insert`: key 3 is first in its chain. -/
example : ∃ (t t1 t2 : HashTable Nat Nat 2 4) (outs : List (Out Nat Nat)),
    run (HashTableSpec.call (fun _ => 0)) (HashTable.new ⟨0, 0⟩) [.insert 1 10, .insert 2 20, .insert 3 30] = .ok (t, outs) ∧
    t.get (fun _ => 0) 3 = .ok (some 30) ∧ t.getAddr (fun _ => 0) 3 = .ok 3 ∧ t.getPrev 3 = .ok SENTINEL ∧
    t.remove (fun _ => 0) 3 = .ok (t1, some 30) ∧ t1.insert (fun _ => 0) 3 30 = .ok (t2, some 3) ∧ t2.getNext 3 = .ok 2 :=
  ⟨_, _, _, _, rfl, rfl, rfl, rfl, rfl, rfl, rfl⟩

/-- a key that is not the first of its chain moves to the front: the order of iteration changes -/
example : ∃ (t t1 t2 : HashTable Nat Nat 2 4) (outs : List (Out Nat Nat)),
    run (HashTableSpec.call (fun _ => 0)) (HashTable.new ⟨0, 0⟩) [.insert 1 10, .insert 2 20, .insert 3 30] = .ok (t, outs) ∧
    t.getPrev 2 = .ok 3 ∧ t.remove (fun _ => 0) 2 = .ok (t1, some 20) ∧ t1.insert (fun _ => 0) 2 20 = .ok (t2, some 2) ∧
    t2.getPrev 2 = .ok 0 ∧ t2.getPrev 3 = .ok 2 :=
  ⟨_, _, _, _, rfl, rfl, rfl, rfl, rfl, rfl⟩

/-- the four deque theorems -/
example : ∃ (d d1 d2 e1 e2 f1 f2 g1 g2 : Deque Nat 4) (outs : List (DequeSpec.Out Nat)),
    run DequeSpec.call (Deque.new 0) [.pushBack 7, .pushBack 8, .pushFront 6, .popBack] = .ok (d, outs) ∧
    d.pushBack 5 = .ok d1 ∧ d1.popBack = .ok (d2, some 5) ∧ d1.tail = 2 ∧ d2.tail = 1 ∧
    d.pushFront 5 = .ok e1 ∧ e1.popFront = .ok (e2, some 5) ∧ e2.head = 3 ∧
    d.popBack = .ok (f1, some 7) ∧ f1.pushBack 7 = .ok f2 ∧ f1.tail = 3 ∧ f2.tail = 1 ∧
    d.popFront = .ok (g1, some 6) ∧ g1.pushFront 6 = .ok g2 ∧ g1.head = 1 ∧ g2.head = 3 ∧ g2.sequenceNumber = 6 :=
  ⟨_, _, _, _, _, _, _, _, _, _, rfl, rfl, rfl, rfl, rfl, rfl, rfl, rfl, rfl, rfl, rfl, rfl, rfl, rfl, rfl, rfl, rfl⟩

set_option maxRecDepth 4000 in
/-- `C93_critbit_insert_remove`: the insertion of key 7 puts an inner node between the root and the leaf of key 5, and
the leaf moves to another node; the removal puts it back. -/
example : ∃ (t t1 t2 : Critbit Nat 8 4) (outs : List (Out (BitVec 128) Nat)),
    run CritbitSpec.call (Critbit.new ⟨0, 0⟩ 0) [.insert 5 50, .insert (1 <<< 127) 90] = .ok (t, outs) ∧
    t.get 7 = .ok none ∧ t.insert 7 70 = .ok (t1, some 4) ∧ t1.remove 7 = .ok (t2, some 70) ∧
    CritbitSpec.walk t t.root [false] = .ok 3 ∧ t.isInnerNode 3 = .ok false ∧ t1.isInnerNode 3 = .ok true ∧
    t2.isInnerNode 3 = .ok false ∧ CritbitSpec.walk t1 t1.root [false, false] = .ok 5 :=
  ⟨_, _, _, _, rfl, rfl, rfl, rfl, rfl, rfl, rfl, rfl, rfl⟩

end Sokoban.Props
