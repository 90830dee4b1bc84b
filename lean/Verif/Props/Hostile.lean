import Verif.Proof.Hostile
import Verif.Props.Bytes

/-
Property theorems C64: what `iter_mut` does with bytes that no history of calls has produced.

The `unsafe` blocks of the crate are the bodies of the mutable iterators: they make a reference out of an
index without a check (deque.rs:262-270, 291-299, hash_table.rs:475-479, red_black_tree.rs:894-903,
932-941, avl_tree.rs:772-781, 810-819, critbit.rs:707-719, 751-763), and the indices come out of the buffer.
The statements are conditional on the model run not ending in a panic or in an endless loop; the fuel of the
model's loops is enough for every walk that ends at all (C77).
`AVLTree` keeps its root as a `u64` and reads it as `root as u32`: the tree of the statements is the one with
the truncated root.
-/
namespace Sokoban.Props
open Bytes

variable {T K V : Type}

/-- C64, deque: in any memory at all, `iter_mut` makes references to slots in bounds only. -/
theorem C64_deque_iter_mut_in_bounds {M : Nat} (d : Deque T M) (es : List End) {it : Deque.Iter} {outs : List (Option Nat)}
    (h : drive (Deque.Iter.nextMut d) (Deque.Iter.nextBackMut d) d.iter es = .ok (it, outs)) :
    ∀ p, some p ∈ outs → 1 ≤ p ∧ p ≤ M :=
  drive_all (I := fun _ => True) (P := fun p => 1 ≤ p ∧ p ≤ M) (fun _ _ _ _ h => ⟨trivial, Deque.nextMut_range h⟩)
    (fun _ _ _ _ h => ⟨trivial, Deque.nextBackMut_range h⟩) es _ _ _ trivial h

/-- C64, deque: but nothing keeps it from making two references to one slot. Every buffer that fits can hold
bytes that load as a deque whose `iter_mut` returns slot 1 and then slot 1 again. -/
theorem C64_deque_iter_mut_aliases {A : Rep T} (hA : A.Element) {M : Nat} (hM : 1 ≤ M) (s : Slice) (hs : s.Fits (deque A M)) :
    ∃ mem d it1 it2, load (deque A M) { s with mem := mem } = .ok (some d) ∧
      Deque.Iter.nextMut d d.iter = .ok (it1, some 1) ∧ Deque.Iter.nextMut d it1 = .ok (it2, some 1) :=
  ⟨_, Deque.loop (A.read s.mem), _, _,
    load_store (lawful_deque hA.1 M) hs (valid_deque hA _ (Deque.loop_inRange _)),
    Deque.loop_next _ hM, Deque.loop_next _ hM⟩

/-- C64, hash table: in bounds in any memory. -/
theorem C64_hash_iter_mut_in_bounds {B M : Nat} (t : HashTable K V B M) (es : List End) {it0 it : HashTable.Iter} {outs : List (Option Nat)}
    (_h0 : t.iter = .ok it0)
    (h : drive (HashTable.Iter.nextMut t) (HashTable.Iter.nextBackMut t) it0 es = .ok (it, outs)) :
    ∀ p, some p ∈ outs → 1 ≤ p ∧ p ≤ M :=
  drive_all (I := fun _ => True) (P := fun p => 1 ≤ p ∧ p ≤ M) (fun _ _ _ _ h => ⟨trivial, HashTable.nextMut_range h⟩)
    (fun _ _ _ _ h => ⟨trivial, fun _ ha => by subst ha; cases h⟩) es _ _ _ trivial h

/-- C64, hash table: bytes whose `iter_mut` returns slot 1 twice. -/
theorem C64_hash_iter_mut_aliases {A : Rep K} {C : Rep V} (hA : A.Element) (hC : C.Element) {B M : Nat} (hB : 0 < B) (hM : 1 ≤ M)
    (s : Slice) (hs : s.Fits (hashTable A C B M)) :
    ∃ mem t it0 it1 it2, load (hashTable A C B M) { s with mem := mem } = .ok (some t) ∧ t.iter = .ok it0 ∧
      HashTable.Iter.nextMut t it0 = .ok (it1, some 1) ∧ HashTable.Iter.nextMut t it1 = .ok (it2, some 1) :=
  ⟨_, HashTable.loop ⟨A.read s.mem, C.read s.mem⟩, _, _, _,
    load_store (lawful_hashTable hA.1 hC.1 B M) hs (valid_hashTable hA hC _ (HashTable.loop_inRange _)),
    HashTable.loop_iter _ hB, HashTable.loop_next _ hB hM, HashTable.loop_next _ hB hM⟩

/-- C64, red-black tree: in bounds in any memory. -/
theorem C64_rb_iter_mut_in_bounds {M : Nat} (t : RedBlackTree K V M) (es : List End) {it : RedBlackTree.Iter}
    {outs : List (Option Nat)}
    (h : drive (RedBlackTree.Iter.nextMut t) (RedBlackTree.Iter.nextBackMut t) t.iter es = .ok (it, outs)) :
    ∀ p, some p ∈ outs → 1 ≤ p ∧ p ≤ M :=
  drive_all (I := RedBlackTree.Iter.Bounded M) (P := fun p => 1 ≤ p ∧ p ≤ M)
    (fun _ _ _ hb h => RedBlackTree.nextLoop_range hb h)
    (fun _ _ _ hb h => RedBlackTree.nextBackLoop_range hb h) es _ _ _
    ⟨by simp [RedBlackTree.iter], by simp [RedBlackTree.iter]⟩ h

/-- C64, red-black tree: bytes whose `iter_mut` returns slot 1 twice. -/
theorem C64_rb_iter_mut_aliases {A : Rep K} {C : Rep V} (hA : A.Element) (hC : C.Element) {M : Nat} (hM : 1 ≤ M)
    (s : Slice) (hs : s.Fits (redBlackTree A C M)) :
    ∃ mem t it1 it2, load (redBlackTree A C M) { s with mem := mem } = .ok (some t) ∧
      RedBlackTree.Iter.nextMut t t.iter = .ok (it1, some 1) ∧ RedBlackTree.Iter.nextMut t it1 = .ok (it2, some 1) :=
  ⟨_, RedBlackTree.loop ⟨A.read s.mem, C.read s.mem⟩, _, _,
    load_store (lawful_redBlackTree hA.1 hC.1 M) hs (valid_redBlackTree hA hC _ (RedBlackTree.loop_inRange _)),
    RedBlackTree.loop_next _ hM none, RedBlackTree.loop_next _ hM (some 1)⟩

/-- C64, AVL tree: in bounds in any memory. -/
theorem C64_avl_iter_mut_in_bounds {M : Nat} (t : AVLTree K V M) (es : List End) {it : AVLTree.Iter}
    {outs : List (Option Nat)}
    (h : drive (AVLTree.Iter.nextMut t) (AVLTree.Iter.nextBackMut t) t.iter es = .ok (it, outs)) :
    ∀ p, some p ∈ outs → 1 ≤ p ∧ p ≤ M :=
  drive_all (I := AVLTree.Iter.Bounded M) (P := fun p => 1 ≤ p ∧ p ≤ M)
    (fun _ _ _ hb h => AVLTree.nextLoop_range hb h)
    (fun _ _ _ hb h => AVLTree.nextBackLoop_range hb h) es _ _ _
    ⟨by simp [AVLTree.iter], by simp [AVLTree.iter]⟩ h

/-- C64, AVL tree: bytes whose `iter_mut` returns slot 1 twice. -/
theorem C64_avl_iter_mut_aliases {A : Rep K} {C : Rep V} (hA : A.Element) (hC : C.Element) {M : Nat} (hM : 1 ≤ M)
    (s : Slice) (hs : s.Fits (avlTree A C M)) :
    ∃ mem t it1 it2, load (avlTree A C M) { s with mem := mem } = .ok (some t) ∧
      AVLTree.Iter.nextMut t t.iter = .ok (it1, some 1) ∧ AVLTree.Iter.nextMut t it1 = .ok (it2, some 1) :=
  ⟨_, AVLTree.loop ⟨A.read s.mem, C.read s.mem⟩, _, _,
    load_store (lawful_avlTree hA.1 hC.1 M) hs (valid_avlTree hA hC _ (AVLTree.loop_inRange _)),
    AVLTree.loop_next _ hM none, AVLTree.loop_next _ hM (some 1)⟩

/-- C64, critbit tree: in any memory the shared half of an item, the reference to the key, is in bounds; of
the exclusive half, the reference to the leaf, only that its index is not 0 (`i - 1` does not overflow). -/
theorem C64_critbit_iter_mut_key_in_bounds {N M : Nat} (t : Critbit V N M) (es : List End) {it : Critbit.Iter}
    {outs : List (Option (Nat × Nat))}
    (h : drive (Critbit.Iter.nextMut t) (Critbit.Iter.nextBackMut t) t.iter es = .ok (it, outs)) :
    ∀ n i, some (n, i) ∈ outs → 1 ≤ n ∧ n ≤ N ∧ i ≠ 0 :=
  fun n i => drive_all (I := fun _ => True) (P := fun p => 1 ≤ p.1 ∧ p.1 ≤ N ∧ p.2 ≠ 0)
    (fun _ _ _ _ h => ⟨trivial, fun _ ha => Critbit.nextLoop_node (ha ▸ h)⟩)
    (fun _ _ _ _ h => ⟨trivial, fun _ ha => Critbit.nextBackLoop_node (ha ▸ h)⟩) es _ _ _ trivial h (n, i)

/-- C64, critbit tree: the leaf is not. For every index `j ≠ 0` a `u32` can hold, however far beyond the
`M` leaves there are, every buffer that fits can hold bytes that load as a tree whose `iter_mut` returns a
mutable reference to leaf `j`, twice. The immutable iterator panics on the same bytes if `j > M`. -/
theorem C64_critbit_iter_mut_out_of_bounds {a : Nat} {A : Rep V} (ha : IsAlign128 a) (hA : A.Element) {N M : Nat} (hN : 2 ≤ N)
    {j : Nat} (hj : j ≠ 0) (hj2 : j < 2 ^ 32) (s : Slice) (hs : s.Fits (critbit a A N M)) :
    ∃ mem t it1 it2, load (critbit a A N M) { s with mem := mem } = .ok (some t) ∧
      Critbit.Iter.nextMut t t.iter = .ok (it1, some (2, j)) ∧ Critbit.Iter.nextMut t it1 = .ok (it2, some (2, j)) ∧
      (M < j → Critbit.Iter.next t t.iter = .error .indexOutOfBounds) := by
  obtain ⟨it1, it2, h1, h2⟩ := Critbit.twice_next (M := M) hj ⟨0, 0⟩ (A.read s.mem) hN
  refine ⟨_, Critbit.twice j ⟨0, 0⟩ (A.read s.mem), it1, it2,
    load_store (lawful_critbit ha hA.1 N M) hs (valid_critbit hA _ (Critbit.twice_inRange hj2 (by decide) _)), h1, h2, fun hM => ?_⟩
  unfold Critbit.Iter.next
  rw [show Critbit.Iter.nextLoop _ (N + 1) _ = _ from h1]
  simp only [except_bind_ok, Critbit.Iter.item, Critbit.getLeaf, NodeAllocator.getValue, NodeAllocator.get]
  rw [dif_neg (by omega)]
  rfl

/-- The hypotheses of the byte statements: a buffer of zeros of exactly the right size fits, for a deque of
three `u64` and a critbit tree with one leaf. -/
example : (⟨0, (deque (uint 8 8) 3).size, zeroMem⟩ : Slice).Fits (deque (uint 8 8) 3) ∧
    (⟨0, (critbit 16 (uint 8 8) 2 1).size, zeroMem⟩ : Slice).Fits (critbit 16 (uint 8 8) 2 1) :=
  ⟨⟨Nat.le_refl _, Nat.dvd_zero _⟩, ⟨Nat.le_refl _, Nat.dvd_zero _⟩⟩

/-- A memory that is no deque (the head is slot 2, which is its own successor, no slot is in use) on which the
iterator nevertheless runs, and returns slots in bounds. -/
example : (drive (Deque.Iter.nextMut (T := Nat) (maxSize := 3) { sequenceNumber := 0, head := 2, tail := 7, allocator :=
      { size := 0, bumpIndex := 1, freeListHead := 1, nodes := Vector.replicate 3 ⟨#v[0, 2], 9⟩ } })
    (Deque.Iter.nextBackMut (T := Nat) (maxSize := 3) { sequenceNumber := 0, head := 2, tail := 7, allocator :=
      { size := 0, bumpIndex := 1, freeListHead := 1, nodes := Vector.replicate 3 ⟨#v[0, 2], 9⟩ } })
    ({ fwdPtr := 2, revPtr := 7, terminated := false } : Deque.Iter) [.front, .front, .front]).map Prod.snd =
      .ok [some 2, some 2, some 2] := by rfl

end Sokoban.Props
