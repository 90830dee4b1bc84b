import Verif.Proof.Loops
import Verif.Props.Bytes

/-
Property theorems C77: on any memory at all - reachable or not, as read from any bytes - a walk along the links
ends within `MAX_SIZE + 1` (for the critbit tree `NUM_NODES + 1`) iterations of its loop, with a result or a
panic, or it never ends.

The loops of the model stop with `Panic.diverge` when the given number of iterations (the first number behind the
name of the loop) is used up. The theorems say that a greater number changes nothing, so that the bound the model
gives to these loops is no restriction: a call of the model that ends in `Panic.diverge` there is one that does
not return in Rust. The loops that restore the colours of a red-black tree change the memory they walk through and
are not covered.
-/
namespace Sokoban.Props
open Bytes

variable {K V : Type}

/-- C77, hash table: the search loop of `get`, `get_mut`, `contains`, `get_addr`, `insert` and `remove`, and the
loop of the iterators over empty buckets, which always ends. -/
theorem C77_hash [BEq K] {B M : Nat} (h : HashTable K V B M) :
    (∀ (k : K) (i n : Nat), M + 1 ≤ n → h.findLoop k n i = h.findLoop k (M + 1) i) ∧
    (∀ (it : HashTable.Iter) (n : Nat), it.bucket < B → B + 1 ≤ n →
      HashTable.Iter.skip h n it = HashTable.Iter.skip h (B + 1) it ∧ HashTable.Iter.skip h n it ≠ .error .diverge) :=
  ⟨fun k i _ hn => HashTable.findLoop_exact_any k hn i, fun it n hb hn =>
    ⟨HashTable.skip_exact_any n (B + 1) it hb (by omega) (by omega), HashTable.skip_ends n it hb (by omega)⟩⟩

/-- C77, red-black tree: the loops of `get` and its relatives, the search loops of `insert` and `remove` (with any
bound `lim` for what follows them), the loops to the least and greatest node, and the iterators. -/
theorem C77_rb [Ord K] {M : Nat} (t : RedBlackTree K V M) {n : Nat} (hn : M + 1 ≤ n) :
    (∀ k i, t.getAddrLoop k n i = t.getAddrLoop k (M + 1) i) ∧
    (∀ k v i lim, t.insertLoop k v n i lim = t.insertLoop k v (M + 1) i lim) ∧
    (∀ k i lim, t.removeLoop k n i lim = t.removeLoop k (M + 1) i lim) ∧
    (∀ i, t.findMin n i = t.findMin (M + 1) i ∧ t.findMax n i = t.findMax (M + 1) i) ∧
    (∀ it, RedBlackTree.Iter.nextLoop t n it = RedBlackTree.Iter.nextLoop t (M + 1) it ∧
      RedBlackTree.Iter.nextBackLoop t n it = RedBlackTree.Iter.nextBackLoop t (M + 1) it) :=
  ⟨fun k => RedBlackTree.getAddrLoop_exact_any k hn, fun k v i lim => RedBlackTree.insertLoop_exact_any k v lim hn i,
    fun k i lim => RedBlackTree.removeLoop_exact_any k lim hn i,
    fun i => ⟨RedBlackTree.findMin_exact_any hn i, RedBlackTree.findMax_exact_any hn i⟩,
    fun it => ⟨RedBlackTree.nextLoop_exact_any hn it, RedBlackTree.nextBackLoop_exact_any hn it⟩⟩

/-- C77, AVL tree: the same, and for `insert` and `remove` as a whole, since the rebalancing goes along the
recorded path. -/
theorem C77_avl [LT K] [DecidableLT K] [PartialGt K] {M : Nat} (t : AVLTree K V M) {n : Nat} (hn : M + 1 ≤ n) :
    (∀ k i, t.searchLoop k n i = t.searchLoop k (M + 1) i) ∧
    (∀ k v, t.insert k v n = t.insert k v) ∧ (∀ k, t.remove k n = t.remove k) ∧
    (∀ i, t.minLoop n i = t.minLoop (M + 1) i ∧ t.maxLoop n i = t.maxLoop (M + 1) i) ∧
    (∀ it, AVLTree.Iter.nextLoop t n it = AVLTree.Iter.nextLoop t (M + 1) it ∧
      AVLTree.Iter.nextBackLoop t n it = AVLTree.Iter.nextBackLoop t (M + 1) it) :=
  ⟨fun k => AVLTree.searchLoop_exact_any k hn, fun k v => AVLTree.insert_exact_any k v hn,
    fun k => AVLTree.remove_exact_any k hn, fun i => ⟨AVLTree.minLoop_exact_any hn i, AVLTree.maxLoop_exact_any hn i⟩,
    fun it => ⟨AVLTree.nextLoop_exact_any hn it, AVLTree.nextBackLoop_exact_any hn it⟩⟩

/-- C77, critbit tree: the loops of `get` and its relatives, of `insert` and of `remove`, those to the least and
greatest key, and the iterators. -/
theorem C77_critbit {N M : Nat} (t : Critbit V N M) {n : Nat} (hn : N + 1 ≤ n) :
    (∀ k i, t.findLoop k n i = t.findLoop k (N + 1) i) ∧
    (∀ k v i, t.insertLoop k v n i = t.insertLoop k v (N + 1) i) ∧
    (∀ k p c b, t.removeLoop k n p c b = t.removeLoop k (N + 1) p c b) ∧
    (∀ i, t.minLoop n i = t.minLoop (N + 1) i ∧ t.maxLoop n i = t.maxLoop (N + 1) i) ∧
    (∀ it, Critbit.Iter.nextLoop t n it = Critbit.Iter.nextLoop t (N + 1) it ∧
      Critbit.Iter.nextBackLoop t n it = Critbit.Iter.nextBackLoop t (N + 1) it) :=
  ⟨fun k => Critbit.findLoop_exact_any k hn, fun k v => Critbit.insertLoop_exact_any k v hn,
    fun k => Critbit.removeLoop_exact_any k hn, fun i => ⟨Critbit.minLoop_exact_any hn i, Critbit.maxLoop_exact_any hn i⟩,
    fun it => ⟨Critbit.nextLoop_exact_any hn it, Critbit.nextBackLoop_exact_any hn it⟩⟩

/-- C77: both alternatives are there. Every buffer that fits can hold bytes that load as a hash table on which the
search for `k` runs through any number of iterations; so `get` does not return. (`k` is any key that the key in the
first bytes of the buffer, or any other given element, is not equal to.) -/
theorem C77_hash_endless [BEq K] {A : Rep K} {C : Rep V} (hA : A.Element) (hC : C.Element) {B M : Nat} (hB : 0 < B) (hM : 1 ≤ M)
    (s : Slice) (hs : s.Fits (hashTable A C B M)) {k : K} (hk : (A.read s.mem == k) = false) (hash : K → Nat) :
    ∃ mem t, load (hashTable A C B M) { s with mem := mem } = .ok (some t) ∧ t.get hash k = .error .diverge ∧
      ∀ n, t.findLoop k n 1 = .error .diverge :=
  ⟨_, HashTable.loop ⟨A.read s.mem, C.read s.mem⟩,
    load_store (lawful_hashTable hA.1 hC.1 B M) hs (valid_hashTable hA hC _ (HashTable.loop_inRange _)),
    HashTable.loop_get hk hB hM, HashTable.loop_find hk hM⟩

/-- C77: the same for red-black trees. -/
theorem C77_rb_endless [Ord K] {A : Rep K} {C : Rep V} (hA : A.Element) (hC : C.Element) {M : Nat} (hM : 1 ≤ M)
    (s : Slice) (hs : s.Fits (redBlackTree A C M)) {k : K} (hk : compare k (A.read s.mem) = .gt) :
    ∃ mem t, load (redBlackTree A C M) { s with mem := mem } = .ok (some t) ∧ t.get k = .error .diverge ∧
      ∀ n, t.getAddrLoop k n t.root = .error .diverge :=
  ⟨_, RedBlackTree.loop ⟨A.read s.mem, C.read s.mem⟩,
    load_store (lawful_redBlackTree hA.1 hC.1 M) hs (valid_redBlackTree hA hC _ (RedBlackTree.loop_inRange _)),
    RedBlackTree.loop_get hk hM, RedBlackTree.loop_getAddr hk hM⟩

/-- C77: the same for AVL trees. -/
theorem C77_avl_endless [LT K] [DecidableLT K] [PartialGt K] {A : Rep K} {C : Rep V} (hA : A.Element) (hC : C.Element) {M : Nat} (hM : 1 ≤ M)
    (s : Slice) (hs : s.Fits (avlTree A C M)) {k : K} (h0 : ¬ k < A.read s.mem) (hk : PartialGt.gt k (A.read s.mem)) :
    ∃ mem t, load (avlTree A C M) { s with mem := mem } = .ok (some t) ∧ t.get k = .error .diverge ∧
      ∀ n, t.searchLoop k n t.root = .error .diverge :=
  ⟨_, AVLTree.loop ⟨A.read s.mem, C.read s.mem⟩,
    load_store (lawful_avlTree hA.1 hC.1 M) hs (valid_avlTree hA hC _ (AVLTree.loop_inRange _)),
    AVLTree.loop_get h0 hk hM, AVLTree.loop_search h0 hk hM⟩

/-- C77: the same for critbit trees, there for every key at once. -/
theorem C77_critbit_endless {a : Nat} {A : Rep V} (ha : IsAlign128 a) (hA : A.Element) {N M : Nat} (hN : 1 ≤ N)
    (s : Slice) (hs : s.Fits (critbit a A N M)) :
    ∃ mem t, load (critbit a A N M) { s with mem := mem } = .ok (some t) ∧
      ∀ k, t.get k = .error .diverge ∧ ∀ n, t.findLoop k n t.root = .error .diverge :=
  ⟨_, Critbit.loop (A.read s.mem),
    load_store (lawful_critbit ha hA.1 N M) hs (valid_critbit hA _ (Critbit.loop_inRange _)),
    fun k => ⟨Critbit.loop_get _ k hN, Critbit.loop_find _ k hN⟩⟩

/-- The hypotheses of the `endless` statements: a buffer of zeros and the key 5. -/
example : (⟨0, (redBlackTree (uint 8 8) (uint 8 8) 3).size, zeroMem⟩ : Slice).Fits (redBlackTree (uint 8 8) (uint 8 8) 3) ∧
    compare 5 ((uint 8 8).read zeroMem) = .gt ∧ ((uint 8 8).read zeroMem == 5) = false :=
  ⟨⟨Nat.le_refl _, Nat.dvd_zero _⟩, by decide, by decide⟩

/-- The bound is reached: in this memory of three nodes, a chain to the right that no sequence of calls leaves
behind, the search for 9 takes three iterations and returns; with one iteration less it would not. -/
example :
    let t : RedBlackTree Nat Nat 3 := ⟨1, ⟨0, 1, 1,
      #v[⟨#v[0, 2, 0, 0], ⟨1, 1⟩⟩, ⟨#v[0, 3, 0, 0], ⟨2, 2⟩⟩, ⟨#v[0, 0, 0, 0], ⟨9, 7⟩⟩]⟩⟩
    t.get 9 = .ok (some 7) ∧ t.getAddrLoop 9 3 1 = .ok 3 ∧ t.getAddrLoop 9 2 1 = .error .diverge := by
  decide

end Sokoban.Props
