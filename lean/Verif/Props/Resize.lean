import Verif.Spec.Resize
import Verif.Proof.ResizeInst
import Verif.Props.Bytes

/-
C74: a buffer can be used with another capacity later.
-/
namespace Sokoban.Props
open Sokoban Bytes NodeAllocator MapSpec

variable {K V T : Type}

/-- **C74**, red-black tree. Somebody calls `new_from_slice` with capacity `M` on a zeroed buffer, and then uses the
buffer in any number of sessions, each with a capacity of its own, before which the buffer is reallocated with zero
initialisation. If no session has a smaller capacity than the greatest number of entries ever held before (which need
not be looked at when capacities only grow), then no call panics, and the results are those of one finite map, which
refuses new keys according to the capacity of the session. -/
theorem C74_rb [LinearOrder K] {C : Rep K} {D : Rep V} (hC : C.Element) (hD : D.Element) {M : Nat} {s0 s : Slice}
    (hz : ∀ k < s0.len, s0.mem k = 0) (hn : rbFromSlice C D M s0 = .ok s) (xs : List (Session (RedBlackSpec.TOp K V)))
    (hr : Roomy (fun M => redBlackTree C D M) (fun _ => RedBlackTree.len) (fun _ => RedBlackSpec.call)
        (fun M => 0 < M ∧ M + 1 < 2 ^ 32) 0 s xs ∨
      Growing (fun M => redBlackTree C D M) (fun M => 0 < M ∧ M + 1 < 2 ^ 32) 0 xs) :
    ∃ s' outs m, runSessions (fun M => redBlackTree C D M) (fun _ => RedBlackSpec.call) s xs = .ok (s', outs) ∧
      SessTrace (fun M => RedBlackSpec.TStep M) FMap.empty xs outs m := by
  have W := works_redBlackTree (K := K) hC hD
  obtain ⟨n1, n2⟩ := C59_rb_new_from_slice hC hD M s0
  by_cases h : C.align ∣ D.size ∧ 8 ∣ (rbNode C D).size
  swap
  · rw [n1 h] at hn; cases hn
  have hd := Nat.mod_eq_zero_of_dvd (lawful_rbNode hC.1 hD.1).dvd
  have e0 : rbFromSlice C D M s0 = newFromSlice (redBlackTree C D M) (rbInit C D M) s0 := by
    simp [rbFromSlice, rbAssert, rassert, Nat.mod_eq_zero_of_dvd h.1, Nat.mod_eq_zero_of_dvd h.2, hd]
  have n2 := n2 h
  rw [e0] at n2 hn
  have hin := W.made (n := calls xs) hz n2 hn (RedBlackTree.inRange_new _) ⟨[], RedBlackTree.Inv.new _, FMap.lists_empty⟩ rfl
  exact W.sessions xs 0 s _ hin (hr.elim id fun hg => W.roomy xs 0 0 s _ hin (Nat.le_refl _) hg (able_true _ _)) (able_true _ _)

/-- **C74**, AVL tree. -/
theorem C74_avl [LinearOrder K] {C : Rep K} {D : Rep V} (hC : C.Element) (hD : D.Element) {M : Nat} {s0 s : Slice}
    (hz : ∀ k < s0.len, s0.mem k = 0) (hn : avlFromSlice C D M s0 = .ok s) (xs : List (Session (Op K V)))
    (hr : Roomy (fun M => avlTree C D M) (fun _ => AVLTree.len) (fun _ => AVLSpec.call)
        (fun M => 0 < M ∧ M + 1 < 2 ^ 32) 0 s xs ∨
      Growing (fun M => avlTree C D M) (fun M => 0 < M ∧ M + 1 < 2 ^ 32) 0 xs) :
    ∃ s' outs m, runSessions (fun M => avlTree C D M) (fun _ => AVLSpec.call) s xs = .ok (s', outs) ∧
      SessTrace (fun M => Step (treeRules K V M)) FMap.empty xs outs m := by
  have W := works_avlTree (K := K) hC hD
  have hin := W.made (n := calls xs) hz (C59_avl_new_from_slice hC hD M s0) hn (AVLTree.inRange_new _)
    ⟨[], AVLTree.Inv.new _, FMap.lists_empty⟩ rfl
  exact W.sessions xs 0 s _ hin (hr.elim id fun hg => W.roomy xs 0 0 s _ hin (Nat.le_refl _) hg (able_true _ _)) (able_true _ _)

/-- **C74**, hash table; the number of buckets stays. -/
theorem C74_hash [DecidableEq K] {C : Rep K} {D : Rep V} (hC : C.Element) (hD : D.Element) {B M : Nat} (hB : 0 < B) (hash : K → Nat)
    {s0 s : Slice} (hz : ∀ k < s0.len, s0.mem k = 0) (hn : hashFromSlice C D B M s0 = .ok s) (xs : List (Session (Op K V)))
    (hr : Roomy (fun M => hashTable C D B M) (fun _ => HashTable.len) (fun _ => HashTableSpec.call hash)
        (fun M => M + 1 < 2 ^ 32) 0 s xs ∨
      Growing (fun M => hashTable C D B M) (fun M => M + 1 < 2 ^ 32) 0 xs) :
    ∃ s' outs m, runSessions (fun M => hashTable C D B M) (fun _ => HashTableSpec.call hash) s xs = .ok (s', outs) ∧
      SessTrace (fun M => Step (hashRules K V M)) FMap.empty xs outs m := by
  have W := works_hashTable (K := K) hC hD B hash
  obtain ⟨n1, n2⟩ := C59_hash_new_from_slice hC hD B M s0
  by_cases h : B % 2 = 0
  swap
  · rw [n1 (by omega)] at hn; cases hn
  have e0 : hashFromSlice C D B M s0 = newFromSlice (hashTable C D B M) (hashInit C D B M) s0 := by
    simp [hashFromSlice, HashTable.assertProperAlignment, rassert, h]
  have n2 := n2 h
  rw [e0] at n2 hn
  have hin := W.made (n := calls xs) hz n2 hn (HashTable.inRange_new _)
    ⟨[], ⟨_, HashTable.new_HRep hB hash _, by simp⟩, FMap.lists_empty⟩ rfl
  exact W.sessions xs 0 s _ hin (hr.elim id fun hg => W.roomy xs 0 0 s _ hin (Nat.le_refl _) hg (able_true _ _)) (able_true _ _)

/-- **C74**, deque: fewer than 2^64 calls, none of which pushes into a deque that is full for its session. -/
theorem C74_deque {A : Rep T} (hA : A.Element) {M : Nat} {s0 s : Slice} (hz : ∀ k < s0.len, s0.mem k = 0)
    (hn : dequeFromSlice A M s0 = .ok s) (xs : List (Session (DequeSpec.Op T))) (hs : calls xs < 2 ^ 64)
    (hr : Roomy (fun M => deque A M) (fun _ => Deque.len) (fun _ => DequeSpec.call) (fun M => M + 1 < 2 ^ 32) 0 s xs ∨
      Growing (fun M => deque A M) (fun M => M + 1 < 2 ^ 32) 0 xs)
    (l : List T) (outs : List (List (DequeSpec.Out T))) (hl : specSessions (fun M => DequeSpec.step M) [] xs = some (l, outs)) :
    ∃ s', runSessions (fun M => deque A M) (fun _ => DequeSpec.call) s xs = .ok (s', outs) := by
  have W := works_deque hA
  obtain ⟨ha, hd⟩ := able_of_specSessions xs _ _ _ hl
  have hin := W.made (n := calls xs) hz (C59_deque_new_from_slice hA M s0) hn (Deque.inRange_new _)
    ⟨[], Deque.new_DRep _, rfl, by simpa [Deque.new] using hs⟩ rfl
  obtain ⟨s', outs', x', e, ht⟩ :=
    W.sessions xs 0 s _ hin (hr.elim id fun hg => W.roomy xs 0 0 s _ hin (Nat.le_refl _) hg ha) ha
  rw [hd _ _ ht] at e
  exact ⟨s', e⟩

/-- **C74**, critbit tree: the capacity `MAX_SIZE` of the leaves may change, `NUM_NODES` may not. -/
theorem C74_critbit {a N : Nat} (h128 : IsAlign128 a) {D : Rep V} (hD : D.Element) (hN : N + 1 < 2 ^ 32) {M : Nat} {s0 s : Slice}
    (hz : ∀ k < s0.len, s0.mem k = 0) (hn : critbitFromSlice a D N M s0 = .ok s) (xs : List (Session (Op (BitVec 128) V)))
    (hr : Roomy (fun M => critbit a D N M) (fun _ => Critbit.len) (fun _ => CritbitSpec.call)
        (fun M => 0 < M ∧ 2 * M ≤ N) 0 s xs ∨
      Growing (fun M => critbit a D N M) (fun M => 0 < M ∧ 2 * M ≤ N) 0 xs) :
    ∃ s' outs m, runSessions (fun M => critbit a D N M) (fun _ => CritbitSpec.call) s xs = .ok (s', outs) ∧
      SessTrace (fun M => Step (critbitRules (BitVec 128) V M)) FMap.empty xs outs m := by
  have W := works_critbit h128 hD hN
  obtain ⟨n1, n2⟩ := C59_critbit_new_from_slice h128 hD N M s0
  by_cases h : 2 * M ≤ N
  swap
  · rw [n1 (by omega)] at hn; cases hn
  have e0 : critbitFromSlice a D N M s0 = newFromSlice (critbit a D N M) (critbitInit a D N M) s0 := by
    simp [critbitFromSlice, rassert, h]
  have n2 := n2 h
  rw [e0] at n2 hn
  have hin := W.made (n := calls xs) hz n2 hn (Critbit.inRange_new _ _ (show 0 < _ by decide))
    ⟨[], Critbit.Inv.new _ _, FMap.lists_empty⟩ rfl
  exact W.sessions xs 0 s _ hin (hr.elim id fun hg => W.roomy xs 0 0 s _ hin (Nat.le_refl _) hg (able_true _ _)) (able_true _ _)

/-! ### what the conditions are for -/

/-- **C74**, shrinking: a deque that holds one element, but held two before, can not be used with capacity 1; the
call panics although one element fits. -/
theorem C74_shrink_below_peak : ∃ (s0 s : Slice) (xs : List (Session (DequeSpec.Op (BitVec 64)))) (l : List (BitVec 64)) (outs : _),
    (∀ k < s0.len, s0.mem k = 0) ∧ dequeFromSlice (uint 8 8) 2 s0 = .ok s ∧
    (∀ x ∈ xs, x.move = id) ∧ s.Fits (deque (uint 8 8) 1) ∧
    specSessions (fun M => DequeSpec.step M) [] xs = some (l, outs) ∧
    runSessions (fun M => deque (uint 8 8) M) (fun _ => DequeSpec.call) s xs = .error .indexOutOfBounds :=
  ⟨⟨4096, 64, zeroMem⟩, _, [⟨id, 2, [.pushBack 1, .pushBack 2, .popFront]⟩, ⟨id, 1, [.popFront]⟩], _, _,
    fun _ _ => rfl, rfl, by simp, ⟨by decide, by decide⟩, rfl, rfl⟩

/-- **C74**, growing into bytes that are not zero: the deque with capacity 2 takes bytes behind the deque with
capacity 1 for links. -/
theorem C74_grow_into_garbage : ∃ (s0 s : Slice) (f : Slice → Slice) (xs ys : List (DequeSpec.Op (BitVec 64)))
    (l : List (BitVec 64)) (outs : _),
    (∀ k < s0.len, s0.mem k = 0) ∧ dequeFromSlice (uint 8 8) 1 s0 = .ok s ∧
    (∀ s k, k < s.len → (f s).mem k = s.mem k) ∧ (∀ s, (f s).Fits (deque (uint 8 8) 2)) ∧
    specSessions (fun M => DequeSpec.step M) [] [⟨id, 1, xs⟩, ⟨f, 2, ys⟩] = some (l, outs) ∧
    runSessions (fun M => deque (uint 8 8) M) (fun _ => DequeSpec.call) s [⟨id, 1, xs⟩, ⟨f, 2, ys⟩] =
      .error .indexOutOfBounds :=
  ⟨⟨4096, 48, zeroMem⟩, _, fun s => ⟨4096, 64, fun k => if k < s.len then s.mem k else 1⟩, [.pushBack 1],
    [.pushBack 2, .popFront, .popFront], _, _, fun _ _ => rfl, rfl, fun s k h => if_pos h,
    fun _ => ⟨show (deque (uint 8 8) 2).size ≤ 64 by decide, show (deque (uint 8 8) 2).align ∣ 4096 by decide⟩, rfl, rfl⟩

set_option maxRecDepth 100000 in
/-- **C74**, critbit tree: with another `NUM_NODES` the leaves are looked for at another place; an entry is lost. -/
theorem C74_critbit_nodes : ∃ (s0 s s1 s2 : Slice), (∀ k < s0.len, s0.mem k = 0) ∧
    critbitFromSlice 8 (uint 8 8) 2 1 s0 = .ok s ∧
    runSessions (fun M => critbit 8 (uint 8 8) 2 M) (fun _ => CritbitSpec.call) s [⟨id, 1, [.insert 5 50]⟩] =
      .ok (s1, [[.inserted true]]) ∧ s1.Fits (critbit 8 (uint 8 8) 4 1) ∧
    runSessions (fun M => critbit 8 (uint 8 8) 4 M) (fun _ => CritbitSpec.call) s1 [⟨id, 1, [.getMut 5 id]⟩] =
      .ok (s2, [[.got none]]) :=
  ⟨⟨4096, 400, zeroMem⟩, _, _, _, fun _ _ => rfl, rfl, rfl, ⟨by decide, by decide⟩, rfl⟩

/-! ### cases -/

/-- A reallocation. -/
def moveTo (addr len : Nat) (s : Slice) : Slice := ⟨addr, len, fun k => if k < s.len then s.mem k else 0⟩

theorem realloc_moveTo (addr len : Nat) : Realloc (moveTo addr len) :=
  fun _ => ⟨fun _ h _ => if_pos h, fun _ h _ => if_neg (Nat.not_lt.2 h)⟩

/-- A red-black tree with one slot that refuses a second key, then has three, then five. -/
def growSessions : List (Session (RedBlackSpec.TOp (BitVec 64) (BitVec 64))) :=
  [⟨moveTo 2048 64, 1, [.map (.insert 5 50), .map (.insert 3 30)]⟩,
    ⟨moveTo 512 160, 3, [.map (.insert 3 31), .map (.remove 5), .map (.insert 8 80), .map (.insert 4 40)]⟩,
    ⟨moveTo 1024 300, 5, [.map (.insert 6 60), .map (.insert 1 10), .map (.insert 2 20), .map (.getMut 4 (· + 1))]⟩]

example : (redBlackTree (uint 8 8) (uint 8 8) 1).size = 64 ∧ (redBlackTree (uint 8 8) (uint 8 8) 3).size = 128 ∧
    (redBlackTree (uint 8 8) (uint 8 8) 5).size = 192 := ⟨rfl, rfl, rfl⟩

example : ∃ s, rbFromSlice (uint 8 8) (uint 8 8) 1 ⟨4096, 64, zeroMem⟩ = .ok s ∧
    (runSessions (fun M => redBlackTree (uint 8 8) (uint 8 8) M) (fun _ => RedBlackSpec.call) s growSessions).map Prod.snd =
    .ok [[.map (.inserted true), .map (.inserted false)],
      [.map (.inserted true), .map (.removed (some 50)), .map (.inserted true), .map (.inserted true)],
      [.map (.inserted true), .map (.inserted true), .map (.inserted false), .map (.got (some 40))]] := ⟨_, rfl, rfl⟩

/-- They meet the hypothesis of `C74_rb`. -/
example : Growing (fun M => redBlackTree (uint 8 8) (uint 8 8) M) (fun M => 0 < M ∧ M + 1 < 2 ^ 32) 0 growSessions :=
  ⟨by decide, by decide, realloc_moveTo _ _,
    fun _ => ⟨show (redBlackTree (uint 8 8) (uint 8 8) 1).size ≤ 64 by decide, show 8 ∣ 2048 by decide⟩,
    by decide, by decide, realloc_moveTo _ _,
    fun _ => ⟨show (redBlackTree (uint 8 8) (uint 8 8) 3).size ≤ 160 by decide, show 8 ∣ 512 by decide⟩,
    by decide, by decide, realloc_moveTo _ _,
    fun _ => ⟨show (redBlackTree (uint 8 8) (uint 8 8) 5).size ≤ 300 by decide, show 8 ∣ 1024 by decide⟩, trivial⟩

/-- A deque of capacity three that never held more than two elements shrinks to capacity two. -/
def shrinkSessions : List (Session (DequeSpec.Op (BitVec 64))) :=
  [⟨id, 3, [.pushBack 1, .pushFront 2, .popBack]⟩, ⟨moveTo 512 64, 2, [.pushBack 3, .popFront, .popFront]⟩]

theorem shrink_roomy (s : Slice) (h : dequeFromSlice (uint 8 8) 3 ⟨4096, 80, zeroMem⟩ = .ok s) :
    Roomy (fun M => deque (uint 8 8) M) (fun _ => Deque.len) (fun _ => DequeSpec.call) (fun M => M + 1 < 2 ^ 32) 0 s shrinkSessions := by
  obtain ⟨s1, e, hf, s2, o, t, _, e3, hp⟩ : ∃ s1, dequeFromSlice (uint 8 8) 3 ⟨4096, 80, zeroMem⟩ = .ok s1 ∧
      s1.Fits (deque (uint 8 8) 3) ∧ ∃ s2 o t, runAt (deque (uint 8 8) 3) DequeSpec.call s1
        [(id, .pushBack 1), (id, .pushFront 2), (id, .popBack)] = .ok (s2, o) ∧ load (deque (uint 8 8) 3) s1 = .ok (some t) ∧
      peak Deque.len DequeSpec.call t [.pushBack 1, .pushFront 2, .popBack] = 2 :=
    ⟨_, rfl, ⟨by decide, by decide⟩, _, _, _, rfl, rfl, rfl⟩
  obtain rfl : s = s1 := by rw [e] at h; cases h; rfl
  refine ⟨by decide, by decide, fun s => ⟨fun _ _ _ => rfl, fun k h1 h2 => absurd h2 (Nat.not_lt.2 h1)⟩, hf, ?_⟩
  intro t' s' outs hl _
  have hl : load (deque (uint 8 8) 3) s = .ok (some t') := hl
  rw [e3] at hl
  cases hl
  refine ⟨?_, by decide, realloc_moveTo _ _, ⟨show (deque (uint 8 8) 2).size ≤ 64 by decide, show 8 ∣ 512 by decide⟩,
    fun _ _ _ _ _ => trivial⟩
  show max 0 (peak Deque.len DequeSpec.call t [.pushBack 1, .pushFront 2, .popBack]) ≤ 2
  rw [hp]
  decide

example : ∃ s, dequeFromSlice (uint 8 8) 3 ⟨4096, 80, zeroMem⟩ = .ok s ∧
    (runSessions (fun M => deque (uint 8 8) M) (fun _ => DequeSpec.call) s shrinkSessions).map Prod.snd =
    .ok [[.unit, .unit, .popped (some 1)], [.unit, .popped (some 2), .popped (some 3)]] := ⟨_, rfl, rfl⟩

example : ∃ s, avlFromSlice (uint 8 8) (uint 8 8) 1 ⟨4096, 64, zeroMem⟩ = .ok s ∧
    (runSessions (fun M => avlTree (uint 8 8) (uint 8 8) M) (fun _ => AVLSpec.call) s
      [⟨id, 1, [.insert 5#64 50#64, .insert 3 30]⟩, ⟨moveTo 512 160, 3, [.insert 3 31, .insert 8 80, .getMut 5 id]⟩]).map Prod.snd =
    .ok [[.inserted true, .inserted false], [.inserted true, .inserted true, .got (some 50)]] := ⟨_, rfl, rfl⟩

example : ∃ s, hashFromSlice (uint 8 8) (uint 8 8) 2 1 ⟨4096, 64, zeroMem⟩ = .ok s ∧
    (runSessions (fun M => hashTable (uint 8 8) (uint 8 8) 2 M) (fun _ => HashTableSpec.call BitVec.toNat) s
      [⟨id, 1, [.insert 5#64 50#64, .insert 3 30]⟩, ⟨moveTo 512 160, 3, [.insert 3 31, .insert 8 80, .getMut 5 id]⟩]).map Prod.snd =
    .ok [[.inserted true, .inserted false], [.inserted true, .inserted true, .got (some 50)]] := ⟨_, rfl, rfl⟩

set_option maxRecDepth 100000 in
example : ∃ s, critbitFromSlice 8 (uint 8 8) 6 1 ⟨4096, 400, zeroMem⟩ = .ok s ∧
    (runSessions (fun M => critbit 8 (uint 8 8) 6 M) (fun _ => CritbitSpec.call) s
      [⟨id, 1, [.insert 5 50#64, .insert 4 40]⟩, ⟨moveTo 512 440, 3, [.insert 4 41, .getMut 5 id]⟩]).map Prod.snd =
    .ok [[.inserted true, .inserted false], [.inserted true, .got (some 50)]] := ⟨_, rfl, rfl⟩

end Sokoban.Props
