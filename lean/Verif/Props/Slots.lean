import Verif.Proof.SlotsInst
import Verif.Proof.SlotsDeque

/-
C75: which address a key or an element has is decided by the calls alone, in the same way for all maps.
-/
namespace Sokoban.Props
open Sokoban MapSpec Slots
variable {K V : Type} {B M : Nat}

/-- **C75**, red-black tree. After every history every key has the address that `Slots` computes from the calls (and from
the keys that `remove_root` returned), and the next `insert` returns the address that `Slots` predicts, `None` if it
predicts none. -/
theorem C75_rb_slots [LinearOrder K] (hM : M + 1 < 2 ^ 32) (hM0 : 0 < M) (z : RBNode K V) (ops : List (RedBlackSpec.TOp K V)) :
    ∃ t outs, run RedBlackSpec.call (RedBlackTree.new z : RedBlackTree K V M) ops = .ok (t, outs) ∧
      (∀ k, t.getAddr k = .ok (((after M ((ops.zip outs).map RedBlackSpec.act)).find k).getD 0)) ∧
      ∀ k v, ∃ t', t.insert k v = .ok (t', (after M ((ops.zip outs).map RedBlackSpec.act)).place M k) :=
  RedBlackTree.slots_run hM hM0 z ops

/-- **C75**, AVL tree. -/
theorem C75_avl_slots [LinearOrder K] (hM : M + 1 < 2 ^ 32) (hM0 : 0 < M) (z : AVLNode K V) (ops : List (Op K V)) :
    ∃ t outs, run AVLSpec.call (AVLTree.new z : AVLTree K V M) ops = .ok (t, outs) ∧
      (∀ k, t.getAddr k = .ok (((after M (ops.map act)).find k).getD 0)) ∧
      ∀ k v, ∃ t', t.insert k v = .ok (t', (after M (ops.map act)).place M k) :=
  AVLTree.slots_run hM hM0 z ops

/-- **C75**, hash table: the same addresses, whatever the hash function and the number of buckets. -/
theorem C75_hash_slots [DecidableEq K] (hB : 0 < B) (hM : M + 1 < 2 ^ 32) (hash : K → Nat) (z : HashNode K V)
    (ops : List (Op K V)) :
    ∃ t outs, run (HashTableSpec.call hash) (HashTable.new z : HashTable K V B M) ops = .ok (t, outs) ∧
      (∀ k, t.getAddr hash k = .ok (((after M (ops.map act)).find k).getD 0)) ∧
      ∀ k v, ∃ t', t.insert hash k v = .ok (t', (after M (ops.map act)).place M k) :=
  HashTable.slots_run hB hM hash z ops

/-- **C75**, crit-bit tree with enough nodes: the value of a key has the slot that `Slots` computes from the calls, and
after the next `insert` the value of the inserted key has the slot that `Slots` predicts. -/
theorem C75_critbit_slots {N : Nat} (hN : N + 1 < 2 ^ 32) (hNM : 2 * M ≤ N) (hM0 : 0 < M) (z : CritbitNode) (w : V)
    (ops : List (Op (BitVec 128) V)) :
    ∃ t outs, run CritbitSpec.call (Critbit.new z w : Critbit V N M) ops = .ok (t, outs) ∧
      (∀ k, t.getMut k = .ok ((after M (ops.map act)).find k)) ∧
      ∀ k v, ∃ t' r, t.insert k v = .ok (t', r) ∧ t'.getMut k = .ok ((after M (ops.map act)).place M k) :=
  Critbit.slots_run hN hNM hM0 z w ops

/-- **C75**, deque: after every history without a panic, the references that a mutable iterator yields, taken from both
ends in any order, point to the slots that `Line` computes from the calls. -/
theorem C75_deque_slots {T : Type} (hM : M + 1 < 2 ^ 32) (z : T) (ops : List (DequeSpec.Op T)) (hs : ops.length < 2 ^ 64)
    (d : Deque T M) (outs : List (DequeSpec.Out T)) (e : run DequeSpec.call (Deque.new z : Deque T M) ops = .ok (d, outs))
    (es : List (End × (T → T))) :
    ∃ d' it items, DequeSpec.iterMut d es = .ok (d', it, items) ∧
      items.map (Option.map Prod.fst) = (consumeMut (Line.after ops).used (es.map fun e => (e.1, id))).1 :=
  Deque.slots_run hM z hs e es

/-- **C75**: with equal capacities, every history gives every key the same address in a red-black tree, an AVL tree and a
hash table, and the next `insert` returns the same in all three. -/
theorem C75_same_slots [LinearOrder K] (hB : 0 < B) (hM : M + 1 < 2 ^ 32) (hM0 : 0 < M) (hash : K → Nat) (z1 : RBNode K V)
    (z2 : AVLNode K V) (z3 : HashNode K V) (ops : List (Op K V)) :
    ∃ t1 o1 t2 o2 t3 o3,
      run RedBlackSpec.call (RedBlackTree.new z1 : RedBlackTree K V M) (ops.map .map) = .ok (t1, o1) ∧
      run AVLSpec.call (AVLTree.new z2 : AVLTree K V M) ops = .ok (t2, o2) ∧
      run (HashTableSpec.call hash) (HashTable.new z3 : HashTable K V B M) ops = .ok (t3, o3) ∧
      (∀ k, ∃ i, t1.getAddr k = .ok i ∧ t2.getAddr k = .ok i ∧ t3.getAddr hash k = .ok i) ∧
      ∀ k v, ∃ t1' t2' t3' r, t1.insert k v = .ok (t1', r) ∧ t2.insert k v = .ok (t2', r) ∧
        t3.insert hash k v = .ok (t3', r) := by
  obtain ⟨t1, o1, e1, a1, b1⟩ := C75_rb_slots hM hM0 z1 (ops.map .map)
  obtain ⟨t2, o2, e2, a2, b2⟩ := C75_avl_slots hM hM0 z2 ops
  obtain ⟨t3, o3, e3, a3, b3⟩ := C75_hash_slots hB hM hash z3 ops
  have hl : ∀ (ops : List (RedBlackSpec.TOp K V)) (s t : RedBlackTree K V M) (o : List (RedBlackSpec.TOut K V)),
      run RedBlackSpec.call s ops = .ok (t, o) → o.length = ops.length := by
    intro ops
    induction ops with
    | nil => intro s t o e; cases e; rfl
    | cons op ops ih =>
      intro s t o e
      unfold run at e
      cases e1 : RedBlackSpec.call s op with
      | error => rw [e1] at e; cases e
      | ok p =>
        simp only [e1, except_bind_ok] at e
        cases e2 : run RedBlackSpec.call p.1 ops with
        | error => rw [e2] at e; cases e
        | ok q => rw [e2] at e; cases e; simp [ih _ _ _ e2]
  have ha : ((ops.map RedBlackSpec.TOp.map).zip o1).map RedBlackSpec.act = ops.map act := by
    have hl1 := hl _ _ _ _ e1
    rw [List.length_map] at hl1
    clear a1 b1 e1 a2 b2 e2 a3 b3 e3
    induction ops generalizing o1 with
    | nil => rfl
    | cons op ops ih =>
      cases o1 with
      | nil => cases hl1
      | cons o os =>
        simp only [List.map_cons, List.zip_cons_cons, List.cons.injEq]
        exact ⟨rfl, ih _ (by simpa using hl1)⟩
  rw [ha] at a1 b1
  refine ⟨t1, o1, t2, o2, t3, o3, e1, e2, e3, fun k => ⟨_, a1 k, a2 k, a3 k⟩, fun k v => ?_⟩
  obtain ⟨t1', e1'⟩ := b1 k v
  obtain ⟨t2', e2'⟩ := b2 k v
  obtain ⟨t3', e3'⟩ := b3 k v
  exact ⟨t1', t2', t3', _, e1', e2', e3'⟩

/-! Cases -/

/-- a history with two removals, one refused insertion and one overwritten value; capacity 3 -/
private def hist : List (Op Nat Nat) :=
  [.insert 5 50, .insert 3 30, .insert 8 80, .insert 9 90, .remove 3, .remove 5, .insert 9 91, .insert 8 81, .getMut 9 (· + 1)]

/-- key 9 has got the slot given back last, the one of key 5; the next new key gets the slot that key 3 had -/
example : (after 3 (hist.map act)).used = [(9, 1), (8, 3)] ∧ (after 3 (hist.map act)).free = [2] ∧
    (after 3 (hist.map act)).place 3 4 = some 2 ∧ (after 3 (hist.map act)).place 3 8 = some 3 := by decide

example : ∃ t outs, run RedBlackSpec.call (RedBlackTree.new ⟨0, 0⟩ : RedBlackTree Nat Nat 3) (hist.map .map) = .ok (t, outs) ∧
    t.getAddr 9 = .ok 1 ∧ t.getAddr 8 = .ok 3 ∧ t.getAddr 5 = .ok 0 ∧ ∃ t', t.insert 4 40 = .ok (t', some 2) :=
  ⟨_, _, rfl, rfl, rfl, rfl, _, rfl⟩

example : ∃ t outs, run AVLSpec.call (AVLTree.new ⟨0, 0⟩ : AVLTree Nat Nat 3) hist = .ok (t, outs) ∧
    t.getAddr 9 = .ok 1 ∧ t.getAddr 8 = .ok 3 ∧ t.getAddr 5 = .ok 0 ∧ ∃ t', t.insert 4 40 = .ok (t', some 2) :=
  ⟨_, _, rfl, rfl, rfl, rfl, _, rfl⟩

example : ∃ t outs, run (HashTableSpec.call fun k => k) (HashTable.new ⟨0, 0⟩ : HashTable Nat Nat 2 3) hist = .ok (t, outs) ∧
    t.getAddr (fun k => k) 9 = .ok 1 ∧ t.getAddr (fun k => k) 8 = .ok 3 ∧ t.getAddr (fun k => k) 5 = .ok 0 ∧
    ∃ t', t.insert (fun k => k) 4 40 = .ok (t', some 2) :=
  ⟨_, _, rfl, rfl, rfl, rfl, _, rfl⟩

private def bhist : List (Op (BitVec 128) Nat) :=
  [.insert 5 50, .insert 3 30, .insert 8 80, .insert 9 90, .remove 3, .remove 5, .insert 9 91, .insert 8 81, .getMut 9 (· + 1)]

private def btree : R (Critbit Nat 6 3 × List (Out (BitVec 128) Nat)) := run CritbitSpec.call (Critbit.new ⟨0, 0⟩ 0) bhist

example : (do let t ← btree; return (← t.1.getMut 9, ← t.1.getMut 8, ← t.1.getMut 5)) = .ok (some 1, some 3, none) := by
  decide +kernel

example : (do let t ← btree; (← t.1.insert 4 40).1.getMut 4) = .ok (some 2) := by decide +kernel

/-- a deque used at both ends: the element at the back has the slot of the element popped last -/
private def dhist : List (DequeSpec.Op Nat) :=
  [.pushBack 1, .pushBack 2, .pushFront 3, .popBack, .popFront, .pushFront 4, .pushBack 5, .popBack, .pushBack 6]

example : (Line.after dhist).used = [3, 1, 2] ∧ (Line.after dhist).free = [] := by decide

example : ∃ d outs d' it, run DequeSpec.call (Deque.new 0 : Deque Nat 3) dhist = .ok (d, outs) ∧
    DequeSpec.iterMut d [(.back, (· + 1)), (.front, id), (.front, id), (.back, id)] =
      .ok (d', it, [some (2, 6), some (3, 4), some (1, 1), none]) :=
  ⟨_, _, _, _, rfl, rfl⟩

/-- with `remove_root`: the root was 5, so slot 1 is handed out next -/
example : ∃ t outs, run RedBlackSpec.call (RedBlackTree.new ⟨0, 0⟩ : RedBlackTree Nat Nat 4)
      [.map (.insert 5 50), .map (.insert 3 30), .map (.insert 8 80), .removeRoot] = .ok (t, outs) ∧
    (after 4 (([.map (.insert 5 50), .map (.insert 3 30), .map (.insert 8 80), .removeRoot].zip outs).map
      RedBlackSpec.act)).place 4 7 = some 1 ∧ ∃ t', t.insert 7 70 = .ok (t', some 1) :=
  ⟨_, _, rfl, rfl, _, rfl⟩

end Sokoban.Props
