import Verif.Proof.Words

/-
Property theorems C57: every word fits its Rust type.
-/
namespace Sokoban.Props
open MapSpec

/-- C57, allocator: a client that passes `u32` arguments never brings the allocator into a state with
a word outside its Rust type. -/
theorem C57_alloc_in_range {T : Type} {M N : Nat} (z : T) (ops : List (AllocSpec.Op T)) (hops : ∀ op ∈ ops, op.InRange)
    {a : NodeAllocator T M N} {outs : List (AllocSpec.Out T)}
    (h : run AllocSpec.call (NodeAllocator.new z) ops = .ok (a, outs)) : a.InRange (fun _ => True) :=
  run_post (I := fun a => a.InRange (fun _ => True)) (D := AllocSpec.Op.InRange) AllocSpec.call_post ops _
    (NodeAllocator.ok_new trivial) hops _ h

/-- C57, deque. -/
theorem C57_deque_in_range {T : Type} {M : Nat} (z : T) (ops : List (DequeSpec.Op T)) {d : Deque T M} {outs : List (DequeSpec.Out T)}
    (h : run DequeSpec.call (Deque.new z) ops = .ok (d, outs)) : d.InRange :=
  run_post (I := Deque.InRange) (D := fun _ => True) (fun s op hs _ => Deque.call_post s op hs) ops _
    (Deque.inRange_new z) (fun _ _ => trivial) _ h

/-- C57, hash table. -/
theorem C57_hash_in_range {K V : Type} [BEq K] {B M : Nat} (hash : K → Nat) (z : HashNode K V) (ops : List (Op K V))
    {t : HashTable K V B M} {outs : List (Out K V)}
    (h : run (HashTableSpec.call hash) (HashTable.new z) ops = .ok (t, outs)) : t.InRange :=
  run_post (I := HashTable.InRange) (D := fun _ => True) (fun s op hs _ => HashTable.call_post hash s op hs) ops _
    (HashTable.inRange_new z) (fun _ _ => trivial) _ h

/-- C57, red-black tree. -/
theorem C57_rb_in_range {K V : Type} [Ord K] {M : Nat} (z : RBNode K V) (ops : List (RedBlackSpec.TOp K V))
    {t : RedBlackTree K V M} {outs : List (RedBlackSpec.TOut K V)}
    (h : run RedBlackSpec.call (RedBlackTree.new z) ops = .ok (t, outs)) : t.InRange :=
  run_post (I := RedBlackTree.InRange) (D := fun _ => True) (fun s op hs _ => RedBlackTree.call_post s op hs) ops _
    (RedBlackTree.inRange_new z) (fun _ _ => trivial) _ h

/-- C57, AVL tree, for any comparison. -/
theorem C57_avl_in_range {K V : Type} [LT K] [DecidableLT K] [PartialGt K] {M : Nat} (z : AVLNode K V) (ops : List (Op K V))
    {t : AVLTree K V M} {outs : List (Out K V)}
    (h : run AVLSpec.call (AVLTree.new z) ops = .ok (t, outs)) : t.InRange :=
  run_post (I := AVLTree.InRange) (D := fun _ => True) (fun s op hs _ => AVLTree.call_post s op hs) ops _
    (AVLTree.inRange_new z) (fun _ _ => trivial) _ h

/-- C57, critbit tree. -/
theorem C57_critbit_in_range {V : Type} {N M : Nat} (z : CritbitNode) (w : V) (hz : z.prefixLen < 2 ^ 64)
    (ops : List (Op (BitVec 128) V)) {t : Critbit V N M} {outs : List (Out (BitVec 128) V)}
    (h : run CritbitSpec.call (Critbit.new z w) ops = .ok (t, outs)) : t.InRange :=
  run_post (I := Critbit.InRange) (D := fun _ => True) (fun s op hs _ => Critbit.call_post s op hs) ops _
    (Critbit.inRange_new z w hz) (fun _ _ => trivial) _ h

/-- The hypotheses of `C57_alloc_in_range` are met by a history that stores the largest `u32` in a
register of a node handed out; the register then holds that number. -/
example : ∃ (a : NodeAllocator Nat 3 2) (outs : List (AllocSpec.Out Nat)),
    run AllocSpec.call (NodeAllocator.new 0) [.add 7, .add 8, .setRegister 2 (2 ^ 32 - 1) 1, .remove 1] = .ok (a, outs) ∧
    (∀ op ∈ ([.add 7, .add 8, .setRegister 2 (2 ^ 32 - 1) 1, .remove 1] : List (AllocSpec.Op Nat)), op.InRange) ∧
    a.getRegister 2 1 = .ok (2 ^ 32 - 1) :=
  ⟨_, _, rfl, by simp [AllocSpec.Op.InRange], rfl⟩

/-- The hypothesis of `C57_deque_in_range` is met by a history with pushes at both ends and a pop. -/
example : ∃ (d : Deque Nat 3) (outs : List (DequeSpec.Out Nat)),
    run DequeSpec.call (Deque.new 0) [.pushBack 5, .pushFront 6, .pushBack 7, .popFront] = .ok (d, outs) ∧ d.sequenceNumber = 4 :=
  ⟨_, _, rfl, rfl⟩

end Sokoban.Props
