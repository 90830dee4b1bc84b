import Verif.Proof.Uninit

/-
Property C80: memory filled with zeros that nobody initialised reads as an empty structure, and every insertion
panics.
-/
namespace Sokoban.Props
open MapSpec Uninit
variable {K V T : Type} {B N M : Nat}

/-- C80 for the red-black tree: on zeroed memory without `initialize` every history of calls finds nothing and leaves
the memory as it is, up to its first insertion, which panics; lookups, minimum, maximum and iteration find nothing
either. The memory then still can be initialised. -/
theorem C80_rb_uninitialised [Ord K] (hM : (M + 1) % 2 ^ 32 ≠ 0) (z : RBNode K V) :
    let t : RedBlackTree K V M := RedBlackTree.zeroed z
    (∀ ops, run RedBlackSpec.api.call t ops = expect answer t ops) ∧
    t.len = 0 ∧ t.isEmpty = true ∧
    (∀ k, t.get k = .ok none ∧ t.contains k = .ok false ∧ t.getAddr k = .ok SENTINEL ∧
      t.index k = .error .unwrapNone) ∧
    t.getMin = .ok none ∧ t.getMax = .ok none ∧ t.isValid = .ok true ∧
    (∀ es, ∃ it, drive (RedBlackTree.Iter.next t) (RedBlackTree.Iter.nextBack t) t.iter es =
      .ok (it, es.map fun _ => none)) ∧
    t.initialise = .ok (RedBlackTree.new z) := by
  intro t
  refine ⟨(dead_redBlack hM z).run, rfl, rfl, fun k => ⟨rfl, rfl, rfl, rfl⟩, rfl, rfl, rfl, fun es => ?_, rfl⟩
  obtain ⟨it, e, -⟩ := drive_none (P := fun it => it = t.iter) (next := RedBlackTree.Iter.next t)
    (nextBack := RedBlackTree.Iter.nextBack t)
    (fun it h => ⟨it, by subst h; rfl, h⟩) (fun it h => ⟨it, by subst h; rfl, h⟩) es _ rfl
  exact ⟨it, e⟩

/-- C80 for the AVL tree. -/
theorem C80_avl_uninitialised [LT K] [DecidableLT K] [PartialGt K] (hM : (M + 1) % 2 ^ 32 ≠ 0) (z : AVLNode K V) :
    let t : AVLTree K V M := AVLTree.zeroed z
    (∀ ops, run AVLSpec.api.call t ops = expect answer t ops) ∧
    t.len = 0 ∧ t.isEmpty = true ∧
    (∀ k, t.get k = .ok none ∧ t.contains k = .ok false ∧ t.getAddr k = .ok SENTINEL ∧
      t.index k = .error .unwrapNone) ∧
    t.getMin = .ok none ∧ t.getMax = .ok none ∧ t.findMin = .ok none ∧ t.findMax = .ok none ∧
    (∀ es, ∃ it, drive (AVLTree.Iter.next t) (AVLTree.Iter.nextBack t) t.iter es =
      .ok (it, es.map fun _ => none)) ∧
    t.initialise = .ok (AVLTree.new z) := by
  intro t
  refine ⟨(dead_avl hM z).run, rfl, rfl, fun k => ⟨rfl, rfl, rfl, rfl⟩, rfl, rfl, rfl, rfl, fun es => ?_, rfl⟩
  obtain ⟨it, e, -⟩ := drive_none (P := fun it => it = t.iter) (next := AVLTree.Iter.next t)
    (nextBack := AVLTree.Iter.nextBack t)
    (fun it h => ⟨it, by subst h; rfl, h⟩) (fun it h => ⟨it, by subst h; rfl, h⟩) es _ rfl
  exact ⟨it, e⟩

/-- C80 for the critbit tree; `get_addr` panics, as on every empty tree (C48). -/
theorem C80_critbit_uninitialised (hN : (N + 1) % 2 ^ 32 ≠ 0) (z : CritbitNode) (w : V) :
    let t : Critbit V N M := Critbit.zeroed z w
    (∀ ops, run CritbitSpec.api.call t ops = expect answer t ops) ∧
    t.len = 0 ∧ t.isEmpty = true ∧
    (∀ k, t.get k = .ok none ∧ t.contains k = .ok false ∧ t.getAddr k = .error .indexOutOfBounds ∧
      t.index k = .error .unwrapNone) ∧
    t.getMin = .ok none ∧ t.getMax = .ok none ∧
    (∀ es, ∃ it, drive (Critbit.Iter.next t) (Critbit.Iter.nextBack t) t.iter es =
      .ok (it, es.map fun _ => none)) ∧
    t.initialise = .ok (Critbit.new z w) := by
  intro t
  refine ⟨(dead_critbit hN z w).run, rfl, rfl, fun k => ⟨rfl, rfl, rfl, rfl⟩, rfl, rfl, fun es => ?_, rfl⟩
  obtain ⟨it, e, -⟩ := drive_none (P := fun it => it = t.iter) (next := Critbit.Iter.next t)
    (nextBack := Critbit.Iter.nextBack t)
    (fun it h => ⟨it, by subst h; rfl, h⟩) (fun it h => ⟨it, by subst h; rfl, h⟩) es _ rfl
  exact ⟨it, e⟩

/-- C80 for the hash table (with buckets; without any, see C56). -/
theorem C80_hash_uninitialised [BEq K] (hB : 0 < B) (hM0 : 0 < M) (hM : (M + 1) % 2 ^ 32 ≠ 0) (hash : K → Nat)
    (z : HashNode K V) :
    let t : HashTable K V B M := HashTable.zeroed z
    (∀ ops, run (HashTableSpec.call hash) t ops = expect answer t ops) ∧
    t.len = 0 ∧ t.isEmpty = true ∧
    (∀ k, t.get hash k = .ok none ∧ t.contains hash k = .ok false ∧ t.getAddr hash k = .ok SENTINEL ∧
      t.index hash k = .error .unwrapNone) ∧
    (∀ es, ∃ it0 it, t.iter = .ok it0 ∧ drive (HashTable.Iter.next t) HashTable.Iter.nextBack it0 es =
      .ok (it, es.map fun _ => none)) ∧
    t.initialise = .ok (HashTable.new z) := by
  intro t
  refine ⟨run_hashTable hB hM0 hM, rfl, rfl, fun k => ?_, fun es => ?_, rfl⟩
  · obtain ⟨b, hb, e1, e2⟩ := head_zeroed (hash := hash) (z := z) (M := M) hB k
    have e : t.get hash k = .ok none := by
      simp only [t, HashTable.get, e1, e2, findLoop_zeroed, bind, Except.bind]; rfl
    refine ⟨e, ?_, ?_, ?_⟩
    · simp only [HashTable.contains, e]; rfl
    · simp only [t, HashTable.getAddr, e1, e2, findLoop_zeroed, bind, Except.bind]
    · simp only [HashTable.index, e]; rfl
  · obtain ⟨it, e, -⟩ := drive_none (next := HashTable.Iter.next t) (nextBack := HashTable.Iter.nextBack)
      (next_zeroed (z := z) (M := M) hB) (fun it h => ⟨it, rfl, h⟩) es _ (.inl rfl)
    exact ⟨_, it, iter_zeroed hB, e⟩

/-- C80 for the deque. -/
theorem C80_deque_uninitialised (hM : (M + 1) % 2 ^ 32 ≠ 0) (z : T) :
    let d : Deque T M := Deque.zeroed z
    (∀ ops, run DequeSpec.call d ops = expect answerD d ops) ∧
    d.len = 0 ∧ d.isEmpty = true ∧ d.front = .ok none ∧ d.back = .ok none ∧
    (∀ es, ∃ it, drive (Deque.Iter.next d) (Deque.Iter.nextBack d) d.iter es = .ok (it, es.map fun _ => none)) ∧
    d.initialise = .ok (Deque.new z) := by
  intro d
  refine ⟨run_deque hM z, rfl, rfl, rfl, rfl, fun es => ?_, rfl⟩
  obtain ⟨it, e, -⟩ := drive_none (P := fun it => it = d.iter) (next := Deque.Iter.next d)
    (nextBack := Deque.Iter.nextBack d)
    (fun it h => ⟨it, by subst h; rfl, h⟩) (fun it h => ⟨it, by subst h; rfl, h⟩) es _ rfl
  exact ⟨it, e⟩

/-- A history on uninitialised memory: a lookup and a removal find nothing. -/
example : run RedBlackSpec.api.call (RedBlackTree.zeroed ⟨0, 0⟩ : RedBlackTree Nat Nat 3)
    [.getMut 5 (· + 1), .remove 7, .iterMut [(.front, fun _ v => v), (.back, fun _ v => v)]] =
    .ok (RedBlackTree.zeroed ⟨0, 0⟩, [.got none, .removed none, .seen [none, none]]) :=
  (C80_rb_uninitialised (by decide) _).1 _

/-- The insertion panics. -/
example : run (HashTableSpec.call fun k => k) (HashTable.zeroed ⟨0, 0⟩ : HashTable Nat Nat 2 3)
    [.remove 7, .insert 1 2, .remove 1] = .error .indexOutOfBounds :=
  (C80_hash_uninitialised (by decide) (by decide) (by decide) (fun k => k) _).1 _

/-- The same history after `initialize` succeeds. -/
example : (run (HashTableSpec.call fun k => k) (HashTable.new ⟨0, 0⟩ : HashTable Nat Nat 2 3)
    [.remove 7, .insert 1 2, .remove 1]).isOk = true := by decide +kernel

/-- A push, too. -/
example : run DequeSpec.call (Deque.zeroed 0 : Deque Nat 4) [.popFront, .pushBack 1] = .error .indexOutOfBounds :=
  (C80_deque_uninitialised (by decide) 0).1 _

end Sokoban.Props
