import Verif.Spec.Uninit
import Verif.Spec.RedBlack
import Verif.Spec.AVL
import Verif.Spec.Critbit
import Verif.Spec.HashTable

/-
Calls on memory filled with zeros (helpers for C80).
-/
namespace Sokoban.Uninit
open MapSpec

theorem run_expect {S Op Out : Type} {step : S → Op → R (S × Out)} {answer : Op → Option Out} {s : S}
    (h : ∀ op, step s op = match answer op with
      | none => .error .indexOutOfBounds
      | some o => .ok (s, o)) (ops : List Op) : run step s ops = expect answer s ops := by
  induction ops with
  | nil => rfl
  | cons op ops ih =>
    unfold run expect
    rw [h op, ← ih]
    cases answer op <;> rfl

theorem drive_none {It α : Type} {next nextBack : It → R (It × Option α)} {P : It → Prop}
    (h1 : ∀ it, P it → ∃ it', next it = .ok (it', none) ∧ P it')
    (h2 : ∀ it, P it → ∃ it', nextBack it = .ok (it', none) ∧ P it') (es : List End) :
    ∀ it, P it → ∃ it', drive next nextBack it es = .ok (it', es.map fun _ => none) ∧ P it' := by
  induction es with
  | nil => intro it hp; exact ⟨it, rfl, hp⟩
  | cons e es ih =>
    intro it hp
    unfold drive
    cases e
    · obtain ⟨it1, e1, p1⟩ := h1 it hp
      obtain ⟨it2, e2, p2⟩ := ih it1 p1
      exact ⟨it2, by simp only [e1]; simp only [bind, Except.bind, e2]; rfl, p2⟩
    · obtain ⟨it1, e1, p1⟩ := h2 it hp
      obtain ⟨it2, e2, p2⟩ := ih it1 p1
      exact ⟨it2, by simp only [e1]; simp only [bind, Except.bind, e2]; rfl, p2⟩

theorem driveMut_none {S It Q V : Type} {next nextBack : S → It → R (It × Option Q)}
    {read : S → Q → R V} {write : S → Q → V → R S} {s : S} {P : It → Prop}
    (h1 : ∀ it, P it → ∃ it', next s it = .ok (it', none) ∧ P it')
    (h2 : ∀ it, P it → ∃ it', nextBack s it = .ok (it', none) ∧ P it') (es : List (End × (V → V))) :
    ∀ it, P it → ∃ it', driveMut next nextBack read write s it es = .ok (s, it', es.map fun _ => none) ∧ P it' := by
  induction es with
  | nil => intro it hp; exact ⟨it, rfl, hp⟩
  | cons e es ih =>
    rcases e with ⟨e, f⟩
    intro it hp
    unfold driveMut
    cases e
    · obtain ⟨it1, e1, p1⟩ := h1 it hp
      obtain ⟨it2, e2, p2⟩ := ih it1 p1
      exact ⟨it2, by simp only [e1]; simp only [bind, Except.bind, e2]; rfl, p2⟩
    · obtain ⟨it1, e1, p1⟩ := h2 it hp
      obtain ⟨it2, e2, p2⟩ := ih it1 p1
      exact ⟨it2, by simp only [e1]; simp only [bind, Except.bind, e2]; rfl, p2⟩

/-- `add_node` before `initialize`: the free list begins at index 0. -/
theorem addNode_zeroed {T : Type} {M N : Nat} (hM : (M + 1) % 2 ^ 32 ≠ 0) (z v : T) :
    (NodeAllocator.zeroed z : NodeAllocator T M N).addNode v = .error .indexOutOfBounds := by
  have h : ¬ 0 = (M + 1) % 2 ^ 32 := fun h => hM h.symm
  unfold NodeAllocator.addNode NodeAllocator.zeroed
  simp only [h, if_true, if_false]
  rfl

section maps
variable {S K V : Type} {A : Api S K V}

/-- A map whose calls find nothing. -/
structure Dead (A : Api S K V) (s : S) (P : A.Iter → Prop) : Prop where
  insert : ∀ k v, A.insert s k v = .error .indexOutOfBounds
  remove : ∀ k, A.remove s k = .ok (s, none)
  getMut : ∀ k, A.getMut s k = .ok none
  start : P (A.iter s)
  next : ∀ it, P it → ∃ it', A.nextMut s it = .ok (it', none) ∧ P it'
  nextBack : ∀ it, P it → ∃ it', A.nextBackMut s it = .ok (it', none) ∧ P it'

theorem Dead.run {s : S} {P : A.Iter → Prop} (h : Dead A s P) (ops : List (Op K V)) :
    run A.call s ops = expect answer s ops := by
  refine run_expect (fun op => ?_) ops
  cases op with
  | insert k v => simp only [Api.call, h.insert, answer]; rfl
  | remove k => simp only [Api.call, h.remove, answer]; rfl
  | getMut k f => simp only [Api.call, Api.getMutWrite, h.getMut, answer]; rfl
  | iterMut es =>
    obtain ⟨it, e, -⟩ := driveMut_none (read := A.read) (write := fun s r e => A.write s (A.slot r) e.2)
      h.next h.nextBack (script es) _ h.start
    simp only [Api.call, Api.iterMut, e, answer, bind, Except.bind, pure, Except.pure]
    simp [script, Function.comp_def]

end maps

theorem dead_redBlack {K V : Type} [Ord K] {M : Nat} (hM : (M + 1) % 2 ^ 32 ≠ 0) (z : RBNode K V) :
    Dead RedBlackSpec.api (RedBlackTree.zeroed z : RedBlackTree K V M)
      (fun it => it = RedBlackTree.iter (RedBlackTree.zeroed z : RedBlackTree K V M)) where
  insert k v := by
    show RedBlackTree.insert (RedBlackTree.zeroed z : RedBlackTree K V M) k v = _
    unfold RedBlackTree.insert
    simp only [RedBlackTree.zeroed, addNode_zeroed hM]
    rfl
  remove k := rfl
  getMut k := rfl
  start := rfl
  next it h := ⟨it, by subst h; rfl, h⟩
  nextBack it h := ⟨it, by subst h; rfl, h⟩

theorem dead_avl {K V : Type} [LT K] [DecidableLT K] [PartialGt K] {M : Nat} (hM : (M + 1) % 2 ^ 32 ≠ 0)
    (z : AVLNode K V) :
    Dead AVLSpec.api (AVLTree.zeroed z : AVLTree K V M)
      (fun it => it = AVLTree.iter (AVLTree.zeroed z : AVLTree K V M)) where
  insert k v := by
    show AVLTree.insert (AVLTree.zeroed z : AVLTree K V M) k v = _
    unfold AVLTree.insert
    simp only [AVLTree.zeroed, addNode_zeroed hM]
    rfl
  remove k := rfl
  getMut k := rfl
  start := rfl
  next it h := ⟨it, by subst h; rfl, h⟩
  nextBack it h := ⟨it, by subst h; rfl, h⟩

theorem dead_critbit {V : Type} {N M : Nat} (hN : (N + 1) % 2 ^ 32 ≠ 0) (z : CritbitNode) (w : V) :
    Dead CritbitSpec.api (Critbit.zeroed z w : Critbit V N M)
      (fun it => it = Critbit.iter (Critbit.zeroed z w : Critbit V N M)) where
  insert k v := by
    show Critbit.insert (Critbit.zeroed z w : Critbit V N M) k v = _
    unfold Critbit.insert Critbit.addLeaf
    simp only [Critbit.zeroed, addNode_zeroed hN]
    rfl
  remove k := rfl
  getMut k := rfl
  start := rfl
  next it h := ⟨it, by subst h; rfl, h⟩
  nextBack it h := ⟨it, by subst h; rfl, h⟩

section hash
variable {K V : Type} {B M : Nat} {hash : K → Nat} {z : HashNode K V}

theorem bucket_zeroed {b : Nat} (hb : b < B) : (HashTable.zeroed z : HashTable K V B M).bucket b = .ok SENTINEL := by
  unfold HashTable.bucket HashTable.zeroed
  simp [hb, SENTINEL]

theorem head_zeroed (hB : 0 < B) (k : K) : ∃ b < B, HashTable.bucketIndex B hash k = .ok b ∧
    (HashTable.zeroed z : HashTable K V B M).bucket b = .ok SENTINEL := by
  refine ⟨hash k % B, Nat.mod_lt _ hB, ?_, bucket_zeroed (Nat.mod_lt _ hB)⟩
  unfold HashTable.bucketIndex
  simp [Nat.pos_iff_ne_zero.mp hB]

theorem skip_zeroed (fuel : Nat) : ∀ b, b < B → B ≤ b + fuel →
    HashTable.Iter.skip (HashTable.zeroed z : HashTable K V B M) fuel ⟨b, SENTINEL⟩ = .ok (⟨B, SENTINEL⟩, true) := by
  induction fuel with
  | zero => intro b h1 h2; omega
  | succ fuel ih =>
    intro b h1 h2
    unfold HashTable.Iter.skip
    by_cases hb : b + 1 = B
    · subst hb; simp; rfl
    · simp only [ne_eq, not_true_eq_false, if_false, hb, bucket_zeroed (show b + 1 < B by omega), bind, Except.bind]
      exact ih _ (by omega) (by omega)

/-- Where the iterators of an empty table are: before the first bucket or behind the last. -/
def AtEdge (B : Nat) (it : HashTable.Iter) : Prop := it = ⟨0, SENTINEL⟩ ∨ it = ⟨B, SENTINEL⟩

theorem nextMut_zeroed (hB : 0 < B) (it : HashTable.Iter) (h : AtEdge B it) :
    ∃ it', HashTable.Iter.nextMut (HashTable.zeroed z : HashTable K V B M) it = .ok (it', none) ∧ AtEdge B it' := by
  rcases h with rfl | rfl
  · refine ⟨⟨B, SENTINEL⟩, ?_, .inr rfl⟩
    unfold HashTable.Iter.nextMut
    simp only [hB, if_true, skip_zeroed (B + 1) 0 hB (by omega), bind, Except.bind]
    rfl
  · refine ⟨⟨B, SENTINEL⟩, ?_, .inr rfl⟩
    unfold HashTable.Iter.nextMut
    simp
    rfl

theorem next_zeroed (hB : 0 < B) (it : HashTable.Iter) (h : AtEdge B it) :
    ∃ it', HashTable.Iter.next (HashTable.zeroed z : HashTable K V B M) it = .ok (it', none) ∧ AtEdge B it' := by
  rcases h with rfl | rfl
  · refine ⟨⟨B, SENTINEL⟩, ?_, .inr rfl⟩
    unfold HashTable.Iter.next
    simp only [hB, if_true, skip_zeroed (B + 1) 0 hB (by omega), bind, Except.bind]
    rfl
  · refine ⟨⟨B, SENTINEL⟩, ?_, .inr rfl⟩
    unfold HashTable.Iter.next
    simp
    rfl

theorem iter_zeroed (hB : 0 < B) : (HashTable.zeroed z : HashTable K V B M).iter = .ok ⟨0, SENTINEL⟩ := by
  unfold HashTable.iter
  simp only [bucket_zeroed hB, bind, Except.bind]
  rfl

theorem findLoop_zeroed [BEq K] (k : K) (fuel : Nat) :
    HashTable.findLoop (HashTable.zeroed z : HashTable K V B M) k (fuel + 1) SENTINEL = .ok SENTINEL := by
  unfold HashTable.findLoop
  simp
  rfl

theorem run_hashTable [BEq K] (hB : 0 < B) (hM0 : 0 < M) (hM : (M + 1) % 2 ^ 32 ≠ 0) (ops : List (Op K V)) :
    run (HashTableSpec.call hash) (HashTable.zeroed z : HashTable K V B M) ops =
      expect answer (HashTable.zeroed z) ops := by
  refine run_expect (fun op => ?_) ops
  cases op with
  | insert k v =>
    obtain ⟨b, hb, e1, e2⟩ := head_zeroed (hash := hash) (z := z) (M := M) hB k
    have e3 : ¬ (HashTable.zeroed z : HashTable K V B M).len ≥ (HashTable.zeroed z : HashTable K V B M).capacity := by
      simp only [HashTable.len, HashTable.zeroed, NodeAllocator.zeroed, HashTable.capacity]; omega
    simp only [HashTableSpec.call, HashTable.insert, e1, e2, findLoop_zeroed, bind, Except.bind, answer, ne_eq,
      not_true_eq_false, if_false, e3]
    simp only [HashTable.zeroed, addNode_zeroed hM]
  | remove k =>
    obtain ⟨b, hb, e1, e2⟩ := head_zeroed (hash := hash) (z := z) (M := M) hB k
    simp only [HashTableSpec.call, HashTable.remove, e1, e2, findLoop_zeroed, bind, Except.bind, answer, if_true]
    rfl
  | getMut k f =>
    obtain ⟨b, hb, e1, e2⟩ := head_zeroed (hash := hash) (z := z) (M := M) hB k
    simp only [HashTableSpec.call, HashTableSpec.getMutWrite, HashTable.getMut, e1, e2, findLoop_zeroed, bind,
      Except.bind, answer, if_true]
    rfl
  | iterMut es =>
    obtain ⟨it, e, -⟩ := driveMut_none (nextBack := HashTable.Iter.nextBackMut) (read := HashTableSpec.readSlot) (write := HashTableSpec.writeSlot)
      (nextMut_zeroed (z := z) (M := M) hB) (fun it h => ⟨it, rfl, h⟩) (script es) _ (.inl rfl)
    simp only [HashTableSpec.call, HashTableSpec.iterMut, iter_zeroed hB, e, answer, bind, Except.bind, pure,
      Except.pure]
    simp [script, Function.comp_def]

end hash

theorem run_deque {T : Type} {M : Nat} (hM : (M + 1) % 2 ^ 32 ≠ 0) (z : T) (ops : List (DequeSpec.Op T)) :
    run DequeSpec.call (Deque.zeroed z : Deque T M) ops = expect answerD (Deque.zeroed z) ops := by
  refine run_expect (fun op => ?_) ops
  cases op with
  | pushBack v =>
    simp only [DequeSpec.call, Deque.pushBack, Deque.zeroed, addNode_zeroed hM, answerD, bind, Except.bind]
  | pushFront v =>
    simp only [DequeSpec.call, Deque.pushFront, Deque.zeroed, addNode_zeroed hM, answerD, bind, Except.bind]
  | popBack => rfl
  | popFront => rfl
  | iterMut es =>
    obtain ⟨it, e, -⟩ := driveMut_none (s := (Deque.zeroed z : Deque T M)) (next := Deque.Iter.nextMut)
      (nextBack := Deque.Iter.nextBackMut) (read := Deque.getNode) (write := Deque.writeSlot)
      (P := fun it => it = Deque.iter (Deque.zeroed z : Deque T M))
      (fun it h => ⟨it, by subst h; rfl, h⟩) (fun it h => ⟨it, by subst h; rfl, h⟩) es _ rfl
    simp only [DequeSpec.call, DequeSpec.iterMut, e, answerD, bind, Except.bind, pure, Except.pure]
    simp [Function.comp_def]

end Sokoban.Uninit
