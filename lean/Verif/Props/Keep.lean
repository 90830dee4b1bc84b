import Verif.Proof.KeepInsert
import Verif.Spec.Keep
import Verif.Spec.RedBlack
import Verif.Spec.AVL
import Verif.Spec.HashTable
import Verif.Spec.Critbit
import Verif.Spec.Deque

/-
C70: what the calls may write. Nothing here assumes that the structure was built by the API, that the order of
keys is an order, or that the equality of keys is an equality.
-/
namespace Sokoban.Props
open KeepSpec NodeAllocator

section RB
variable {K V : Type} [Ord K] {M : Nat}

/-- **C70**, red-black tree: `remove` and `remove_root` change the contents of no slot; `insert` changes at most
the slot that it returns, where it leaves the value given, and either the key given or the key that was there. -/
theorem C70_rb_writes (t t' : RedBlackTree K V M) :
    (∀ k r, t.remove k = .ok (t', r) → ∀ i, t'.getNode i = t.getNode i) ∧
    (∀ r, t.removeRoot = .ok (t', r) → ∀ i, t'.getNode i = t.getNode i) ∧
    (∀ k v r, t.insert k v = .ok (t', r) → (∀ i, r ≠ some i → t'.getNode i = t.getNode i) ∧
      ∀ i, r = some i → ∃ n, t'.getNode i = .ok n ∧ n.value = v ∧
        (n.key = k ∨ ∃ o, t.getNode i = .ok o ∧ n.key = o.key)) := by
  have h0 : Kept.ok (Frame.vals t.allocator.val?) t := fun _ => rfl
  refine ⟨fun k r e i => getValue_eq ((RedBlackTree.keep_remove h0 _ e).1 i),
    fun r e i => getValue_eq ((RedBlackTree.keep_removeRoot h0 _ e).1 i), fun k v r e => ?_⟩
  obtain ⟨g, hg, h1, h2⟩ := RedBlackTree.off_insert h0 _ _ e
  refine ⟨fun i hi => getValue_eq ((hg i).trans (h1 i hi)), fun i hi => ?_⟩
  obtain ⟨n, hn, hv, hk⟩ := h2 i hi
  refine ⟨n, getValue_of_val ((hg i).trans hn), hv, hk.imp id ?_⟩
  rintro ⟨o, ho, hk⟩
  exact ⟨o, getValue_of_val ho, hk⟩

/-- **C70**, red-black tree: whatever is read with `get_node(i)` is read again after any further calls, the entry
removed or not, until slot `i` is handed out. -/
theorem C70_rb_remains {t t' : RedBlackTree K V M} {L : List Nat} (h : Hist RBStep t L t') (i : Nat) (hi : i ∉ L) :
    t'.getNode i = t.getNode i := by
  induction h with
  | nil => rfl
  | cons hs _ ih =>
    rw [List.mem_append, not_or] at hi
    rw [ih hi.2]
    cases hs with
    | insert e => exact ((C70_rb_writes _ _).2.2 _ _ _ e).1 i (fun e => hi.1 (by rw [e]; simp))
    | remove e => exact (C70_rb_writes _ _).1 _ _ e i
    | removeRoot e => exact (C70_rb_writes _ _).2.1 _ e i
    | write e =>
      obtain ⟨n, _, hg⟩ := RedBlackTree.kept_setNodeValue (fun _ => rfl) e
      exact getValue_eq ((hg i).trans (if_neg fun e => hi.1 (by rw [e]; simp)))
end RB


section AVL
variable {K V : Type} [LT K] [DecidableLT K] [PartialGt K] {M : Nat}

/-- **C70**, AVL tree. -/
theorem C70_avl_writes (t t' : AVLTree K V M) :
    (∀ k r, t.remove k = .ok (t', r) → ∀ i, t'.getNode i = t.getNode i) ∧
    (∀ k v r, t.insert k v = .ok (t', r) → (∀ i, r ≠ some i → t'.getNode i = t.getNode i) ∧
      ∀ i, r = some i → ∃ n, t'.getNode i = .ok n ∧ n.value = v ∧
        (n.key = k ∨ ∃ o, t.getNode i = .ok o ∧ n.key = o.key)) := by
  have h0 : Kept.ok (Frame.vals t.allocator.val?) t := fun _ => rfl
  refine ⟨fun k r e i => getValue_eq ((AVLTree.keep_remove h0 _ e).1 i), fun k v r e => ?_⟩
  obtain ⟨g, hg, h1, h2⟩ := AVLTree.off_insert h0 _ _ e
  refine ⟨fun i hi => getValue_eq ((hg i).trans (h1 i hi)), fun i hi => ?_⟩
  obtain ⟨n, hn, hv, hk⟩ := h2 i hi
  refine ⟨n, getValue_of_val ((hg i).trans hn), hv, hk.imp id ?_⟩
  rintro ⟨o, ho, hk⟩
  exact ⟨o, getValue_of_val ho, hk⟩

/-- **C70**, AVL tree. -/
theorem C70_avl_remains {t t' : AVLTree K V M} {L : List Nat} (h : Hist AVLStep t L t') (i : Nat) (hi : i ∉ L) :
    t'.getNode i = t.getNode i := by
  induction h with
  | nil => rfl
  | cons hs _ ih =>
    rw [List.mem_append, not_or] at hi
    rw [ih hi.2]
    cases hs with
    | insert e => exact ((C70_avl_writes _ _).2 _ _ _ e).1 i (fun e => hi.1 (by rw [e]; simp))
    | remove e => exact (C70_avl_writes _ _).1 _ _ e i
    | write e =>
      obtain ⟨n, _, hg⟩ := AVLTree.kept_setNodeValue (fun _ => rfl) e
      exact getValue_eq ((hg i).trans (if_neg fun e => hi.1 (by rw [e]; simp)))
end AVL

section Hash
variable {K V : Type} [BEq K] {B M : Nat} (hash : K → Nat)

/-- **C70**, hash table; `get_mut` moves the entry in its chain and changes the contents of no slot. -/
theorem C70_hash_writes (t t' : HashTable K V B M) :
    (∀ k r, t.remove hash k = .ok (t', r) → ∀ i, t'.getNode i = t.getNode i) ∧
    (∀ k r, t.getMut hash k = .ok (t', r) → ∀ i, t'.getNode i = t.getNode i) ∧
    (∀ k v r, t.insert hash k v = .ok (t', r) → (∀ i, r ≠ some i → t'.getNode i = t.getNode i) ∧
      ∀ i, r = some i → ∃ n, t'.getNode i = .ok n ∧ n.value = v ∧
        (n.key = k ∨ ∃ o, t.getNode i = .ok o ∧ n.key = o.key)) := by
  have h0 : Kept.ok (Frame.vals t.allocator.val?) t := fun _ => rfl
  refine ⟨fun k r e i => getValue_eq ((HashTable.keep_remove h0 _ e).1 i),
    fun k r e i => getValue_eq ((HashTable.keep_getMut h0 _ e).1 i), fun k v r e => ?_⟩
  obtain ⟨g, hg, h1, h2⟩ := HashTable.off_insert h0 _ _ e
  refine ⟨fun i hi => getValue_eq ((hg i).trans (h1 i hi)), fun i hi => ?_⟩
  obtain ⟨n, hn, hv, hk⟩ := h2 i hi
  refine ⟨n, getValue_of_val ((hg i).trans hn), hv, hk.imp id ?_⟩
  rintro ⟨o, ho, hk⟩
  exact ⟨o, getValue_of_val ho, hk⟩

variable {hash} in
/-- **C70**, hash table. -/
theorem C70_hash_remains {t t' : HashTable K V B M} {L : List Nat} (h : Hist (HashStep hash) t L t') (i : Nat) (hi : i ∉ L) :
    t'.getNode i = t.getNode i := by
  induction h with
  | nil => rfl
  | cons hs _ ih =>
    rw [List.mem_append, not_or] at hi
    rw [ih hi.2]
    cases hs with
    | insert e => exact ((C70_hash_writes hash _ _).2.2 _ _ _ e).1 i (fun e => hi.1 (by rw [e]; simp))
    | remove e => exact (C70_hash_writes hash _ _).1 _ _ e i
    | getMut e => exact (C70_hash_writes hash _ _).2.1 _ _ e i
    | write e =>
      obtain ⟨n, _, hg⟩ := HashTable.kept_setNodeValue (fun _ => rfl) e
      exact getValue_eq ((hg i).trans (if_neg fun e => hi.1 (by rw [e]; simp)))
end Hash

/-- **C70**, critbit tree: `remove` changes no leaf value; `insert` changes at most one, which it sets to the value
given, and none when it returns `None`. -/
theorem C70_critbit_writes {V : Type} {N M : Nat} (t t' : Critbit V N M) :
    (∀ k r, t.remove k = .ok (t', r) → ∀ j, t'.getLeaf j = t.getLeaf j) ∧
    (∀ k v, t.insert k v = .ok (t', none) → ∀ j, t'.getLeaf j = t.getLeaf j) ∧
    (∀ k v n, t.insert k v = .ok (t', some n) →
      ∃ j, (∀ i, i ≠ j → t'.getLeaf i = t.getLeaf i) ∧ t'.getLeaf j = .ok v) := by
  have h0 : Kept.ok (Frame.vals t.leaves.val?) t := fun _ => rfl
  refine ⟨fun k r e i => getValue_eq ((Critbit.keep_remove h0 _ e).1 i), fun k v e i => ?_, fun k v n e => ?_⟩
  · rcases Critbit.off_insert h0 _ _ e with ⟨_, h⟩ | ⟨h, _⟩
    · exact getValue_eq (h i)
    · exact absurd rfl h
  · rcases Critbit.off_insert h0 _ _ e with ⟨h, _⟩ | ⟨_, j, h⟩
    · cases h
    · exact ⟨j, fun i hi => getValue_eq ((h i).trans (if_neg hi)), getValue_of_val ((h j).trans (if_pos rfl))⟩

/-- **C70**, deque: `pop_front` and `pop_back` change the contents of no slot, `push_front` and `push_back` of one,
which they set to the value given. -/
theorem C70_deque_writes {T : Type} {M : Nat} (d d' : Deque T M) :
    (∀ r, d.popFront = .ok (d', r) → ∀ i, d'.getNode i = d.getNode i) ∧
    (∀ r, d.popBack = .ok (d', r) → ∀ i, d'.getNode i = d.getNode i) ∧
    (∀ v, d.pushFront v = .ok d' ∨ d.pushBack v = .ok d' →
      ∃ j, (∀ i, i ≠ j → d'.getNode i = d.getNode i) ∧ d'.getNode j = .ok v) := by
  have h0 : Kept.ok (Frame.vals d.allocator.val?) d := fun _ => rfl
  refine ⟨fun r e i => getValue_eq ((Deque.keep_popFront h0 _ e).1 i),
    fun r e i => getValue_eq ((Deque.keep_popBack h0 _ e).1 i), fun v e => ⟨d.allocator.freeListHead, ?_⟩⟩
  have h : Kept.ok (Frame.vals (updAt d.allocator.val? d.allocator.freeListHead v)) d' :=
    e.elim (Deque.kept_pushFront h0) (Deque.kept_pushBack h0)
  exact ⟨fun i hi => getValue_eq ((h i).trans (if_neg hi)), getValue_of_val ((h _).trans (if_pos rfl))⟩

/-- **C70**, allocator: `remove_node`, `connect`, `disconnect`, `set_register` and `clear_register` change no value;
`add_node` changes the value of the slot that it returns only. -/
theorem C70_alloc_writes {T : Type} {M N : Nat} (a a' : NodeAllocator T M N) :
    (∀ i r, a.removeNode i = .ok (a', r) → ∀ j, a'.getValue j = a.getValue j) ∧
    (∀ i j p q, a.connect i j p q = .ok a' ∨ a.disconnect i j p q = .ok a' ∨ a.setRegister i j p = .ok a' ∨
      a.clearRegister i p = .ok a' → ∀ j, a'.getValue j = a.getValue j) ∧
    (∀ v i, a.addNode v = .ok (a', i) → (∀ j, j ≠ i → a'.getValue j = a.getValue j) ∧ a'.getValue i = .ok v) := by
  have h0 : Kept.ok (Frame.vals a.val?) a := fun _ => rfl
  refine ⟨fun i r e j => getValue_eq ((keep_removeNode h0 _ e).1 j), fun i j p q e l => ?_, fun v i e => ?_⟩
  · rcases e with e | e | e | e
    · exact getValue_eq (keep_connect h0 _ e l)
    · exact getValue_eq (keep_disconnect h0 _ e l)
    · exact getValue_eq (keep_setRegister h0 _ e l)
    · exact getValue_eq (keep_clearRegister h0 _ e l)
  · have h := (vals_addNode e).2.2
    exact ⟨fun j hj => getValue_eq ((h j).trans (if_neg hj)), getValue_of_val ((h i).trans (if_pos rfl))⟩

/-! Cases -/

/-- A removed entry of a red-black tree is read by `get_node` after two further calls, and gone when the slot is
handed out again. -/
example : ∃ t t1 t2 t3 outs, run RedBlackSpec.call (RedBlackTree.new ⟨0, 0⟩ : RedBlackTree Nat Nat 8)
    [.map (.insert 5 50), .map (.insert 3 30), .map (.insert 8 80), .map (.insert 9 90)] = .ok (t, outs) ∧
    t.getAddr 8 = .ok 3 ∧ t.remove 8 = .ok (t1, some 80) ∧ t1.contains 8 = .ok false ∧
    t1.remove 5 = .ok (t2, some 50) ∧ Hist RBStep t [] t2 ∧ t2.getNode 3 = .ok ⟨8, 80⟩ ∧
    t2.insert 7 70 = .ok (t3, some 1) ∧ Hist RBStep t [1] t3 ∧ t3.getNode 3 = .ok ⟨8, 80⟩ ∧ t3.getNode 1 = .ok ⟨7, 70⟩ := by
  obtain ⟨t, t1, t2, t3, outs, h1, h2, h3, h4, h5, h6, h7, h8, h9⟩ : ∃ t t1 t2 t3 outs,
      run RedBlackSpec.call (RedBlackTree.new ⟨0, 0⟩ : RedBlackTree Nat Nat 8)
      [.map (.insert 5 50), .map (.insert 3 30), .map (.insert 8 80), .map (.insert 9 90)] = .ok (t, outs) ∧
      t.getAddr 8 = .ok 3 ∧ t.remove 8 = .ok (t1, some 80) ∧ t1.contains 8 = .ok false ∧
      t1.remove 5 = .ok (t2, some 50) ∧ t2.getNode 3 = .ok ⟨8, 80⟩ ∧
      t2.insert 7 70 = .ok (t3, some 1) ∧ t3.getNode 3 = .ok ⟨8, 80⟩ ∧ t3.getNode 1 = .ok ⟨7, 70⟩ :=
    ⟨_, _, _, _, _, rfl, rfl, rfl, rfl, rfl, rfl, rfl, rfl, rfl⟩
  exact ⟨t, t1, t2, t3, outs, h1, h2, h3, h4, h5, .cons (L := []) (RBStep.remove h3) (.cons (L := []) (RBStep.remove h5) .nil),
    h6, h7, .cons (L := []) (RBStep.remove h3) (.cons (L := []) (RBStep.remove h5) (.cons (L := [1]) (RBStep.insert h7) .nil)), h8, h9⟩

/-- `C70_avl_remains` likewise. -/
example : ∃ t t1 t2 outs, run AVLSpec.call (AVLTree.new ⟨0, 0⟩ : AVLTree Nat Nat 8)
    [.insert 5 50, .insert 3 30, .insert 8 80, .insert 9 90] = .ok (t, outs) ∧
    t.getAddr 8 = .ok 3 ∧ t.remove 8 = .ok (t1, some 80) ∧ t1.contains 8 = .ok false ∧
    t1.remove 5 = .ok (t2, some 50) ∧ Hist AVLStep t [] t2 ∧ t2.getNode 3 = .ok ⟨8, 80⟩ ∧ t2.getNode 1 = .ok ⟨5, 50⟩ := by
  obtain ⟨t, t1, t2, outs, h1, h2, h3, h4, h5, h6, h7⟩ : ∃ t t1 t2 outs,
      run AVLSpec.call (AVLTree.new ⟨0, 0⟩ : AVLTree Nat Nat 8)
      [.insert 5 50, .insert 3 30, .insert 8 80, .insert 9 90] = .ok (t, outs) ∧
      t.getAddr 8 = .ok 3 ∧ t.remove 8 = .ok (t1, some 80) ∧ t1.contains 8 = .ok false ∧
      t1.remove 5 = .ok (t2, some 50) ∧ t2.getNode 3 = .ok ⟨8, 80⟩ ∧ t2.getNode 1 = .ok ⟨5, 50⟩ :=
    ⟨_, _, _, _, rfl, rfl, rfl, rfl, rfl, rfl, rfl⟩
  exact ⟨t, t1, t2, outs, h1, h2, h3, h4, h5, .cons (L := []) (AVLStep.remove h3) (.cons (L := []) (AVLStep.remove h5) .nil), h6, h7⟩

/-- `C70_hash_remains` with a `get_mut` that reorders the chain. -/
example : ∃ t t1 t2 outs, run (HashTableSpec.call (fun k => k)) (HashTable.new ⟨0, 0⟩ : HashTable Nat Nat 2 4)
    [.insert 1 10, .insert 3 30, .insert 5 50] = .ok (t, outs) ∧
    t.getAddr (fun k => k) 3 = .ok 2 ∧ t.remove (fun k => k) 3 = .ok (t1, some 30) ∧ t1.contains (fun k => k) 3 = .ok false ∧
    t1.getMut (fun k => k) 1 = .ok (t2, some 1) ∧ Hist (HashStep fun k => k) t [] t2 ∧ t2.getNode 2 = .ok ⟨3, 30⟩ := by
  obtain ⟨t, t1, t2, outs, h1, h2, h3, h4, h5, h6⟩ : ∃ t t1 t2 outs,
      run (HashTableSpec.call (fun k => k)) (HashTable.new ⟨0, 0⟩ : HashTable Nat Nat 2 4)
      [.insert 1 10, .insert 3 30, .insert 5 50] = .ok (t, outs) ∧
      t.getAddr (fun k => k) 3 = .ok 2 ∧ t.remove (fun k => k) 3 = .ok (t1, some 30) ∧ t1.contains (fun k => k) 3 = .ok false ∧
      t1.getMut (fun k => k) 1 = .ok (t2, some 1) ∧ t2.getNode 2 = .ok ⟨3, 30⟩ :=
    ⟨_, _, _, _, rfl, rfl, rfl, rfl, rfl, rfl⟩
  exact ⟨t, t1, t2, outs, h1, h2, h3, h4, h5,
    .cons (L := []) (HashStep.remove h3) (.cons (L := []) (HashStep.getMut h5) .nil), h6⟩

set_option maxRecDepth 100000 in
/-- `C70_critbit_writes`: the leaf value of a removed key is still there. -/
example : ∃ t t1 outs, run CritbitSpec.call (Critbit.new ⟨0, 0⟩ 0 : Critbit Nat 8 4)
    [.insert 5 50, .insert 4 40, .insert (1 <<< 127) 90] = .ok (t, outs) ∧ t.getMut 4 = .ok (some 2) ∧
    t.remove 4 = .ok (t1, some 40) ∧ t1.get 4 = .ok none ∧ t1.getLeaf 2 = .ok 40 :=
  ⟨_, _, _, rfl, rfl, rfl, rfl, rfl⟩

/-- `C70_deque_writes`: the value popped is still in its slot. -/
example : ∃ d d1 outs, run DequeSpec.call (Deque.new 0 : Deque Nat 4) [.pushBack 7, .pushBack 8] = .ok (d, outs) ∧
    d.popFront = .ok (d1, some 7) ∧ d1.len = 1 ∧ d1.getNode 1 = .ok 7 :=
  ⟨_, _, _, rfl, rfl, rfl, rfl⟩

end Sokoban.Props
