import Verif.Props.HashTable
import Verif.Proof.RBLaws
import Verif.Proof.AVLLaws
import Verif.Proof.CritbitLaws

/-
Property theorems C84: `Index` and `IndexMut` (`map[k]` and `map[k] = w`).
-/
namespace Sokoban.Props
open MapSpec
variable {K V : Type} {B N M : Nat}

/-- C84 for the red-black tree, after every history. For an absent key both operators panic. For a present one `map[k]`
is its value, and `map[k] = w` is the call `get_mut(k)` followed by a write, which changes this entry and no other
one. -/
theorem C84_rb_index [LinearOrder K] (hM0 : 0 < M) (hM : M + 1 < 2 ^ 32) (z : RBNode K V)
    (ops : List (RedBlackSpec.TOp K V)) {t : RedBlackTree K V M} {outs : List (RedBlackSpec.TOut K V)}
    (hrun : run RedBlackSpec.call (RedBlackTree.new z) ops = .ok (t, outs)) (k : K) :
    (t.get k = .ok none ∧ t.index k = .error .unwrapNone ∧ t.indexMut k = .error .unwrapNone) ∨
    ∃ v i, t.get k = .ok (some v) ∧ t.index k = .ok v ∧ t.indexMut k = .ok i ∧ (∃ n, t.getNode i = .ok n ∧ n.value = v) ∧
      ∀ w, ∃ t', t.setNodeValue i w = .ok t' ∧ RedBlackSpec.call t (.map (.getMut k fun _ => w)) = .ok (t', .map (.got (some v))) ∧
        t'.get k = .ok (some w) ∧ (∀ k', k' ≠ k → t'.get k' = t.get k') ∧ t'.len = t.len := by
  obtain ⟨t0, os, E, m, e, h, hm, hs⟩ := RedBlackTree.run_new hM hM0 z ops
  rw [hrun] at e; cases e
  have L := RedBlackTree.laws (K := K) (V := V) hM hM0
  rcases L.index_obs h k with ⟨e1, e2⟩ | ⟨v, i, e1, e2, e3, e4⟩
  · have e1 : t.get k = .ok none := e1
    have e2 : t.getMut k = .ok none := e2
    exact Or.inl ⟨e1, by unfold RedBlackTree.index; rw [e1]; rfl, by unfold RedBlackTree.indexMut; rw [e2]; rfl⟩
  · have e1 : t.get k = .ok (some v) := e1
    have e2 : t.getMut k = .ok (some i) := e2
    refine Or.inr ⟨v, i, e1, by unfold RedBlackTree.index; rw [e1]; rfl, by unfold RedBlackTree.indexMut; rw [e2]; rfl, ?_, fun w => ?_⟩
    · cases hn : t.getNode i with
      | error p => simp [RedBlackSpec.api, hn] at e3
      | ok n => exact ⟨n, rfl, by simpa [RedBlackSpec.api, hn] using e3⟩
    · obtain ⟨t', f1, f2, f3, f4, f5⟩ := e4 w
      refine ⟨t', f1, ?_, f3, f4, f5⟩
      simp only [RedBlackSpec.call, f2]; rfl

/-- C84 for the AVL tree, after every history. For an absent key both operators panic. For a present one `map[k]`
is its value, and `map[k] = w` is the call `get_mut(k)` followed by a write, which changes this entry and no other
one. -/
theorem C84_avl_index [LinearOrder K] (hM0 : 0 < M) (hM : M + 1 < 2 ^ 32) (z : AVLNode K V)
    (ops : List (Op K V)) {t : AVLTree K V M} {outs : List (Out K V)}
    (hrun : run AVLSpec.call (AVLTree.new z) ops = .ok (t, outs)) (k : K) :
    (t.get k = .ok none ∧ t.index k = .error .unwrapNone ∧ t.indexMut k = .error .unwrapNone) ∨
    ∃ v i, t.get k = .ok (some v) ∧ t.index k = .ok v ∧ t.indexMut k = .ok i ∧ (∃ n, t.getNode i = .ok n ∧ n.value = v) ∧
      ∀ w, ∃ t', t.setNodeValue i w = .ok t' ∧ AVLSpec.call t (.getMut k fun _ => w) = .ok (t', .got (some v)) ∧
        t'.get k = .ok (some w) ∧ (∀ k', k' ≠ k → t'.get k' = t.get k') ∧ t'.len = t.len := by
  obtain ⟨t0, os, E, m, e, h, hm, hs⟩ := AVLTree.run_new hM hM0 z ops
  rw [hrun] at e; cases e
  have L := AVLTree.laws (K := K) (V := V) hM hM0
  rcases L.index_obs h k with ⟨e1, e2⟩ | ⟨v, i, e1, e2, e3, e4⟩
  · have e1 : t.get k = .ok none := e1
    have e2 : t.getMut k = .ok none := e2
    exact Or.inl ⟨e1, by unfold AVLTree.index; rw [e1]; rfl, by unfold AVLTree.indexMut; rw [e2]; rfl⟩
  · have e1 : t.get k = .ok (some v) := e1
    have e2 : t.getMut k = .ok (some i) := e2
    refine Or.inr ⟨v, i, e1, by unfold AVLTree.index; rw [e1]; rfl, by unfold AVLTree.indexMut; rw [e2]; rfl, ?_, fun w => ?_⟩
    · cases hn : t.getNode i with
      | error p => simp [AVLSpec.api, hn] at e3
      | ok n => exact ⟨n, rfl, by simpa [AVLSpec.api, hn] using e3⟩
    · obtain ⟨t', f1, f2, f3, f4, f5⟩ := e4 w
      refine ⟨t', f1, ?_, f3, f4, f5⟩
      exact f2

/-- C84 for `Critbit`, after every history. For an absent key both operators panic. For a present one `map[k]`
is its value, and `map[k] = w` is the call `get_mut(k)` followed by a write, which changes this entry and no other
one. -/
theorem C84_critbit_index  (hM0 : 0 < M) (hNM : 2 * M ≤ N) (hN : N + 1 < 2 ^ 32) (z : CritbitNode) (w0 : V)
    (ops : List (Op (BitVec 128) V)) {t : Critbit V N M} {outs : List (Out (BitVec 128) V)}
    (hrun : run CritbitSpec.call (Critbit.new z w0) ops = .ok (t, outs)) (k : BitVec 128) :
    (t.get k = .ok none ∧ t.index k = .error .unwrapNone ∧ t.indexMut k = .error .unwrapNone) ∨
    ∃ v i, t.get k = .ok (some v) ∧ t.index k = .ok v ∧ t.indexMut k = .ok i ∧ t.getLeaf i = .ok v ∧
      ∀ w, ∃ t', t.replaceLeaf i w = .ok t' ∧ CritbitSpec.call t (.getMut k fun _ => w) = .ok (t', .got (some v)) ∧
        t'.get k = .ok (some w) ∧ (∀ k', k' ≠ k → t'.get k' = t.get k') ∧ t'.len = t.len := by
  obtain ⟨t0, os, E, m, e, h, hm, hs⟩ := Critbit.run_new hN hNM hM0 z w0 ops
  rw [hrun] at e; cases e
  have L := Critbit.laws (V := V) hN hNM hM0
  rcases L.index_obs h k with ⟨e1, e2⟩ | ⟨v, i, e1, e2, e3, e4⟩
  · have e1 : t.get k = .ok none := e1
    have e2 : t.getMut k = .ok none := e2
    exact Or.inl ⟨e1, by unfold Critbit.index; rw [e1]; rfl, by unfold Critbit.indexMut; rw [e2]; rfl⟩
  · have e1 : t.get k = .ok (some v) := e1
    have e2 : t.getMut k = .ok (some i) := e2
    refine Or.inr ⟨v, i, e1, by unfold Critbit.index; rw [e1]; rfl, by unfold Critbit.indexMut; rw [e2]; rfl, ?_, fun w => ?_⟩
    · exact e3
    · obtain ⟨t', f1, f2, f3, f4, f5⟩ := e4 w
      refine ⟨t', f1, ?_, f3, f4, f5⟩
      exact f2

/-- C84 for the hash table: as for the others, but `index_mut` changes the order of the bucket as `get_mut` does
(C66), so `map[k] = w` is again the call `get_mut(k)` followed by a write. -/
theorem C84_hash_index [DecidableEq K] (hB : 0 < B) (hM : M + 1 < 2 ^ 32) (hash : K → Nat) (z : HashNode K V)
    (ops : List (Op K V)) {t : HashTable K V B M} {outs : List (Out K V)}
    (hrun : run (HashTableSpec.call hash) (HashTable.new z) ops = .ok (t, outs)) (k : K) :
    (t.get hash k = .ok none ∧ t.index hash k = .error .unwrapNone ∧ t.indexMut hash k = .error .unwrapNone) ∨
    ∃ v i t1, t.get hash k = .ok (some v) ∧ t.index hash k = .ok v ∧ t.indexMut hash k = .ok (t1, i) ∧
      t1.getNode i = .ok ⟨k, v⟩ ∧
      ∀ w, ∃ t', t1.setNodeValue i w = .ok t' ∧
        HashTableSpec.call hash t (.getMut k fun _ => w) = .ok (t', .got (some v)) ∧
        t'.get hash k = .ok (some w) ∧ (∀ k', k' ≠ k → t'.get hash k' = t.get hash k') ∧ t'.len = t.len := by
  rcases C18_hash_get_mut hB hM hash z ops hrun k with ⟨e1, e2⟩ | ⟨t1, i, v, e1, e2, e3, _, _, _, e4⟩
  · exact Or.inl ⟨e1, by unfold HashTable.index; rw [e1]; rfl, by unfold HashTable.indexMut; rw [e2]; rfl⟩
  · refine Or.inr ⟨v, i, t1, e1, by unfold HashTable.index; rw [e1]; rfl, by unfold HashTable.indexMut; rw [e2]; rfl,
      e3, fun w => ?_⟩
    obtain ⟨t', f1, f2, f3, f4⟩ := e4 w
    refine ⟨t', f1, ?_, f2, f4, f3⟩
    simp only [HashTableSpec.call, HashTableSpec.getMutWrite, e2, e3, f1, bind, Except.bind]
    rfl

/-- A present and an absent key. -/
example : (do
    let (t, _) ← run AVLSpec.call (AVLTree.new ⟨0, 0⟩ : AVLTree Nat Nat 4) [.insert 1 10, .insert 2 20]
    let i ← t.indexMut 2
    let t ← t.setNodeValue i 21
    .ok (← t.index 1, ← t.index 2, match t.indexMut 3 with | .error .unwrapNone => true | _ => false)) =
      (.ok (10, 21, true) : R (Nat × Nat × Bool)) := by decide +kernel

end Sokoban.Props
