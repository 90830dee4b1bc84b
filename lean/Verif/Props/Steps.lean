import Verif.Proof.Steps

/-
Property theorems C78: how many iterations the loops of an iterator take over its whole life.
-/
namespace Sokoban.Props
open MapSpec
variable {K V : Type} {M : Nat}

section rb
open RedBlackSpec RedBlackTree

/-- C78 for the red-black tree: however a client mixes calls of `next` and `next_back`, there are numbers `cs` such
that the calls have the same results when the loop of each call is cut off after its number, and the numbers of
the calls of `next` add up to at most one for each entry and one for each call; likewise for `next_back`. So all
calls together take linear time, though a single one may take logarithmic time. The comparison need not be lawful.
`iter` and `iter_mut` have the same loops. -/
theorem C78_rb_iteration [Ord K] (hM0 : 0 < M) (hM : M + 1 < 2 ^ 32) (z : RBNode K V) (ops : List (TOp K V))
    {t : RedBlackTree K V M} {outs : List (TOut K V)} (hrun : run call (RedBlackTree.new z) ops = .ok (t, outs))
    (es : List End) :
    ∃ cs r, cs.map Prod.fst = es ∧
      driveWithin (Iter.nextLoop t) (Iter.nextBackLoop t) t.iter cs = .ok r ∧
      drive (Iter.nextMut t) (Iter.nextBackMut t) t.iter es = .ok r ∧
      spent .front cs ≤ t.len + es.count .front ∧ spent .back cs ≤ t.len + es.count .back := by
  obtain ⟨t0, os, E, e, h, _⟩ := RedBlackTree.run_any hM hM0 z ops
  rw [hrun] at e; cases e
  exact h.steps es

end rb

section avl
open AVLSpec AVLTree

/-- C78 for the AVL tree: likewise. -/
theorem C78_avl_iteration [LT K] [DecidableLT K] [PartialGt K] (hM0 : 0 < M) (hM : M + 1 < 2 ^ 32) (z : AVLNode K V)
    (ops : List (Op K V)) {t : AVLTree K V M} {outs : List (Out K V)}
    (hrun : run call (AVLTree.new z) ops = .ok (t, outs)) (es : List End) :
    ∃ cs r, cs.map Prod.fst = es ∧
      driveWithin (Iter.nextLoop t) (Iter.nextBackLoop t) t.iter cs = .ok r ∧
      drive (Iter.nextMut t) (Iter.nextBackMut t) t.iter es = .ok r ∧
      spent .front cs ≤ t.len + es.count .front ∧ spent .back cs ≤ t.len + es.count .back := by
  obtain ⟨t0, os, E, e, h, _⟩ := AVLTree.run_any hM hM0 z ops
  rw [hrun] at e; cases e
  exact h.steps es

end avl

section critbit
open CritbitSpec Critbit

/-- C78 for the critbit tree: likewise; a tree with `n` entries has `2 * n - 1` nodes to pass. -/
theorem C78_critbit_iteration {N : Nat} (hN : N + 1 < 2 ^ 32) (hNM : 2 * M ≤ N) (hM0 : 0 < M) (z : CritbitNode) (w : V)
    (ops : List (Op (BitVec 128) V)) {t : Critbit V N M} {outs : List (Out (BitVec 128) V)}
    (hrun : run call (Critbit.new z w) ops = .ok (t, outs)) (es : List End) :
    ∃ cs r, cs.map Prod.fst = es ∧
      driveWithin (Iter.nextLoop t) (Iter.nextBackLoop t) t.iter cs = .ok r ∧
      drive (Iter.nextMut t) (Iter.nextBackMut t) t.iter es = .ok r ∧
      spent .front cs ≤ 2 * t.len - 1 + es.count .front ∧ spent .back cs ≤ 2 * t.len - 1 + es.count .back := by
  obtain ⟨t0, os, E, m, e, h, _⟩ := Critbit.run_new hN hNM hM0 z w ops
  rw [hrun] at e; cases e
  exact h.steps es

end critbit

section hash
open HashTableSpec HashTable

/-- C78 for the hash table: the loop over empty buckets takes at most one iteration for each bucket and one for each
call, over the life of an iterator. (`next_back` has no loop; it always returns `None`.) -/
theorem C78_hash_iteration [BEq K] {B : Nat} (hB : 0 < B) (hM : M + 1 < 2 ^ 32) (hash : K → Nat) (z : HashNode K V)
    (ops : List (Op K V)) {h : HashTable K V B M} {outs : List (Out K V)}
    (hrun : run (call hash) (HashTable.new z) ops = .ok (h, outs)) (es : List End) :
    ∃ it cs r, h.iter = .ok it ∧ cs.map Prod.fst = es ∧
      driveWithin (nextWithin h) (fun _ => Iter.nextBackMut h) it cs = .ok r ∧
      drive (Iter.nextMut h) (Iter.nextBackMut h) it es = .ok r ∧
      spent .front cs ≤ B + es.count .front := by
  obtain ⟨h0, c, e, H, _⟩ := HashTable.run_any (st := True) hM ops (HashTable.new z : HashTable K V B M) (fun _ => [])
    (HashTable.new_HHeld hB hash z)
  rw [hrun] at e; cases e
  exact HashTable.steps H es

end hash

/-! ### examples -/

/-- The bound of `C78_rb_iteration` is reached: four calls of `next` on three entries take 3 + 1 + 2 + 1 = 3 + 4
iterations, and none of them can do with less. -/
example : ∃ t outs, run RedBlackSpec.call (RedBlackTree.new ⟨0, 0⟩ : RedBlackTree Nat Nat 9)
    ([1, 2, 3].map fun k => .map (.insert k k)) = .ok (t, outs) ∧ t.len = 3 ∧
    let d := fun cs => (driveWithin (RedBlackTree.Iter.nextLoop t) (RedBlackTree.Iter.nextBackLoop t) t.iter
      (cs.map fun c => (End.front, c))).map Prod.snd
    d [3, 1, 2, 1] = .ok [some 1, some 2, some 3, none] ∧
    d [2, 1, 2, 1] = .error .diverge ∧ d [3, 0, 2, 1] = .error .diverge ∧ d [3, 1, 1, 1] = .error .diverge ∧
    d [3, 1, 2, 0] = .error .diverge ∧ spent .front ([3, 1, 2, 1].map fun c => (End.front, c)) = 3 + 4 :=
  ⟨_, _, rfl, rfl, rfl, rfl, rfl, rfl, rfl, rfl⟩

/-- `C78_avl_iteration` with calls from both ends: 3 + 1 + 1 iterations at the front (bound 6), 3 + 1 at the back
(bound 5). -/
example : ∃ t outs, run AVLSpec.call (AVLTree.new ⟨0, 0⟩ : AVLTree Nat Nat 9)
    ([2, 1, 3].map fun k => .insert k k) = .ok (t, outs) ∧ t.len = 3 ∧
    (driveWithin (AVLTree.Iter.nextLoop t) (AVLTree.Iter.nextBackLoop t) t.iter
      [(.front, 3), (.back, 3), (.front, 1), (.back, 1), (.front, 1)]).map Prod.snd =
      .ok [some 2, some 3, some 1, none, none] :=
  ⟨_, _, rfl, rfl, rfl⟩

set_option maxRecDepth 100000 in
/-- `C78_critbit_iteration` on three entries, which are five nodes: four calls take 2 + 2 + 1 + 1 iterations (bound 9),
not less. -/
example : ∃ t outs, run CritbitSpec.call (Critbit.new ⟨0, 0⟩ 0 : Critbit Nat 8 4)
    ([1, 2, 3].map fun k => .insert k 7) = .ok (t, outs) ∧ t.len = 3 ∧
    let d := fun cs => (driveWithin (Critbit.Iter.nextLoop t) (Critbit.Iter.nextBackLoop t) t.iter
      (cs.map fun c => (End.front, c))).map fun r => r.2.map (Option.map Prod.snd)
    d [2, 2, 1, 1] = .ok [some 1, some 2, some 3, none] ∧ d [1, 2, 1, 1] = .error .diverge ∧
    d [2, 1, 1, 1] = .error .diverge :=
  ⟨_, _, rfl, rfl, rfl, rfl, rfl⟩

/-- `C78_hash_iteration` on five buckets, with entries in the second and the fourth: three calls take 2 + 3 + 2
iterations (bound 8), not less. -/
example : ∃ h outs it, run (HashTableSpec.call id) (HashTable.new ⟨0, 0⟩ : HashTable Nat Nat 5 9)
    [.insert 1 10, .insert 3 30] = .ok (h, outs) ∧ h.iter = .ok it ∧
    let d := fun cs => (driveWithin (HashTable.nextWithin h) (fun _ => HashTable.Iter.nextBackMut h) it
      (cs.map fun c => (End.front, c))).map Prod.snd
    d [2, 3, 2] = .ok [some 1, some 2, none] ∧ d [1, 3, 2] = .error .diverge ∧ d [2, 2, 2] = .error .diverge ∧
    d [2, 3, 1] = .error .diverge :=
  ⟨_, _, _, rfl, rfl, rfl, rfl, rfl, rfl⟩

end Sokoban.Props
