import Verif.Proof.Mirror

/-
C110: insertions treat left and right alike, removals do not.
-/
namespace Sokoban.Props
open MapSpec Textbook
variable {K V : Type} {M : Nat}

/-- **C110**: as long as nothing is removed, a red-black tree whose keys are compared the other way round is the mirror image, colours
included. -/
theorem C110_rb_mirror (hM0 : 0 < M) (hM : M + 1 < 2 ^ 32) {o1 o2 : LinearOrder K} (ho : Reverse o1 o2) (z : RBNode K V)
    (ops : List (RedBlackSpec.TOp K V)) (hops : ∀ op ∈ ops, RedBlackSpec.Removal op = false) :
    ∃ (t1 t2 : RedBlackTree K V M) (os1 os2 : List (RedBlackSpec.TOut K V)) (T : RBTree K),
      run (callRB o1) (RedBlackTree.new z) ops = .ok (t1, os1) ∧ run (callRB o2) (RedBlackTree.new z) ops = .ok (t2, os2) ∧
      RBIs t1 SENTINEL t1.root T ∧ RBIs t2 SENTINEL t2.root T.mirror := by
  obtain ⟨t1, os1, E1, e1, h1⟩ := @RedBlackTree.run_textbook K V M o1.toOrd hM hM0 z ops
  obtain ⟨t2, os2, E2, e2, h2⟩ := @RedBlackTree.run_textbook K V M o2.toOrd hM hM0 z ops
  refine ⟨t1, t2, os1, os2, _, e1, e2, h1.is.1, ?_⟩
  rw [RBTree.fold_mirror _ o2.compare (compare_swap o1 o2 ho) M ops _ hops]
  exact h2.is.1

/-- **C110**: the same for the AVL tree. -/
theorem C110_avl_mirror (hM0 : 0 < M) (hM : M + 1 < 2 ^ 32) {o1 o2 : LinearOrder K} (ho : Reverse o1 o2) (z : AVLNode K V)
    (ops : List (Op K V)) (hops : ∀ op ∈ ops, IsRemove op = false) :
    ∃ (t1 t2 : AVLTree K V M) (os1 os2 : List (Out K V)) (T : Tree K),
      run (callAVL o1) (AVLTree.new z) ops = .ok (t1, os1) ∧ run (callAVL o2) (AVLTree.new z) ops = .ok (t2, os2) ∧
      AVLIs t1 t1.root T ∧ AVLIs t2 t2.root T.mirror := by
  obtain ⟨t1, os1, E1, e1, h1⟩ := letI := o1; AVLTree.run_textbook (M := M) hM hM0 z ops
  obtain ⟨t2, os2, E2, e2, h2⟩ := letI := o2; AVLTree.run_textbook (M := M) hM hM0 z ops
  refine ⟨t1, t2, os1, os2, _, e1, e2, h1.is.1, ?_⟩
  rw [Tree.fold_mirror _ _ (order_swap o1 o2 ho) M ops _ hops]
  exact h2.is.1

/-- **C110**: so descending insertions make a red-black tree as deep on the left as ascending ones do on the right (C108). -/
theorem C110_rb_descending [o : LinearOrder K] (hM : M + 1 < 2 ^ 32) (z : RBNode K V) (v : V) {h : Nat} (h1 : 1 ≤ h) {ks : List K}
    (hlen : ks.length + 2 = 2 ^ (h + 1)) (hs : ks.Pairwise (· > ·)) (hcap : ks.length ≤ M) :
    ∃ (t : RedBlackTree K V M) (outs : List (RedBlackSpec.TOut K V)),
      run RedBlackSpec.call (RedBlackTree.new z) (ks.map fun k => .map (.insert k v)) = .ok (t, outs) ∧
      ∀ j ≤ 2 * h, ∃ i, RedBlackSpec.walk t t.root (List.replicate j false) = .ok i ∧ (i = SENTINEL ↔ j = 2 * h) := by
  have e5 : 2 ^ 2 ≤ 2 ^ (h + 1) := Nat.pow_le_pow_right (by omega) (by omega)
  obtain ⟨t, outs, E, e, hT⟩ := RedBlackTree.run_textbook (M := M) hM (by omega) z (ks.map fun k => .map (.insert k v))
  obtain ⟨hsp, _⟩ := @RBTree.ascend K V (rev o) M v ks [] .leaf rfl hs
    (by simpa [RBTree.keys] using hcap)
  rw [RBTree.next_all h _ hlen] at hsp
  have hn := hsp.spine
  refine ⟨t, outs, e, fun j hj => ?_⟩
  have hm := RBTree.fold_mirror compare (rev o).compare (compare_swap o (rev o) (reverse_rev o)) M
    (ks.map fun k => (.map (.insert k v) : RedBlackSpec.TOp K V)) .leaf (by simp [RedBlackSpec.Removal])
  have hn' : ((ks.map fun k => (.map (.insert k v) : RedBlackSpec.TOp K V)).foldl (RBTree.step compare M) .leaf).mirror.spine = 2 * h := by
    rw [hm]; exact hn
  have := RedBlackTree.walk_left hT.is.1 j (by rw [hn']; exact hj)
  rw [hn'] at this
  exact this

/-- **C110**: and descending insertions make a perfect AVL tree, as ascending ones do (C109). -/
theorem C110_avl_descending [o : LinearOrder K] (hM0 : 0 < M) (hM : M + 1 < 2 ^ 32) (z : AVLNode K V) (v : V) {h : Nat} {ks : List K}
    (hlen : ks.length + 1 = 2 ^ h) (hs : ks.Pairwise (· > ·)) (hcap : ks.length ≤ M) :
    ∃ (t : AVLTree K V M) (outs : List (Out K V)),
      run AVLSpec.call (AVLTree.new z) (ks.map fun k => .insert k v) = .ok (t, outs) ∧
      ∀ p : List Bool, p.length ≤ h → ∃ i, AVLSpec.walk t t.root p = .ok i ∧ (i = SENTINEL ↔ p.length = h) := by
  obtain ⟨t, outs, E, e, hT⟩ := AVLTree.run_textbook (M := M) hM hM0 z (ks.map fun k => .insert k v)
  obtain ⟨e1, _⟩ := @Tree.ascend K V (rev o) M v ks .leaf hs (by simpa [Tree.keys] using hcap)
  have hm := Tree.fold_mirror order _ (order_swap o (rev o) (reverse_rev o)) M
    (ks.map fun k => (.insert k v : Op K V)) .leaf (by simp [IsRemove])
  have hp := Tree.grow_perfect h hlen
  rw [← e1] at hp
  have hp' : ((ks.map fun k => (.insert k v : Op K V)).foldl (Tree.step order M) .leaf).mirror.Perfect h := by
    rw [hm]; exact hp
  exact ⟨t, outs, e, AVLTree.walk_perfect hp'.mirror hT.is.1⟩

/-- three insertions and the removal of the root -/
def oneRemoval : List (Op Nat Nat) := [.insert 1 0, .insert 0 0, .insert 2 0, .remove 1]

/-- **C110**: removals do not treat left and right alike. In the red-black tree the key before the removed one takes its place, in the
AVL tree the key after it, in both orders. -/
theorem C110_removals (hM3 : 3 ≤ M) (hM : M + 1 < 2 ^ 32) :
    (∃ (t1 t2 : RedBlackTree Nat Nat M) (os1 os2 : List (RedBlackSpec.TOut Nat Nat)) (T1 T2 : RBTree Nat),
      run (callRB inferInstance) (RedBlackTree.new ⟨0, 0⟩) (oneRemoval.map .map) = .ok (t1, os1) ∧
      run (callRB (rev inferInstance)) (RedBlackTree.new ⟨0, 0⟩) (oneRemoval.map .map) = .ok (t2, os2) ∧
      RBIs t1 SENTINEL t1.root T1 ∧ RBIs t2 SENTINEL t2.root T2 ∧ T2 ≠ T1.mirror) ∧
    ∃ (t1 t2 : AVLTree Nat Nat M) (os1 os2 : List (Out Nat Nat)) (T1 T2 : Tree Nat),
      run (callAVL inferInstance) (AVLTree.new ⟨0, 0⟩) oneRemoval = .ok (t1, os1) ∧
      run (callAVL (rev inferInstance)) (AVLTree.new ⟨0, 0⟩) oneRemoval = .ok (t2, os2) ∧
      AVLIs t1 t1.root T1 ∧ AVLIs t2 t2.root T2 ∧ T2 ≠ T1.mirror := by
  obtain ⟨n, rfl⟩ : ∃ n, M = n + 3 := ⟨M - 3, by omega⟩
  constructor
  · obtain ⟨t1, os1, E1, e1, h1⟩ := RedBlackTree.run_textbook (M := n + 3) hM (by omega) (⟨0, 0⟩ : RBNode Nat Nat) (oneRemoval.map .map)
    obtain ⟨t2, os2, E2, e2, h2⟩ := @RedBlackTree.run_textbook Nat Nat (n + 3) (rev inferInstance).toOrd hM (by omega) ⟨0, 0⟩ (oneRemoval.map .map)
    refine ⟨t1, t2, os1, os2, .node false .leaf 0 (.node true .leaf 2 .leaf), .node false .leaf 2 (.node true .leaf 0 .leaf), e1, e2,
      h1.is.1, h2.is.1, by simp [RBTree.mirror]⟩
  · obtain ⟨t1, os1, E1, e1, h1⟩ := AVLTree.run_textbook (M := n + 3) hM (by omega) (⟨0, 0⟩ : AVLNode Nat Nat) oneRemoval
    obtain ⟨t2, os2, E2, e2, h2⟩ := run_avl (rev inferInstance) (M := n + 3) hM (by omega) (⟨0, 0⟩ : AVLNode Nat Nat) oneRemoval
    refine ⟨t1, t2, os1, os2, .node (.node .leaf 0 .leaf) 2 .leaf, .node (.node .leaf 2 .leaf) 0 .leaf, e1, e2,
      h1.is.1, h2.is.1, by simp [Tree.mirror]⟩

/-! ### examples -/

/-- every order has a reverse one -/
example : Reverse (inferInstance : LinearOrder Nat) (rev inferInstance) := reverse_rev _

/-- the mirror image of a tree that is not symmetric -/
example : ([3, 4, 7, 5].map fun k => (.map (.insert k 0) : RedBlackSpec.TOp Nat Nat)).foldl (RBTree.step compare 9) .leaf =
      .node false (.node false .leaf 3 .leaf) 4 (.node false (.node true .leaf 5 .leaf) 7 .leaf) ∧
    ([3, 4, 7, 5].map fun k => (.map (.insert k 0) : RedBlackSpec.TOp Nat Nat)).foldl (RBTree.step (rev inferInstance).compare 9) .leaf =
      .node false (.node false .leaf 7 (.node true .leaf 5 .leaf)) 4 (.node false .leaf 3 .leaf) := ⟨rfl, rfl⟩

/-- six keys in descending order: three steps to the left from the root there is a node, after four there is none -/
example : (run RedBlackSpec.call (RedBlackTree.new ⟨0, 0⟩ : RedBlackTree Nat Nat 7)
    ([13, 8, 5, 3, 2, 1].map fun k => .map (.insert k 0))).map
      (fun x => [3, 4].map fun j => RedBlackSpec.walk x.1 x.1.root (List.replicate j false)) = .ok [.ok 6, .ok 0] := by decide +kernel

end Sokoban.Props
