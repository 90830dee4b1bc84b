import Verif.Proof.Textbook

/-
C91: the AVL tree and the red-black tree compute the trees of the textbook algorithms of `Spec/Textbook.lean`,
whatever the comparison of keys answers.
-/
namespace Sokoban
open MapSpec Textbook
variable {K V : Type} {M : Nat}

section AVL
variable [LT K] [DecidableLT K] [PartialGt K]

/-- C91: after any history on a new AVL tree the memory below the root (keys, children, stored heights) is the tree
which the algebraic functions compute for the same calls. -/
theorem C91_avl_run (hM : M + 1 < 2 ^ 32) (hM0 : 0 < M) (z : AVLNode K V) (ops : List (Op K V)) :
    ∃ s os, run AVLSpec.call (AVLTree.new z : AVLTree K V M) ops = .ok (s, os) ∧
      AVLIs s s.root (ops.foldl (Tree.step order M) .leaf) := by
  obtain ⟨s, os, E, e, h⟩ := AVLTree.run_textbook hM hM0 z ops
  exact ⟨s, os, e, h.is.1⟩

/-- C91: the same for a single call at any moment; what the call returns is decided by the search in the algebraic
tree and by its size. -/
theorem C91_avl_step (hM : M + 1 < 2 ^ 32) (hM0 : 0 < M) (z : AVLNode K V) (ops : List (Op K V))
    {s : AVLTree K V M} {os : List (Out K V)} (hs : run AVLSpec.call (AVLTree.new z : AVLTree K V M) ops = .ok (s, os))
    {T : Tree K} (hT : AVLIs s s.root T) (op : Op K V) :
    ∃ s' o, AVLSpec.call s op = .ok (s', o) ∧ AVLIs s' s'.root (T.step order M op) ∧
      T.size = s.len ∧ Returns (fun k => T.has (order k)) (decide (T.size = M)) op o := by
  obtain ⟨s1, os1, E, e, h⟩ := AVLTree.run_textbook hM hM0 z ops
  rw [hs] at e; cases e
  have hT' := h.is.1.unique hT
  rw [hT'] at h
  obtain ⟨s', o, E', e', h', ho⟩ := h.call hM hM0 op
  exact ⟨s', o, e', h'.is.1, h.is.2.1.trans h.held.base.size.symm, ho⟩

omit [LT K] [DecidableLT K] [PartialGt K] in
/-- C91: a memory holds at most one algebraic tree. -/
theorem C91_avl_unique {t : AVLTree K V M} {i : Nat} {T T' : Tree K} (h : AVLIs t i T) (h' : AVLIs t i T') : T = T' :=
  h.unique h'

end AVL

section RedBlack
variable [Ord K]

/-- C91: after any history on a new red-black tree, `remove_root` included, the memory below the root (keys, colours,
parents, children) is the tree which the algebraic functions compute for the same calls. -/
theorem C91_redBlack_run (hM : M + 1 < 2 ^ 32) (hM0 : 0 < M) (z : RBNode K V) (ops : List (RedBlackSpec.TOp K V)) :
    ∃ s os, run RedBlackSpec.call (RedBlackTree.new z : RedBlackTree K V M) ops = .ok (s, os) ∧
      RBIs s SENTINEL s.root (ops.foldl (RBTree.step compare M) .leaf) := by
  obtain ⟨s, os, E, e, h⟩ := RedBlackTree.run_textbook hM hM0 z ops
  exact ⟨s, os, e, h.is.1⟩

/-- C91: the same for a single call at any moment; what the call returns is decided by the search in the algebraic
tree, by its size and by its root. -/
theorem C91_redBlack_step (hM : M + 1 < 2 ^ 32) (hM0 : 0 < M) (z : RBNode K V) (ops : List (RedBlackSpec.TOp K V))
    {s : RedBlackTree K V M} {os : List (RedBlackSpec.TOut K V)}
    (hs : run RedBlackSpec.call (RedBlackTree.new z : RedBlackTree K V M) ops = .ok (s, os))
    {T : RBTree K} (hT : RBIs s SENTINEL s.root T) (op : RedBlackSpec.TOp K V) :
    ∃ s' o, RedBlackSpec.call s op = .ok (s', o) ∧ RBIs s' SENTINEL s'.root (T.step compare M op) ∧
      T.size = s.len ∧ (match op with
        | .map op => ∃ o', o = .map o' ∧ Returns (fun k => T.has (compare k)) (decide (T.size = M)) op o'
        | .removeRoot => o = .root none ∧ T = .leaf ∨
            ∃ c l k v r, o = .root (some (k, v)) ∧ T = .node c l k r) := by
  obtain ⟨s1, os1, E, e, h⟩ := RedBlackTree.run_textbook hM hM0 z ops
  rw [hs] at e; cases e
  have hT' := h.is.1.unique hT
  rw [hT'] at h
  obtain ⟨s', o, E', e', h', ho⟩ := h.call hM hM0 op
  exact ⟨s', o, e', h'.is.1, h.is.2.1.trans h.held.base.size.symm, ho⟩

omit [Ord K] in
/-- C91: a memory holds at most one algebraic tree. -/
theorem C91_redBlack_unique {t : RedBlackTree K V M} {p i : Nat} {T T' : RBTree K} (h : RBIs t p i T)
    (h' : RBIs t p i T') : T = T' := h.unique h'

end RedBlack

/-! ### Concrete cases -/

section Examples

private def node (l : Tree Nat) (k : Nat) (r : Tree Nat) : Tree Nat := .node l k r
private def one (k : Nat) : Tree Nat := .node .leaf k .leaf

/-- double rotation, single rotation, removal of a node with two children, a full tree -/
private def avlOps : List (Op Nat Nat) :=
  [.insert 5 0, .insert 2 0, .insert 3 0, .insert 7 0, .insert 9 0, .insert 4 0, .insert 8 0, .insert 6 0, .insert 1 1,
    .insert 10 0, .remove 5, .remove 20, .getMut 3 (· + 1), .insert 4 6]

example : (avlOps.take 3).foldl (Tree.step order 9) .leaf = node (one 2) 3 (one 5) := rfl
example : (avlOps.take 10).foldl (Tree.step order 9) .leaf =
    node (node (node (one 1) 2 .leaf) 3 (one 4)) 5 (node (node (one 6) 7 .leaf) 8 (one 9)) := rfl
example : avlOps.foldl (Tree.step order 9) .leaf =
    node (node (node (one 1) 2 .leaf) 3 (one 4)) 6 (node (one 7) 8 (one 9)) := rfl
example : ∃ s os, run AVLSpec.call (AVLTree.new ⟨0, 0⟩ : AVLTree Nat Nat 9) avlOps = .ok (s, os) ∧
    AVLIs s s.root (node (node (node (one 1) 2 .leaf) 3 (one 4)) 6 (node (one 7) 8 (one 9))) :=
  C91_avl_run (M := 9) (by decide) (by decide) ⟨0, 0⟩ avlOps

private def red (l : RBTree Nat) (k : Nat) (r : RBTree Nat) : RBTree Nat := .node true l k r
private def black (l : RBTree Nat) (k : Nat) (r : RBTree Nat) : RBTree Nat := .node false l k r
private def nil : RBTree Nat := .leaf

private def rbOps : List (RedBlackSpec.TOp Nat Nat) :=
  ([61, 52, 85, 76, 93, 100, 87].map fun k => .map (.insert k 0)) ++ [.map (.remove 52), .removeRoot, .map (.remove 7)]

example : (rbOps.take 5).foldl (RBTree.step compare 7) .leaf =
    black (black nil 52 nil) 61 (black (red nil 76 nil) 85 (red nil 93 nil)) := rfl
example : (rbOps.take 7).foldl (RBTree.step compare 7) .leaf =
    black (black nil 52 nil) 61 (red (black nil 76 nil) 85 (black (red nil 87 nil) 93 (red nil 100 nil))) := rfl
example : (rbOps.take 8).foldl (RBTree.step compare 7) .leaf =
    black (black nil 61 (red nil 76 nil)) 85 (black (red nil 87 nil) 93 (red nil 100 nil)) := rfl
example : rbOps.foldl (RBTree.step compare 7) .leaf =
    black (black nil 61 nil) 76 (black (red nil 87 nil) 93 (red nil 100 nil)) := rfl
example : ∃ s os, run RedBlackSpec.call (RedBlackTree.new ⟨0, 0⟩ : RedBlackTree Nat Nat 7) rbOps = .ok (s, os) ∧
    RBIs s SENTINEL s.root (black (black nil 61 nil) 76 (black (red nil 87 nil) 93 (red nil 100 nil))) :=
  C91_redBlack_run (M := 7) (by decide) (by decide) ⟨0, 0⟩ rbOps

end Examples
end Sokoban
