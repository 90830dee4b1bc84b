import Verif.Proof.RBFull

/-
C107: a full red-black tree has a red node, so that not every red-black tree occurs.
-/
namespace Sokoban.Props
open MapSpec RedBlackSpec RedBlackTree Textbook

/-- **C107**: whatever calls were made on a new tree of capacity at least 2, when it is full one of its nodes is red. -/
theorem C107_rb_full_red {K V : Type} [LinearOrder K] {M : Nat} (hM2 : 2 ≤ M) (hM : M + 1 < 2 ^ 32) (z : RBNode K V)
    (ops : List (TOp K V)) {t : RedBlackTree K V M} {outs : List (TOut K V)}
    (hrun : run call (RedBlackTree.new z) ops = .ok (t, outs)) (hfull : t.len = M) : ∃ k, Coloured t k RED := by
  obtain ⟨T, E, hT, hr⟩ := new_full hM hM2 z ops hrun
  obtain ⟨t0, os, E0, m, e, h, _⟩ := RedBlackTree.run_new hM (by omega) z ops
  rw [hrun] at e; cases e
  obtain ⟨T0, _, hT0, _⟩ := h.colours
  have e0 : T0 = T := hT0.is.1.unique hT.is.1
  subst e0
  exact h.red hT0 (hr (by rw [hT0.is.2.1, ← hfull]; exact h.base.size.symm))

/-- **C107**: so no history makes a tree of `MAX_SIZE` black nodes, whatever the comparison of keys answers, although such a tree
can meet the conditions of red-black trees; of AVL trees there is no such exception (`C103_avl_shapes`). -/
theorem C107_rb_never {K V : Type} [Ord K] {M : Nat} (hM2 : 2 ≤ M) (hM : M + 1 < 2 ^ 32) (z : RBNode K V)
    (ops : List (TOp K V)) {t : RedBlackTree K V M} {outs : List (TOut K V)}
    (hrun : run call (RedBlackTree.new z) ops = .ok (t, outs)) {T : RBTree K} (hs : T.size = M) (hb : T.AllBlack) :
    ¬ RBIs t SENTINEL t.root T := by
  intro hT
  obtain ⟨T0, E, hT0, hr⟩ := new_full hM hM2 z ops hrun
  have e0 : T0 = T := hT0.is.1.unique hT
  subst e0
  exact T0.not_red hb (hr hs)

/-- **C107**: a tree of two or more nodes without a red node is the work of removals: as long as there was none, a tree with at
least two keys has a red node, full or not. -/
theorem C107_rb_without_removals {K V : Type} [LinearOrder K] {M : Nat} (hM0 : 0 < M) (hM : M + 1 < 2 ^ 32) (z : RBNode K V)
    (ops : List (TOp K V)) (hops : ∀ op ∈ ops, Removal op = false) {t : RedBlackTree K V M} {outs : List (TOut K V)}
    (hrun : run call (RedBlackTree.new z) ops = .ok (t, outs)) (h2 : 2 ≤ t.len) : ∃ k, Coloured t k RED := by
  obtain ⟨s, os1, E, e1, hT⟩ := run_textbook (M := M) hM hM0 z ops
  rw [hrun] at e1; cases e1
  obtain ⟨t0, os, E0, m, e, h, _⟩ := RedBlackTree.run_new hM hM0 z ops
  rw [hrun] at e; cases e
  obtain ⟨T0, _, hT0, _⟩ := h.colours
  have e0 : T0 = ops.foldl (RBTree.step compare M) .leaf := hT0.is.1.unique hT.is.1
  refine h.red hT0 ?_
  have hs : T0.size = t.len := by rw [hT0.is.2.1]; exact h.base.size.symm
  rw [e0] at hs ⊢
  exact run_grown hM hM0 ops (HeldT.new z) (fun q => absurd q (by simp [RBTree.size])) hops (by omega)

/-! ### examples -/

/-- the tree of the keys 0, 1, 2 with black nodes -/
def black3 : RBTree Nat := .node false (.node false .leaf 0 .leaf) 1 (.node false .leaf 2 .leaf)

/-- in a tree of capacity 4 it occurs, after an insertion and a removal -/
def black3Ops : List (TOp Nat Nat) := (List.range 4).map (fun k => .map (.insert k 0)) ++ [.map (.remove 3)]

example : black3.AllBlack ∧ black3.size = 3 ∧ black3Ops.foldl (RBTree.step compare 4) .leaf = black3 :=
  ⟨by simp [black3, RBTree.AllBlack], rfl, rfl⟩

example : ∃ s os, run RedBlackSpec.call (RedBlackTree.new ⟨0, 0⟩ : RedBlackTree Nat Nat 4) black3Ops = .ok (s, os) ∧
    RBIs s SENTINEL s.root black3 := by
  obtain ⟨s, os, E, e, h⟩ := RedBlackTree.run_textbook (M := 4) (by omega) (by omega) (⟨0, 0⟩ : RBNode Nat Nat) black3Ops
  refine ⟨s, os, e, ?_⟩
  have h1 : black3Ops.foldl (RBTree.step compare 4) .leaf = black3 := rfl
  rw [← h1]; exact h.is.1

/-- a full tree of capacity 3: removals and insertions in between; the nodes of 0 and 5 are red -/
example : (run RedBlackSpec.call (RedBlackTree.new ⟨0, 0⟩ : RedBlackTree Nat Nat 3)
    ((List.range 3).map (fun k => .map (.insert k 0)) ++ [.removeRoot, .map (.remove 2), .map (.insert 5 0), .map (.insert 1 0)])).map
      (fun x => (x.1.len, [0, 1, 5].map fun k => (x.1.getAddr k).bind x.1.getColor)) =
    .ok (3, [.ok RED, .ok BLACK, .ok RED]) := by decide +kernel

/-- insertions in ascending order, one of them an overwriting one; the tree is not full and its node 3 is red -/
example : (run RedBlackSpec.call (RedBlackTree.new ⟨0, 0⟩ : RedBlackTree Nat Nat 9)
    ([0, 1, 2, 1, 3].map fun k => .map (.insert k 0))).map
      (fun x => (x.1.len, [0, 1, 2, 3].map fun k => (x.1.getAddr k).bind x.1.getColor)) =
    .ok (4, [.ok BLACK, .ok BLACK, .ok BLACK, .ok RED]) := by decide +kernel

/-- a tree of capacity 1 is full with a black node -/
example : (run RedBlackSpec.call (RedBlackTree.new ⟨0, 0⟩ : RedBlackTree Nat Nat 1) [.map (.insert 7 0)]).map
      (fun x => (x.1.len, (x.1.getAddr 7).bind x.1.getColor)) = .ok (1, .ok BLACK) := by decide +kernel

end Sokoban.Props
