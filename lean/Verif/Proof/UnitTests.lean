import Verif.Model.UnitTests
import Verif.Proof.Textbook
import Mathlib.Tactic.Order

/-
The unit tests of the crate.
-/
namespace Sokoban
open MapSpec Textbook Ents

namespace RedBlackTree
variable {K V : Type} {M : Nat} {s : RedBlackTree K V M} {E : Ents K V} {T : RBTree K}

/-- the address of the root, given the address of each key -/
def top (f : K → Nat) : RBTree K → Nat
  | .leaf => SENTINEL
  | .node _ _ k _ => f k

theorem top_node (f : K → Nat) (c : Bool) (l : RBTree K) (k : K) (r : RBTree K) : top f (.node c l k r) = f k := rfl

/-- what the accessor functions return -/
def Drawn (s : RedBlackTree K V M) (f : K → Nat) : Nat → RBTree K → Prop
  | _, .leaf => True
  | p, .node c l k r => s.isRed (f k) = .ok c ∧ s.isBlack (f k) = .ok (!c) ∧ s.getParent (f k) = .ok p ∧
      s.getLeft (f k) = .ok (top f l) ∧ s.getRight (f k) = .ok (top f r) ∧
      s.isLeaf (f k) = .ok (decide (top f l = SENTINEL ∧ top f r = SENTINEL)) ∧ Drawn s f (f k) l ∧ Drawn s f (f k) r

theorem drawn_shape {f : K → Nat} : ∀ {t : BT K V} {p n : Nat}, RBShape s.rg p t → (∀ i ∈ t.ids, 1 ≤ i ∧ i ≤ M) →
    (∀ e ∈ t.ents, f e.2.1 = e.1) → RB t n → Drawn s f p t.rsk ∧ top f t.rsk = t.root
  | .nil, _, _, _, _, _, _ => ⟨trivial, rfl⟩
  | .node l x r, p, n, ⟨k1, k2, k3, k4, k5, k6⟩, hr, hf, hb => by
    have hx := hr x.idx (by simp)
    have hrec : (x.tag = 0 ∨ x.tag = 1) ∧ (∃ m, RB l m) ∧ ∃ m, RB r m := by
      rcases hb with ⟨h, _, _, h1, h2⟩ | ⟨h, m, _, h1, h2⟩
      · exact ⟨Or.inr h, ⟨_, h1⟩, _, h2⟩
      · exact ⟨Or.inl h, ⟨_, h1⟩, _, h2⟩
    obtain ⟨ht, ⟨m1, h1⟩, m2, h2⟩ := hrec
    have hk : f x.key = x.idx := hf x.ent (by simp)
    obtain ⟨d1, t1⟩ := drawn_shape k5 (fun i hi => hr i (by simp [hi])) (fun e he => hf e (by simp [he])) h1
    obtain ⟨d2, t2⟩ := drawn_shape k6 (fun i hi => hr i (by simp [hi])) (fun e he => hf e (by simp [he])) h2
    simp only [BT.rsk_node, Drawn, top_node, hk, t1, t2, BT.root_node]
    refine ⟨⟨?_, ?_, ?_, ?_, ?_, ?_, d1, d2⟩, trivial⟩
    · rw [isRed_ok hx.2, k4]
    · rw [isBlack_ok hx.2, k4]
      rcases ht with h | h <;> simp [h]
    · rw [getParent_ok hx.2, k3]
    · rw [getLeft_ok hx.2, k1]
    · rw [getRight_ok hx.2, k2]
    · unfold isLeaf
      rw [getLeft_ok hx.2, getRight_ok hx.2, k1, k2]
      simp only [except_bind_ok, except_pure]
      by_cases h : l.root = SENTINEL <;> simp [h]

theorem HeldT.drawn (h : HeldT T s E) (hn : T.keys.Nodup) :
    ∃ f : K → Nat, (∀ e ∈ E, f e.2.1 = e.1) ∧ Drawn s f SENTINEL T := by
  classical
  have hk := h.is.2.2
  obtain ⟨t, hz, ⟨n, hg, _⟩, hE, hroot, _, _, _, hT⟩ := h.tree
  rw [hk] at hn
  have hf : ∀ e ∈ E, (((E.find? fun e' => e'.2.1 = e.2.1).map Prod.fst).getD 0) = e.1 := by
    intro e he
    cases hx : E.find? fun e' => e'.2.1 = e.2.1 with
    | none => exact absurd (List.find?_eq_none.1 hx e he) (by simp)
    | some e' =>
      have h1 := List.find?_some hx
      have h2 := List.mem_of_find?_eq_some hx
      simp only [decide_eq_true_eq] at h1
      have := List.inj_on_of_nodup_map hn h2 he h1
      rw [this]; rfl
  refine ⟨fun k => ((E.find? fun e' => e'.2.1 = k).map Prod.fst).getD 0, hf, ?_⟩
  subst hT
  exact (drawn_shape hz.shape (fun i hi => hz.rng (Or.inl hi)) (fun e he => hf e (hE ▸ he)) hg).1

variable [Ord K]

/-- an insertion of a new key -/
theorem HeldT.put (hM : M + 1 < 2 ^ 32) (h : HeldT T s E) {k : K} (hk : T.has (compare k) = false) (hl : T.size < M)
    (v : V) : ∃ s' a E', UnitTests.put s k v = .ok (s', a) ∧ HeldT (T.insert (compare k) k) s' E' ∧ (a, k, v) ∈ E' ∧
      ∀ e ∈ E, e ∈ E' := by
  have hl' := h.is.2.1
  rcases h.find hM (by omega) k with ⟨_, _, _, hi⟩ | ⟨_, _, _, _, _, _, _, _, _, ⟨h2, _⟩, _⟩
  · rcases hi v with ⟨h1, _⟩ | ⟨_, s', a, L1, L2, rfl, e, h'⟩
    · omega
    · refine ⟨s', a, _, by simp only [UnitTests.put, e, except_bind_ok, unwrap]; rfl, h', by simp, fun x hx => ?_⟩
      simp only [List.mem_append, List.mem_cons] at hx ⊢
      tauto
  · rw [hk] at h2; cases h2

omit [Ord K] in
theorem prettyPrint_ok (h : HeldT T s E) (debug : K → String) : ∃ str, s.prettyPrint debug = .ok str := by
  obtain ⟨t, hz, hg, _⟩ := h.tree
  by_cases h0 : s.len = 0
  · exact ⟨"", by unfold prettyPrint; rw [if_pos h0]; rfl⟩
  · have hE := hz.ents
    simp only [Ctx.lft, Ctx.rgt, List.nil_append, List.append_nil] at hE
    have hb := hz.base
    rw [List.nil_append] at hb
    exact ⟨_, RedBlackSpec.prettyPrint_pic debug (p := RedBlackSpec.toPic t) ⟨by rw [hz.root]; exact RedBlackSpec.holds_toPic hz.forget, by
      rw [RedBlackSpec.nodes_toPic, hE]; simpa [List.map_map, Function.comp_def] using hb.nodup⟩ h0⟩

omit [Ord K] in
/-- the entry at the root of the tree is removed -/
theorem HeldT.removeRoot {c : Bool} {l r : RBTree K} {k : K} (h : HeldT (.node c l k r) s E) :
    ∃ s' i v, s.removeRoot = .ok (s', some ⟨k, v⟩) ∧ (i, k, v) ∈ E := by
  obtain ⟨t, hz, hg, hE, hroot, hnil, hr0, _, hT⟩ := h.tree
  cases t with
  | nil => simp at hT
  | node l' x r' =>
    simp only [BT.rsk_node, RBTree.node.injEq] at hT
    obtain ⟨s', t', e, _⟩ := removeTreeNode_spec (lim := M + 2) hz hg (by have := hz.lim_ok; omega)
    refine ⟨s', x.idx, x.val, ?_, by rw [← hE, ← hT.2.2.1]; simp [GN.ent]⟩
    unfold RedBlackTree.removeRoot
    rw [if_neg (show ¬ s.root = SENTINEL from fun hc => by simpa using hnil.2 (hr0.1 hc)), hroot, BT.root_node, hz.getNode,
      except_bind_ok, e, ← hT.2.2.1]
    rfl

end RedBlackTree

namespace UnitTests
open RedBlackTree Simulate
set_option linter.unusedSimpArgs false
variable {K V : Type} [LinearOrder K] {M : Nat}

theorem put_insert {t t' : RedBlackTree K V M} {k : K} {v : V} {a : Nat} (h : put t k v = .ok (t', a)) :
    t.insert k v = .ok (t', some a) := by
  unfold put at h
  cases e : t.insert k v with
  | error x => rw [e] at h; cases h
  | ok x =>
    obtain ⟨x, _ | a'⟩ := x
    · rw [e] at h; cases h
    · rw [e] at h
      injection h with h
      injection h with h1 h2
      rw [h1, h2]

theorem redParentAndUncle_ok (hM : M + 1 < 2 ^ 32) (hl : 6 ≤ M) (z : RBNode K V) {k0 k1 k2 k3 k4 k5 : K} (h0 : k1 < k0) (h1 : k0 < k3) (h2 : k3 < k2) (h3 : k2 < k4) (h4 : k4 < k5)
    (v : Nat → V) : redParentAndUncle (RedBlackTree.new z : RedBlackTree K V M) k0 k1 k2 k3 k4 k5 v = .ok () := by
  have c10 : compare k1 k0 = .lt := compare_lt_iff_lt.2 (h0)
  have c20 : compare k2 k0 = .gt := compare_gt_iff_gt.2 ((h1).trans h2)
  have c30 : compare k3 k0 = .gt := compare_gt_iff_gt.2 (h1)
  have c32 : compare k3 k2 = .lt := compare_lt_iff_lt.2 (h2)
  have c40 : compare k4 k0 = .gt := compare_gt_iff_gt.2 (((h1).trans h2).trans h3)
  have c42 : compare k4 k2 = .gt := compare_gt_iff_gt.2 (h3)
  have c50 : compare k5 k0 = .gt := compare_gt_iff_gt.2 ((((h1).trans h2).trans h3).trans h4)
  have c52 : compare k5 k2 = .gt := compare_gt_iff_gt.2 ((h3).trans h4)
  have c54 : compare k5 k4 = .gt := compare_gt_iff_gt.2 (h4)
  have H0 := HeldT.new (M := M) z
  have i0 : RBTree.insert (compare k0) k0 .leaf = (.node false .leaf k0 .leaf) := by
    simp [RBTree.insert, RBTree.ins, RBTree.fixL, RBTree.fixR, RBTree.blacken, RBTree.isRed, c10, c20, c30, c32, c40, c42, c50, c52, c54]
  obtain ⟨s1, a0, E1, e0, H1, m00, g0⟩ := H0.put hM (k := k0) (by simp [RBTree.has, c10, c20, c30, c32, c40, c42, c50, c52, c54])
    (by simp [RBTree.size]; omega) (v 0)
  rw [i0] at H1
  have i1 : RBTree.insert (compare k1) k1 (.node false .leaf k0 .leaf) = (.node false (.node true .leaf k1 .leaf) k0 .leaf) := by
    simp [RBTree.insert, RBTree.ins, RBTree.fixL, RBTree.fixR, RBTree.blacken, RBTree.isRed, c10, c20, c30, c32, c40, c42, c50, c52, c54]
  obtain ⟨s2, a1, E2, e1, H2, m11, g1⟩ := H1.put hM (k := k1) (by simp [RBTree.has, c10, c20, c30, c32, c40, c42, c50, c52, c54])
    (by simp [RBTree.size]; omega) (v 1)
  rw [i1] at H2
  have m01 := g1 _ m00
  have i2 : RBTree.insert (compare k2) k2 (.node false (.node true .leaf k1 .leaf) k0 .leaf) = (.node false (.node true .leaf k1 .leaf) k0 (.node true .leaf k2 .leaf)) := by
    simp [RBTree.insert, RBTree.ins, RBTree.fixL, RBTree.fixR, RBTree.blacken, RBTree.isRed, c10, c20, c30, c32, c40, c42, c50, c52, c54]
  obtain ⟨s3, a2, E3, e2, H3, m22, g2⟩ := H2.put hM (k := k2) (by simp [RBTree.has, c10, c20, c30, c32, c40, c42, c50, c52, c54])
    (by simp [RBTree.size]; omega) (v 2)
  rw [i2] at H3
  have m02 := g2 _ m01
  have m12 := g2 _ m11
  have i3 : RBTree.insert (compare k3) k3 (.node false (.node true .leaf k1 .leaf) k0 (.node true .leaf k2 .leaf)) = (.node false (.node false .leaf k1 .leaf) k0 (.node false (.node true .leaf k3 .leaf) k2 .leaf)) := by
    simp [RBTree.insert, RBTree.ins, RBTree.fixL, RBTree.fixR, RBTree.blacken, RBTree.isRed, c10, c20, c30, c32, c40, c42, c50, c52, c54]
  obtain ⟨s4, a3, E4, e3, H4, m33, g3⟩ := H3.put hM (k := k3) (by simp [RBTree.has, c10, c20, c30, c32, c40, c42, c50, c52, c54])
    (by simp [RBTree.size]; omega) (v 3)
  rw [i3] at H4
  have m03 := g3 _ m02
  have m13 := g3 _ m12
  have m23 := g3 _ m22
  have i4 : RBTree.insert (compare k4) k4 (.node false (.node false .leaf k1 .leaf) k0 (.node false (.node true .leaf k3 .leaf) k2 .leaf)) = (.node false (.node false .leaf k1 .leaf) k0 (.node false (.node true .leaf k3 .leaf) k2 (.node true .leaf k4 .leaf))) := by
    simp [RBTree.insert, RBTree.ins, RBTree.fixL, RBTree.fixR, RBTree.blacken, RBTree.isRed, c10, c20, c30, c32, c40, c42, c50, c52, c54]
  obtain ⟨s5, a4, E5, e4, H5, m44, g4⟩ := H4.put hM (k := k4) (by simp [RBTree.has, c10, c20, c30, c32, c40, c42, c50, c52, c54])
    (by simp [RBTree.size]; omega) (v 4)
  rw [i4] at H5
  have m04 := g4 _ m03
  have m14 := g4 _ m13
  have m24 := g4 _ m23
  have m34 := g4 _ m33
  have i5 : RBTree.insert (compare k5) k5 (.node false (.node false .leaf k1 .leaf) k0 (.node false (.node true .leaf k3 .leaf) k2 (.node true .leaf k4 .leaf))) = (.node false (.node false .leaf k1 .leaf) k0 (.node true (.node false .leaf k3 .leaf) k2 (.node false .leaf k4 (.node true .leaf k5 .leaf)))) := by
    simp [RBTree.insert, RBTree.ins, RBTree.fixL, RBTree.fixR, RBTree.blacken, RBTree.isRed, c10, c20, c30, c32, c40, c42, c50, c52, c54]
  obtain ⟨s6, a5, E6, e5, H6, m55, g5⟩ := H5.put hM (k := k5) (by simp [RBTree.has, c10, c20, c30, c32, c40, c42, c50, c52, c54])
    (by simp [RBTree.size]; omega) (v 5)
  rw [i5] at H6
  have m05 := g5 _ m04
  have m15 := g5 _ m14
  have m25 := g5 _ m24
  have m35 := g5 _ m34
  have m45 := g5 _ m44
  obtain ⟨f4, hf4, d4⟩ := H5.drawn (List.Pairwise.imp (fun h => ne_of_lt h) (show List.Pairwise (· < ·) _ by
    simp only [RBTree.keys]; simp; and_intros <;> order))
  have f40 : f4 k0 = a0 := hf4 _ m04
  have f41 : f4 k1 = a1 := hf4 _ m14
  have f42 : f4 k2 = a2 := hf4 _ m24
  have f43 : f4 k3 = a3 := hf4 _ m34
  have f44 : f4 k4 = a4 := hf4 _ m44
  simp only [Drawn, top, f40, f41, f42, f43, f44, and_true] at d4
  obtain ⟨f5, hf5, d5⟩ := H6.drawn (List.Pairwise.imp (fun h => ne_of_lt h) (show List.Pairwise (· < ·) _ by
    simp only [RBTree.keys]; simp; and_intros <;> order))
  have f50 : f5 k0 = a0 := hf5 _ m05
  have f51 : f5 k1 = a1 := hf5 _ m15
  have f52 : f5 k2 = a2 := hf5 _ m25
  have f53 : f5 k3 = a3 := hf5 _ m35
  have f54 : f5 k4 = a4 := hf5 _ m45
  have f55 : f5 k5 = a5 := hf5 _ m55
  simp only [Drawn, top, f50, f51, f52, f53, f54, f55, and_true] at d5
  simp [redParentAndUncle, equal, holds, check, e0, e1, e2, e3, e4, e5, d4, d5]

theorem rightRight_ok (hM : M + 1 < 2 ^ 32) (hl : 5 ≤ M) (z : RBNode K V) {k0 k1 k2 k3 k4 : K} (h0 : k1 < k0) (h1 : k0 < k2) (h2 : k2 < k3) (h3 : k3 < k4)
    (v : Nat → V) : rightRight (RedBlackTree.new z : RedBlackTree K V M) k0 k1 k2 k3 k4 v = .ok () := by
  have c10 : compare k1 k0 = .lt := compare_lt_iff_lt.2 (h0)
  have c20 : compare k2 k0 = .gt := compare_gt_iff_gt.2 (h1)
  have c30 : compare k3 k0 = .gt := compare_gt_iff_gt.2 ((h1).trans h2)
  have c32 : compare k3 k2 = .gt := compare_gt_iff_gt.2 (h2)
  have c40 : compare k4 k0 = .gt := compare_gt_iff_gt.2 (((h1).trans h2).trans h3)
  have c42 : compare k4 k2 = .gt := compare_gt_iff_gt.2 ((h2).trans h3)
  have c43 : compare k4 k3 = .gt := compare_gt_iff_gt.2 (h3)
  have H0 := HeldT.new (M := M) z
  have i0 : RBTree.insert (compare k0) k0 .leaf = (.node false .leaf k0 .leaf) := by
    simp [RBTree.insert, RBTree.ins, RBTree.fixL, RBTree.fixR, RBTree.blacken, RBTree.isRed, c10, c20, c30, c32, c40, c42, c43]
  obtain ⟨s1, a0, E1, e0, H1, m00, g0⟩ := H0.put hM (k := k0) (by simp [RBTree.has, c10, c20, c30, c32, c40, c42, c43])
    (by simp [RBTree.size]; omega) (v 0)
  rw [i0] at H1
  have i1 : RBTree.insert (compare k1) k1 (.node false .leaf k0 .leaf) = (.node false (.node true .leaf k1 .leaf) k0 .leaf) := by
    simp [RBTree.insert, RBTree.ins, RBTree.fixL, RBTree.fixR, RBTree.blacken, RBTree.isRed, c10, c20, c30, c32, c40, c42, c43]
  obtain ⟨s2, a1, E2, e1, H2, m11, g1⟩ := H1.put hM (k := k1) (by simp [RBTree.has, c10, c20, c30, c32, c40, c42, c43])
    (by simp [RBTree.size]; omega) (v 1)
  rw [i1] at H2
  have m01 := g1 _ m00
  have i2 : RBTree.insert (compare k2) k2 (.node false (.node true .leaf k1 .leaf) k0 .leaf) = (.node false (.node true .leaf k1 .leaf) k0 (.node true .leaf k2 .leaf)) := by
    simp [RBTree.insert, RBTree.ins, RBTree.fixL, RBTree.fixR, RBTree.blacken, RBTree.isRed, c10, c20, c30, c32, c40, c42, c43]
  obtain ⟨s3, a2, E3, e2, H3, m22, g2⟩ := H2.put hM (k := k2) (by simp [RBTree.has, c10, c20, c30, c32, c40, c42, c43])
    (by simp [RBTree.size]; omega) (v 2)
  rw [i2] at H3
  have m02 := g2 _ m01
  have m12 := g2 _ m11
  have i3 : RBTree.insert (compare k3) k3 (.node false (.node true .leaf k1 .leaf) k0 (.node true .leaf k2 .leaf)) = (.node false (.node false .leaf k1 .leaf) k0 (.node false .leaf k2 (.node true .leaf k3 .leaf))) := by
    simp [RBTree.insert, RBTree.ins, RBTree.fixL, RBTree.fixR, RBTree.blacken, RBTree.isRed, c10, c20, c30, c32, c40, c42, c43]
  obtain ⟨s4, a3, E4, e3, H4, m33, g3⟩ := H3.put hM (k := k3) (by simp [RBTree.has, c10, c20, c30, c32, c40, c42, c43])
    (by simp [RBTree.size]; omega) (v 3)
  rw [i3] at H4
  have m03 := g3 _ m02
  have m13 := g3 _ m12
  have m23 := g3 _ m22
  have i4 : RBTree.insert (compare k4) k4 (.node false (.node false .leaf k1 .leaf) k0 (.node false .leaf k2 (.node true .leaf k3 .leaf))) = (.node false (.node false .leaf k1 .leaf) k0 (.node false (.node true .leaf k2 .leaf) k3 (.node true .leaf k4 .leaf))) := by
    simp [RBTree.insert, RBTree.ins, RBTree.fixL, RBTree.fixR, RBTree.blacken, RBTree.isRed, c10, c20, c30, c32, c40, c42, c43]
  obtain ⟨s5, a4, E5, e4, H5, m44, g4⟩ := H4.put hM (k := k4) (by simp [RBTree.has, c10, c20, c30, c32, c40, c42, c43])
    (by simp [RBTree.size]; omega) (v 4)
  rw [i4] at H5
  have m04 := g4 _ m03
  have m14 := g4 _ m13
  have m24 := g4 _ m23
  have m34 := g4 _ m33
  obtain ⟨f3, hf3, d3⟩ := H4.drawn (List.Pairwise.imp (fun h => ne_of_lt h) (show List.Pairwise (· < ·) _ by
    simp only [RBTree.keys]; simp; and_intros <;> order))
  have f30 : f3 k0 = a0 := hf3 _ m03
  have f31 : f3 k1 = a1 := hf3 _ m13
  have f32 : f3 k2 = a2 := hf3 _ m23
  have f33 : f3 k3 = a3 := hf3 _ m33
  simp only [Drawn, top, f30, f31, f32, f33, and_true] at d3
  obtain ⟨f4, hf4, d4⟩ := H5.drawn (List.Pairwise.imp (fun h => ne_of_lt h) (show List.Pairwise (· < ·) _ by
    simp only [RBTree.keys]; simp; and_intros <;> order))
  have f40 : f4 k0 = a0 := hf4 _ m04
  have f41 : f4 k1 = a1 := hf4 _ m14
  have f42 : f4 k2 = a2 := hf4 _ m24
  have f43 : f4 k3 = a3 := hf4 _ m34
  have f44 : f4 k4 = a4 := hf4 _ m44
  simp only [Drawn, top, f40, f41, f42, f43, f44, and_true] at d4
  simp [rightRight, equal, holds, check, e0, e1, e2, e3, e4, d3, d4]

theorem leftRight_ok (hM : M + 1 < 2 ^ 32) (hl : 5 ≤ M) (z : RBNode K V) {k0 k1 k2 k3 k4 : K} (h0 : k1 < k0) (h1 : k0 < k2) (h2 : k2 < k4) (h3 : k4 < k3)
    (v : Nat → V) : leftRight (RedBlackTree.new z : RedBlackTree K V M) k0 k1 k2 k3 k4 v = .ok () := by
  have c10 : compare k1 k0 = .lt := compare_lt_iff_lt.2 (h0)
  have c20 : compare k2 k0 = .gt := compare_gt_iff_gt.2 (h1)
  have c30 : compare k3 k0 = .gt := compare_gt_iff_gt.2 (((h1).trans h2).trans h3)
  have c32 : compare k3 k2 = .gt := compare_gt_iff_gt.2 ((h2).trans h3)
  have c40 : compare k4 k0 = .gt := compare_gt_iff_gt.2 ((h1).trans h2)
  have c42 : compare k4 k2 = .gt := compare_gt_iff_gt.2 (h2)
  have c43 : compare k4 k3 = .lt := compare_lt_iff_lt.2 (h3)
  have H0 := HeldT.new (M := M) z
  have i0 : RBTree.insert (compare k0) k0 .leaf = (.node false .leaf k0 .leaf) := by
    simp [RBTree.insert, RBTree.ins, RBTree.fixL, RBTree.fixR, RBTree.blacken, RBTree.isRed, c10, c20, c30, c32, c40, c42, c43]
  obtain ⟨s1, a0, E1, e0, H1, m00, g0⟩ := H0.put hM (k := k0) (by simp [RBTree.has, c10, c20, c30, c32, c40, c42, c43])
    (by simp [RBTree.size]; omega) (v 0)
  rw [i0] at H1
  have i1 : RBTree.insert (compare k1) k1 (.node false .leaf k0 .leaf) = (.node false (.node true .leaf k1 .leaf) k0 .leaf) := by
    simp [RBTree.insert, RBTree.ins, RBTree.fixL, RBTree.fixR, RBTree.blacken, RBTree.isRed, c10, c20, c30, c32, c40, c42, c43]
  obtain ⟨s2, a1, E2, e1, H2, m11, g1⟩ := H1.put hM (k := k1) (by simp [RBTree.has, c10, c20, c30, c32, c40, c42, c43])
    (by simp [RBTree.size]; omega) (v 1)
  rw [i1] at H2
  have m01 := g1 _ m00
  have i2 : RBTree.insert (compare k2) k2 (.node false (.node true .leaf k1 .leaf) k0 .leaf) = (.node false (.node true .leaf k1 .leaf) k0 (.node true .leaf k2 .leaf)) := by
    simp [RBTree.insert, RBTree.ins, RBTree.fixL, RBTree.fixR, RBTree.blacken, RBTree.isRed, c10, c20, c30, c32, c40, c42, c43]
  obtain ⟨s3, a2, E3, e2, H3, m22, g2⟩ := H2.put hM (k := k2) (by simp [RBTree.has, c10, c20, c30, c32, c40, c42, c43])
    (by simp [RBTree.size]; omega) (v 2)
  rw [i2] at H3
  have m02 := g2 _ m01
  have m12 := g2 _ m11
  have i3 : RBTree.insert (compare k3) k3 (.node false (.node true .leaf k1 .leaf) k0 (.node true .leaf k2 .leaf)) = (.node false (.node false .leaf k1 .leaf) k0 (.node false .leaf k2 (.node true .leaf k3 .leaf))) := by
    simp [RBTree.insert, RBTree.ins, RBTree.fixL, RBTree.fixR, RBTree.blacken, RBTree.isRed, c10, c20, c30, c32, c40, c42, c43]
  obtain ⟨s4, a3, E4, e3, H4, m33, g3⟩ := H3.put hM (k := k3) (by simp [RBTree.has, c10, c20, c30, c32, c40, c42, c43])
    (by simp [RBTree.size]; omega) (v 3)
  rw [i3] at H4
  have m03 := g3 _ m02
  have m13 := g3 _ m12
  have m23 := g3 _ m22
  have i4 : RBTree.insert (compare k4) k4 (.node false (.node false .leaf k1 .leaf) k0 (.node false .leaf k2 (.node true .leaf k3 .leaf))) = (.node false (.node false .leaf k1 .leaf) k0 (.node false (.node true .leaf k2 .leaf) k4 (.node true .leaf k3 .leaf))) := by
    simp [RBTree.insert, RBTree.ins, RBTree.fixL, RBTree.fixR, RBTree.blacken, RBTree.isRed, c10, c20, c30, c32, c40, c42, c43]
  obtain ⟨s5, a4, E5, e4, H5, m44, g4⟩ := H4.put hM (k := k4) (by simp [RBTree.has, c10, c20, c30, c32, c40, c42, c43])
    (by simp [RBTree.size]; omega) (v 4)
  rw [i4] at H5
  have m04 := g4 _ m03
  have m14 := g4 _ m13
  have m24 := g4 _ m23
  have m34 := g4 _ m33
  obtain ⟨f3, hf3, d3⟩ := H4.drawn (List.Pairwise.imp (fun h => ne_of_lt h) (show List.Pairwise (· < ·) _ by
    simp only [RBTree.keys]; simp; and_intros <;> order))
  have f30 : f3 k0 = a0 := hf3 _ m03
  have f31 : f3 k1 = a1 := hf3 _ m13
  have f32 : f3 k2 = a2 := hf3 _ m23
  have f33 : f3 k3 = a3 := hf3 _ m33
  simp only [Drawn, top, f30, f31, f32, f33, and_true] at d3
  obtain ⟨f4, hf4, d4⟩ := H5.drawn (List.Pairwise.imp (fun h => ne_of_lt h) (show List.Pairwise (· < ·) _ by
    simp only [RBTree.keys]; simp; and_intros <;> order))
  have f40 : f4 k0 = a0 := hf4 _ m04
  have f41 : f4 k1 = a1 := hf4 _ m14
  have f42 : f4 k2 = a2 := hf4 _ m24
  have f43 : f4 k3 = a3 := hf4 _ m34
  have f44 : f4 k4 = a4 := hf4 _ m44
  simp only [Drawn, top, f40, f41, f42, f43, f44, and_true] at d4
  simp [leftRight, equal, holds, check, e0, e1, e2, e3, e4, d3, d4]

theorem leftLeft_ok (hM : M + 1 < 2 ^ 32) (hl : 5 ≤ M) (z : RBNode K V) {k0 k1 k2 k3 k4 : K} (h0 : k4 < k3) (h1 : k3 < k2) (h2 : k2 < k0) (h3 : k0 < k1)
    (v : Nat → V) : leftLeft (RedBlackTree.new z : RedBlackTree K V M) k0 k1 k2 k3 k4 v = .ok () := by
  have c10 : compare k1 k0 = .gt := compare_gt_iff_gt.2 (h3)
  have c20 : compare k2 k0 = .lt := compare_lt_iff_lt.2 (h2)
  have c30 : compare k3 k0 = .lt := compare_lt_iff_lt.2 ((h1).trans h2)
  have c32 : compare k3 k2 = .lt := compare_lt_iff_lt.2 (h1)
  have c40 : compare k4 k0 = .lt := compare_lt_iff_lt.2 (((h0).trans h1).trans h2)
  have c42 : compare k4 k2 = .lt := compare_lt_iff_lt.2 ((h0).trans h1)
  have c43 : compare k4 k3 = .lt := compare_lt_iff_lt.2 (h0)
  have H0 := HeldT.new (M := M) z
  have i0 : RBTree.insert (compare k0) k0 .leaf = (.node false .leaf k0 .leaf) := by
    simp [RBTree.insert, RBTree.ins, RBTree.fixL, RBTree.fixR, RBTree.blacken, RBTree.isRed, c10, c20, c30, c32, c40, c42, c43]
  obtain ⟨s1, a0, E1, e0, H1, m00, g0⟩ := H0.put hM (k := k0) (by simp [RBTree.has, c10, c20, c30, c32, c40, c42, c43])
    (by simp [RBTree.size]; omega) (v 0)
  rw [i0] at H1
  have i1 : RBTree.insert (compare k1) k1 (.node false .leaf k0 .leaf) = (.node false .leaf k0 (.node true .leaf k1 .leaf)) := by
    simp [RBTree.insert, RBTree.ins, RBTree.fixL, RBTree.fixR, RBTree.blacken, RBTree.isRed, c10, c20, c30, c32, c40, c42, c43]
  obtain ⟨s2, a1, E2, e1, H2, m11, g1⟩ := H1.put hM (k := k1) (by simp [RBTree.has, c10, c20, c30, c32, c40, c42, c43])
    (by simp [RBTree.size]; omega) (v 1)
  rw [i1] at H2
  have m01 := g1 _ m00
  have i2 : RBTree.insert (compare k2) k2 (.node false .leaf k0 (.node true .leaf k1 .leaf)) = (.node false (.node true .leaf k2 .leaf) k0 (.node true .leaf k1 .leaf)) := by
    simp [RBTree.insert, RBTree.ins, RBTree.fixL, RBTree.fixR, RBTree.blacken, RBTree.isRed, c10, c20, c30, c32, c40, c42, c43]
  obtain ⟨s3, a2, E3, e2, H3, m22, g2⟩ := H2.put hM (k := k2) (by simp [RBTree.has, c10, c20, c30, c32, c40, c42, c43])
    (by simp [RBTree.size]; omega) (v 2)
  rw [i2] at H3
  have m02 := g2 _ m01
  have m12 := g2 _ m11
  have i3 : RBTree.insert (compare k3) k3 (.node false (.node true .leaf k2 .leaf) k0 (.node true .leaf k1 .leaf)) = (.node false (.node false (.node true .leaf k3 .leaf) k2 .leaf) k0 (.node false .leaf k1 .leaf)) := by
    simp [RBTree.insert, RBTree.ins, RBTree.fixL, RBTree.fixR, RBTree.blacken, RBTree.isRed, c10, c20, c30, c32, c40, c42, c43]
  obtain ⟨s4, a3, E4, e3, H4, m33, g3⟩ := H3.put hM (k := k3) (by simp [RBTree.has, c10, c20, c30, c32, c40, c42, c43])
    (by simp [RBTree.size]; omega) (v 3)
  rw [i3] at H4
  have m03 := g3 _ m02
  have m13 := g3 _ m12
  have m23 := g3 _ m22
  have i4 : RBTree.insert (compare k4) k4 (.node false (.node false (.node true .leaf k3 .leaf) k2 .leaf) k0 (.node false .leaf k1 .leaf)) = (.node false (.node false (.node true .leaf k4 .leaf) k3 (.node true .leaf k2 .leaf)) k0 (.node false .leaf k1 .leaf)) := by
    simp [RBTree.insert, RBTree.ins, RBTree.fixL, RBTree.fixR, RBTree.blacken, RBTree.isRed, c10, c20, c30, c32, c40, c42, c43]
  obtain ⟨s5, a4, E5, e4, H5, m44, g4⟩ := H4.put hM (k := k4) (by simp [RBTree.has, c10, c20, c30, c32, c40, c42, c43])
    (by simp [RBTree.size]; omega) (v 4)
  rw [i4] at H5
  have m04 := g4 _ m03
  have m14 := g4 _ m13
  have m24 := g4 _ m23
  have m34 := g4 _ m33
  obtain ⟨f3, hf3, d3⟩ := H4.drawn (List.Pairwise.imp (fun h => ne_of_lt h) (show List.Pairwise (· < ·) _ by
    simp only [RBTree.keys]; simp; and_intros <;> order))
  have f30 : f3 k0 = a0 := hf3 _ m03
  have f31 : f3 k1 = a1 := hf3 _ m13
  have f32 : f3 k2 = a2 := hf3 _ m23
  have f33 : f3 k3 = a3 := hf3 _ m33
  simp only [Drawn, top, f30, f31, f32, f33, and_true] at d3
  obtain ⟨f4, hf4, d4⟩ := H5.drawn (List.Pairwise.imp (fun h => ne_of_lt h) (show List.Pairwise (· < ·) _ by
    simp only [RBTree.keys]; simp; and_intros <;> order))
  have f40 : f4 k0 = a0 := hf4 _ m04
  have f41 : f4 k1 = a1 := hf4 _ m14
  have f42 : f4 k2 = a2 := hf4 _ m24
  have f43 : f4 k3 = a3 := hf4 _ m34
  have f44 : f4 k4 = a4 := hf4 _ m44
  simp only [Drawn, top, f40, f41, f42, f43, f44, and_true] at d4
  simp [leftLeft, equal, holds, check, e0, e1, e2, e3, e4, d3, d4]

theorem rightLeft_ok (hM : M + 1 < 2 ^ 32) (hl : 5 ≤ M) (z : RBNode K V) (debug : K → String) {k0 k1 k2 k3 k4 : K} (h0 : k3 < k4) (h1 : k4 < k2) (h2 : k2 < k0) (h3 : k0 < k1)
    (v : Nat → V) : rightLeft debug (RedBlackTree.new z : RedBlackTree K V M) k0 k1 k2 k3 k4 v = .ok () := by
  have c10 : compare k1 k0 = .gt := compare_gt_iff_gt.2 (h3)
  have c20 : compare k2 k0 = .lt := compare_lt_iff_lt.2 (h2)
  have c30 : compare k3 k0 = .lt := compare_lt_iff_lt.2 (((h0).trans h1).trans h2)
  have c32 : compare k3 k2 = .lt := compare_lt_iff_lt.2 ((h0).trans h1)
  have c40 : compare k4 k0 = .lt := compare_lt_iff_lt.2 ((h1).trans h2)
  have c42 : compare k4 k2 = .lt := compare_lt_iff_lt.2 (h1)
  have c43 : compare k4 k3 = .gt := compare_gt_iff_gt.2 (h0)
  have H0 := HeldT.new (M := M) z
  have i0 : RBTree.insert (compare k0) k0 .leaf = (.node false .leaf k0 .leaf) := by
    simp [RBTree.insert, RBTree.ins, RBTree.fixL, RBTree.fixR, RBTree.blacken, RBTree.isRed, c10, c20, c30, c32, c40, c42, c43]
  obtain ⟨s1, a0, E1, e0, H1, m00, g0⟩ := H0.put hM (k := k0) (by simp [RBTree.has, c10, c20, c30, c32, c40, c42, c43])
    (by simp [RBTree.size]; omega) (v 0)
  rw [i0] at H1
  have i1 : RBTree.insert (compare k1) k1 (.node false .leaf k0 .leaf) = (.node false .leaf k0 (.node true .leaf k1 .leaf)) := by
    simp [RBTree.insert, RBTree.ins, RBTree.fixL, RBTree.fixR, RBTree.blacken, RBTree.isRed, c10, c20, c30, c32, c40, c42, c43]
  obtain ⟨s2, a1, E2, e1, H2, m11, g1⟩ := H1.put hM (k := k1) (by simp [RBTree.has, c10, c20, c30, c32, c40, c42, c43])
    (by simp [RBTree.size]; omega) (v 1)
  rw [i1] at H2
  have m01 := g1 _ m00
  have i2 : RBTree.insert (compare k2) k2 (.node false .leaf k0 (.node true .leaf k1 .leaf)) = (.node false (.node true .leaf k2 .leaf) k0 (.node true .leaf k1 .leaf)) := by
    simp [RBTree.insert, RBTree.ins, RBTree.fixL, RBTree.fixR, RBTree.blacken, RBTree.isRed, c10, c20, c30, c32, c40, c42, c43]
  obtain ⟨s3, a2, E3, e2, H3, m22, g2⟩ := H2.put hM (k := k2) (by simp [RBTree.has, c10, c20, c30, c32, c40, c42, c43])
    (by simp [RBTree.size]; omega) (v 2)
  rw [i2] at H3
  have m02 := g2 _ m01
  have m12 := g2 _ m11
  have i3 : RBTree.insert (compare k3) k3 (.node false (.node true .leaf k2 .leaf) k0 (.node true .leaf k1 .leaf)) = (.node false (.node false (.node true .leaf k3 .leaf) k2 .leaf) k0 (.node false .leaf k1 .leaf)) := by
    simp [RBTree.insert, RBTree.ins, RBTree.fixL, RBTree.fixR, RBTree.blacken, RBTree.isRed, c10, c20, c30, c32, c40, c42, c43]
  obtain ⟨s4, a3, E4, e3, H4, m33, g3⟩ := H3.put hM (k := k3) (by simp [RBTree.has, c10, c20, c30, c32, c40, c42, c43])
    (by simp [RBTree.size]; omega) (v 3)
  rw [i3] at H4
  have m03 := g3 _ m02
  have m13 := g3 _ m12
  have m23 := g3 _ m22
  have i4 : RBTree.insert (compare k4) k4 (.node false (.node false (.node true .leaf k3 .leaf) k2 .leaf) k0 (.node false .leaf k1 .leaf)) = (.node false (.node false (.node true .leaf k3 .leaf) k4 (.node true .leaf k2 .leaf)) k0 (.node false .leaf k1 .leaf)) := by
    simp [RBTree.insert, RBTree.ins, RBTree.fixL, RBTree.fixR, RBTree.blacken, RBTree.isRed, c10, c20, c30, c32, c40, c42, c43]
  obtain ⟨s5, a4, E5, e4, H5, m44, g4⟩ := H4.put hM (k := k4) (by simp [RBTree.has, c10, c20, c30, c32, c40, c42, c43])
    (by simp [RBTree.size]; omega) (v 4)
  rw [i4] at H5
  have m04 := g4 _ m03
  have m14 := g4 _ m13
  have m24 := g4 _ m23
  have m34 := g4 _ m33
  obtain ⟨f3, hf3, d3⟩ := H4.drawn (List.Pairwise.imp (fun h => ne_of_lt h) (show List.Pairwise (· < ·) _ by
    simp only [RBTree.keys]; simp; and_intros <;> order))
  have f30 : f3 k0 = a0 := hf3 _ m03
  have f31 : f3 k1 = a1 := hf3 _ m13
  have f32 : f3 k2 = a2 := hf3 _ m23
  have f33 : f3 k3 = a3 := hf3 _ m33
  simp only [Drawn, top, f30, f31, f32, f33, and_true] at d3
  obtain ⟨f4, hf4, d4⟩ := H5.drawn (List.Pairwise.imp (fun h => ne_of_lt h) (show List.Pairwise (· < ·) _ by
    simp only [RBTree.keys]; simp; and_intros <;> order))
  have f40 : f4 k0 = a0 := hf4 _ m04
  have f41 : f4 k1 = a1 := hf4 _ m14
  have f42 : f4 k2 = a2 := hf4 _ m24
  have f43 : f4 k3 = a3 := hf4 _ m34
  have f44 : f4 k4 = a4 := hf4 _ m44
  simp only [Drawn, top, f40, f41, f42, f43, f44, and_true] at d4
  obtain ⟨str, hstr⟩ := prettyPrint_ok H5 debug
  simp [rightLeft, equal, holds, check, e0, e1, e2, e3, e4, d3, d4, hstr]

theorem removeRootTest_ok [DecidableEq V] (hM : M + 1 < 2 ^ 32) (hl : 3 ≤ M) (z : RBNode K V) {e0 e1 e2 : K × V} (h0 : e2.1 < e0.1)
    (h1 : e0.1 < e1.1) : removeRootTest (RedBlackTree.new z : RedBlackTree K V M) e0 e1 e2 = .ok () := by
  have c10 : compare e1.1 e0.1 = .gt := compare_gt_iff_gt.2 h1
  have c20 : compare e2.1 e0.1 = .lt := compare_lt_iff_lt.2 h0
  have H0 := HeldT.new (M := M) z
  have r0 : (RedBlackTree.new z : RedBlackTree K V M).removeRoot = .ok (RedBlackTree.new z, none) := rfl
  have i0 : RBTree.insert (compare e0.1) e0.1 .leaf = (.node false .leaf e0.1 .leaf) := by
    simp [RBTree.insert, RBTree.ins, RBTree.blacken]
  obtain ⟨s1, a0, E1, p0, H1, m0, g0⟩ := H0.put hM (k := e0.1) (by simp [RBTree.has]) (by simp [RBTree.size]; omega) e0.2
  rw [i0] at H1
  have i1 : RBTree.insert (compare e1.1) e1.1 (.node false .leaf e0.1 .leaf) = (.node false .leaf e0.1 (.node true .leaf e1.1 .leaf)) := by
    simp [RBTree.insert, RBTree.ins, RBTree.fixL, RBTree.fixR, RBTree.blacken, RBTree.isRed, c10]
  obtain ⟨s2, a1, E2, p1, H2, m1, g1⟩ := H1.put hM (k := e1.1) (by simp [RBTree.has, c10]) (by simp [RBTree.size]; omega) e1.2
  rw [i1] at H2
  have i2 : RBTree.insert (compare e2.1) e2.1 (.node false .leaf e0.1 (.node true .leaf e1.1 .leaf)) =
      (.node false (.node true .leaf e2.1 .leaf) e0.1 (.node true .leaf e1.1 .leaf)) := by
    simp [RBTree.insert, RBTree.ins, RBTree.fixL, RBTree.fixR, RBTree.blacken, RBTree.isRed, c20]
  obtain ⟨s3, a2, E3, p2, H3, m2, g2⟩ := H2.put hM (k := e2.1) (by simp [RBTree.has, c20]) (by simp [RBTree.size]; omega) e2.2
  rw [i2] at H3
  have mm := g2 _ (g1 _ m0)
  obtain ⟨s4, i, v, e, hm⟩ := H3.removeRoot
  have hn : (E3.map fun e => e.2.1).Nodup := by
    rw [← H3.is.2.2]
    exact List.Pairwise.imp (fun h => ne_of_lt h) (show List.Pairwise (· < ·) _ by
      simp only [RBTree.keys]; simp; and_intros <;> order)
  have hv := List.inj_on_of_nodup_map hn hm mm rfl
  simp only [Prod.mk.injEq, true_and] at hv
  have q0 := put_insert p0
  have q1 := put_insert p1
  have q2 := put_insert p2
  simp [removeRootTest, r0, q0, q1, q2, e, check, unwrap, hv.2]

end UnitTests

end Sokoban
