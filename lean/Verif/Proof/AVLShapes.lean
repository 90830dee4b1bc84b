import Verif.Spec.AVLShapes
import Verif.Proof.AmortisedAVL
import Mathlib.Data.Nat.Fib.Basic

/-
Every AVL tree is made by insertions: a deepest leaf can be taken off, and inserted again without a rotation.
-/
namespace Sokoban.Textbook.Tree
variable {K : Type}

theorem balanced_of : ∀ {T : Tree K}, T.Bal → T.Balanced
  | .leaf, _ => trivial
  | .node _ _ _, ⟨h1, h2, h3, h4⟩ => ⟨h1, h2, balanced_of h3, balanced_of h4⟩

theorem height_pos : ∀ {T : Tree K}, T ≠ leaf → 0 < T.height
  | .leaf, h => absurd rfl h
  | .node _ _ _, _ => Nat.succ_pos _

theorem ne_leaf {T : Tree K} (h : 0 < T.height) : T ≠ leaf := by
  rintro rfl; exact absurd h (by simp [height])

theorem balance_id {l r : Tree K} {x : K} (h1 : l.height ≤ r.height + 1) (h2 : r.height ≤ l.height + 1) :
    balance l x r = node l x r := by
  unfold balance
  rw [if_neg (by omega), if_neg (by omega)]

variable [LinearOrder K]

theorem order_lt {k x : K} (h : k < x) : order k x = .lt := if_pos h
theorem order_gt {k x : K} (h : x < k) : order k x = .gt := by
  unfold order
  rw [if_neg (not_lt.2 h.le)]
  simp [PartialGt.gt, h]

theorem drop : ∀ {T : Tree K}, T.Balanced → T ≠ leaf → ∃ (k : K) (T0 : Tree K), T0.Balanced ∧
    (T0.height = T.height ∨ T0.height + 1 = T.height) ∧ T0.size + 1 = T.size ∧ T0.keys.Sublist T.keys ∧ k ∈ T.keys ∧
    T.keys.Perm (k :: T0.keys) ∧
    (T.keys.Pairwise (· < ·) → T0.insert (order k) k = T ∧ T0.has (order k) = false)
  | .leaf, _, h => absurd rfl h
  | .node l x r, ⟨h1, h2, h3, h4⟩, _ => by
    by_cases hle : r.height ≤ l.height
    · by_cases hl : l = leaf
      · subst hl
        have hr : r = leaf := by
          by_contra hr
          have := height_pos hr
          rw [height_leaf] at hle
          omega
        subst hr
        exact ⟨x, leaf, trivial, Or.inr rfl, rfl, by simp [keys], by simp [keys], by simp [keys],
          fun _ => ⟨rfl, rfl⟩⟩
      · obtain ⟨k, l0, b, hh, hs, hk, hm, hp, hi⟩ := drop h3 hl
        refine ⟨k, node l0 x r, ⟨by omega, by omega, b, h4⟩, by simp only [height_node]; omega, by simp only [size]; omega,
          hk.append (List.Sublist.refl _), by simp [keys, hm], ?_, fun ho => ?_⟩
        · simp only [keys]
          rw [← List.cons_append]
          exact hp.append_right _
        · simp only [keys, List.pairwise_append, List.mem_cons] at ho
          have hkx : k < x := ho.2.2 k hm x (Or.inl rfl)
          obtain ⟨e1, e2⟩ := hi ho.1
          simp only [insert, has, order_lt hkx, e1, e2, and_true]
          exact balance_id h1 h2
    · have hr : r ≠ leaf := ne_leaf (by omega)
      obtain ⟨k, r0, b, hh, hs, hk, hm, hp, hi⟩ := drop h4 hr
      refine ⟨k, node l x r0, ⟨by omega, by omega, h3, b⟩, by simp only [height_node]; omega, by simp only [size]; omega,
        (List.Sublist.refl _).append (hk.cons_cons x), by simp [keys, hm], ?_, fun ho => ?_⟩
      · simp only [keys]
        refine (((hp.cons x).trans (List.Perm.swap k x _)).append_left _).trans ?_
        exact List.perm_middle
      · simp only [keys, List.pairwise_append, List.pairwise_cons, List.mem_cons] at ho
        have hkx : x < k := ho.2.1.1 k hm
        obtain ⟨e1, e2⟩ := hi ho.2.1.2
        simp only [insert, has, order_gt hkx, e1, e2, and_true]
        exact balance_id h1 h2

theorem built {V : Type} (v : V) {M : Nat} : ∀ (n : Nat) {T : Tree K}, T.size = n → T.IsAVL M →
    ∃ ks : List K, ks.Perm T.keys ∧ (ks.map fun k => (MapSpec.Op.insert k v : MapSpec.Op K V)).foldl (step order M) leaf = T
  | 0, T, hn, _ => by
    cases T with
    | leaf => exact ⟨[], .nil, rfl⟩
    | node l x r => simp [size] at hn
  | n + 1, T, hn, ⟨h1, h2, h3⟩ => by
    obtain ⟨k, T0, b, _, hs, hk, _, hp, hi⟩ := drop h1 (by rintro rfl; simp [size] at hn)
    obtain ⟨e1, e2⟩ := hi h2
    obtain ⟨ks, hks, e⟩ := built v (M := M) n (T := T0) (by omega) ⟨b, h2.sublist hk, by omega⟩
    refine ⟨ks ++ [k], ?_, ?_⟩
    · refine List.Perm.trans ?_ hp.symm
      exact List.perm_append_comm.trans (hks.cons k)
    · rw [List.map_append, List.foldl_append, e]
      show step order M T0 (MapSpec.Op.insert k v) = T
      simp only [step]
      rw [if_neg (by omega), e1]

omit [LinearOrder K] in
theorem fib_le : ∀ {T : Tree K}, T.Balanced → Nat.fib (T.height + 2) ≤ T.size + 1
  | .leaf, _ => by simp [height, size]
  | .node l _ r, ⟨h1, h2, h3, h4⟩ => by
    have q1 := fib_le h3
    have q2 := fib_le h4
    rw [height_node, size]
    by_cases h : r.height ≤ l.height
    · rw [Nat.max_eq_left h, show l.height + 1 + 2 = (l.height + 1) + 2 from rfl, Nat.fib_add_two]
      have : Nat.fib (l.height + 1) ≤ Nat.fib (r.height + 2) := Nat.fib_mono (by omega)
      have e : l.height + 1 + 1 = l.height + 2 := rfl
      rw [e]; omega
    · rw [Nat.max_eq_right (by omega), show r.height + 1 + 2 = (r.height + 1) + 2 from rfl, Nat.fib_add_two]
      have : Nat.fib (r.height + 1) ≤ Nat.fib (l.height + 2) := Nat.fib_mono (by omega)
      have e : r.height + 1 + 1 = r.height + 2 := rfl
      rw [e]; omega

/-- the trees of Fibonacci, with the keys from `a` on -/
def fibTree : Nat → Nat → Tree Nat
  | 0, _ => leaf
  | 1, a => node leaf a leaf
  | h + 2, a => node (fibTree (h + 1) a) (a + (Nat.fib (h + 3) - 1)) (fibTree h (a + Nat.fib (h + 3)))

theorem fibTree_ok : ∀ h a, (fibTree h a).Balanced ∧ (fibTree h a).height = h ∧ (fibTree h a).size + 1 = Nat.fib (h + 2) ∧
    (fibTree h a).keys = List.range' a (Nat.fib (h + 2) - 1)
  | 0, a => ⟨trivial, rfl, rfl, rfl⟩
  | 1, a => ⟨⟨by decide, by decide, trivial, trivial⟩, rfl, rfl, rfl⟩
  | h + 2, a => by
    obtain ⟨b1, h1, s1, k1⟩ := fibTree_ok (h + 1) a
    obtain ⟨b2, h2, s2, k2⟩ := fibTree_ok h (a + Nat.fib (h + 3))
    have e : Nat.fib (h + 4) = Nat.fib (h + 2) + Nat.fib (h + 3) := Nat.fib_add_two
    have p2 : 0 < Nat.fib (h + 2) := Nat.fib_pos.2 (by omega)
    have p3 : 0 < Nat.fib (h + 3) := Nat.fib_pos.2 (by omega)
    refine ⟨⟨by omega, by omega, b1, b2⟩, by simp only [fibTree, height_node]; omega, ?_, ?_⟩
    · simp only [fibTree, size]
      show _ = Nat.fib (h + 4)
      have : h + 1 + 2 = h + 3 := rfl
      rw [this] at s1
      omega
    · simp only [fibTree, keys]
      rw [k1, k2]
      show List.range' a (Nat.fib (h + 3) - 1) ++ _ = List.range' a (Nat.fib (h + 4) - 1)
      have e2 : a + Nat.fib (h + 3) = a + (Nat.fib (h + 3) - 1) + 1 := by omega
      rw [e2, ← List.range'_succ, show Nat.fib (h + 2) - 1 + 1 = Nat.fib (h + 2) by omega]
      have := List.range'_append_1 (s := a) (m := Nat.fib (h + 3) - 1) (n := Nat.fib (h + 2))
      rw [this]
      congr 1
      omega

theorem fibTree_avl {h M : Nat} (hM : Nat.fib (h + 2) ≤ M + 1) : (fibTree h 0).IsAVL M := by
  obtain ⟨b, _, s, k⟩ := fibTree_ok h 0
  refine ⟨b, ?_, by omega⟩
  rw [k]
  exact List.pairwise_lt_range'

end Sokoban.Textbook.Tree

namespace Sokoban.AVLTree
open MapSpec Textbook AVLSpec
variable {K V : Type} {M : Nat} [LinearOrder K]

theorem shape_of (hM0 : 0 < M) (hM : M + 1 < 2 ^ 32) (z : AVLNode K V) (ops : List (Op K V)) {t : AVLTree K V M}
    {outs : List (Out K V)} (e : run call (new z) ops = .ok (t, outs)) {T : Tree K} (hT : AVLIs t t.root T) : T.IsAVL M := by
  obtain ⟨t0, os, E, m, e', h, hm, _⟩ := run_new hM hM0 z ops
  rw [e] at e'; cases e'
  obtain ⟨T0, hT0, hb, _⟩ := h.heights
  have := hT0.is.1.unique hT
  subst this
  obtain ⟨_, _, _, hs, _⟩ := h.tree
  refine ⟨Tree.balanced_of hb, ?_, ?_⟩
  · rw [hT0.is.2.2, List.pairwise_map]; exact hs
  · rw [hT0.is.2.1]; exact h.base.le

theorem shape_built (hM0 : 0 < M) (hM : M + 1 < 2 ^ 32) (z : AVLNode K V) (v : V) {T : Tree K} (hT : T.IsAVL M) :
    ∃ ks : List K, ks.Perm T.keys ∧ ∃ (t : AVLTree K V M) (outs : List (Out K V)),
      run call (new z) (ks.map fun k => .insert k v) = .ok (t, outs) ∧ AVLIs t t.root T := by
  obtain ⟨ks, hp, e⟩ := Tree.built v T.size rfl hT
  obtain ⟨t, os, E, e1, h⟩ := run_textbook (M := M) hM hM0 z (ks.map fun k => .insert k v)
  rw [e] at h
  exact ⟨ks, hp, t, os, e1, h.is.1⟩

end Sokoban.AVLTree
