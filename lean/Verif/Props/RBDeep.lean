import Verif.Proof.RBDeep
import Verif.Props.RedBlack

/-
C108: the bound on the depth of red-black trees (C24) is attained.
-/
namespace Sokoban.Props
open MapSpec RedBlackSpec RedBlackTree Textbook
variable {K V : Type} [LinearOrder K] {M : Nat}

/-- **C108**: after the insertion of `2 ^ (h + 1) - 2` keys in ascending order, the bound `2 * log2(len + 1)` of C24 is `2 * h`, and
there are that many nodes from the root down to the greatest key: a search for a key not less than it ends if and only if the loop
of `get_addr` may run that many times. So the bound of C24 cannot be lowered at any of these sizes. -/
theorem C108_rb_depth_attained (hM : M + 1 < 2 ^ 32) (z : RBNode K V) (v : V) {h : Nat} (h1 : 1 ≤ h) {ks : List K}
    (hlen : ks.length + 2 = 2 ^ (h + 1)) (hs : ks.Pairwise (· < ·)) (hcap : ks.length ≤ M) :
    ∃ (t : RedBlackTree K V M) (outs : List (TOut K V)),
      run call (RedBlackTree.new z) (ks.map fun k => .map (.insert k v)) = .ok (t, outs) ∧
      t.len = ks.length ∧ 2 * (t.len + 1).log2 = 2 * h ∧
      (∀ k, (∀ x ∈ ks, x ≤ k) → ∀ fuel, t.getAddrLoop k fuel t.root = .error .diverge ↔ fuel < 2 * h) ∧
      ∀ j ≤ 2 * h, ∃ i, walk t t.root (List.replicate j true) = .ok i ∧ (i = SENTINEL ↔ j = 2 * h) := by
  have e4 : 2 ^ (h + 1) = 2 ^ h + 2 ^ h := by rw [Nat.pow_succ]; omega
  have e5 : 2 ≤ 2 ^ h := by
    calc 2 = 2 ^ 1 := rfl
      _ ≤ 2 ^ h := Nat.pow_le_pow_right (by omega) h1
  have hM0 : 0 < M := by omega
  obtain ⟨t, outs, E, e, hT⟩ := run_textbook (M := M) hM hM0 z (ks.map fun k => .map (.insert k v))
  obtain ⟨hsp, hk⟩ := RBTree.ascend (M := M) v ks (ds := []) (T := .leaf) rfl (by simpa [RBTree.keys] using hs)
    (by simpa [RBTree.keys] using hcap)
  rw [RBTree.next_all h _ hlen] at hsp
  have hn := hsp.spine
  simp only [RBTree.keys, List.nil_append] at hk
  have hl : t.len = ks.length := by
    have q1 : t.len = E.length := hT.held.base.size
    have q2 := hT.is.2.1
    rw [RBTree.size_keys, hk] at q2
    omega
  have hlog : (t.len + 1).log2 = h := by
    rw [Nat.log2_eq_iff (by omega)]
    omega
  refine ⟨t, outs, e, hl, by omega, fun k hkk fuel => ?_, fun j hj => ?_⟩
  · constructor
    · intro hd
      by_contra hf
      have h3 := (C24_rb_depth hM0 hM z _ e (by omega) k v fuel (by omega)).1
      rw [hd] at h3
      rcases hT.find hM hM0 k with ⟨q, _⟩ | ⟨_, _, _, _, _, _, _, q, _⟩
      · rw [q] at h3; cases h3
      · rw [q] at h3; cases h3
    · intro hf
      exact search_spine hT.is.1 (by rw [hk]; exact hs) (by rw [hk]; exact hkk) (by rw [hn]; exact hf)
  · have := walk_spine hT.is.1 j (by rw [hn]; exact hj)
    rw [hn] at this
    exact this

/-! ### examples -/

/-- six keys, `h = 2` -/
example : ([1, 2, 3, 5, 8, 13] : List Nat).length + 2 = 2 ^ (2 + 1) ∧ ([1, 2, 3, 5, 8, 13] : List Nat).Pairwise (· < ·) := by decide

/-- the search for 13 needs four iterations -/
example : (run RedBlackSpec.call (RedBlackTree.new ⟨0, 0⟩ : RedBlackTree Nat Nat 7)
    ([1, 2, 3, 5, 8, 13].map fun k => .map (.insert k 0))).map (fun x => [3, 4].map fun f => x.1.getAddrLoop 13 f x.1.root) =
    .ok [.error .diverge, .ok 6] := by decide +kernel

/-- every `h` with enough room has such keys -/
example (h : Nat) : ((List.range (2 ^ (h + 1) - 2)).length + 2 = 2 ^ (h + 1)) ∧ (List.range (2 ^ (h + 1) - 2)).Pairwise (· < ·) := by
  have : 2 ≤ 2 ^ (h + 1) := by rw [Nat.pow_succ]; have := Nat.one_le_two_pow (n := h); omega
  exact ⟨by rw [List.length_range]; omega, List.pairwise_lt_range⟩

end Sokoban.Props
