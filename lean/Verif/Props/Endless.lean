import Verif.Props.Loops
import Verif.Proof.Endless

/-
C95: bytes on which the repairs of the red-black tree never end although the search does.
-/
namespace Sokoban.Props
open Bytes
variable {K V : Type}

/-- C95: every buffer that fits can hold bytes that load as a red-black tree with two entries and room for more, in which
the search for any key other than the one at the root ends at once ("not there"), while inserting that key runs through any
number of iterations of the repair loop. -/
theorem C95_insert_endless [Ord K] {A : Rep K} {C : Rep V} (hA : A.Element) (hC : C.Element) {M : Nat} (hM : 3 ≤ M)
    (hM' : M + 1 < 2 ^ 32) (s : Slice) (hs : s.Fits (redBlackTree A C M)) :
    ∃ mem t, load (redBlackTree A C M) { s with mem := mem } = .ok (some t) ∧ t.len = 2 ∧
      ∀ k, compare k (A.read s.mem) ≠ .eq → t.get k = .ok none ∧ ∀ v lim, t.insert k v lim = .error .diverge :=
  ⟨_, RedBlackTree.knot ⟨A.read s.mem, C.read s.mem⟩,
    load_store (lawful_redBlackTree hA.1 hC.1 M) hs (valid_redBlackTree hA hC _ (RedBlackTree.knot_inRange _)), rfl,
    fun _ hk => ⟨RedBlackTree.knot_get hk (by omega), fun v lim => RedBlackTree.knot_insert v hk hM hM' lim⟩⟩

/-- C95: the same for removals: the search finds the key at the root at once, and removing it never ends. -/
theorem C95_remove_endless [Ord K] {A : Rep K} {C : Rep V} (hA : A.Element) (hC : C.Element) {M : Nat} (hM : 2 ≤ M)
    (hM' : M + 1 < 2 ^ 32) (s : Slice) (hs : s.Fits (redBlackTree A C M)) :
    ∃ mem t, load (redBlackTree A C M) { s with mem := mem } = .ok (some t) ∧ t.len = 2 ∧
      ∀ k, compare k (A.read s.mem) = .eq → t.get k = .ok (some (C.read s.mem)) ∧ ∀ lim, t.remove k lim = .error .diverge :=
  ⟨_, RedBlackTree.ring ⟨A.read s.mem, C.read s.mem⟩,
    load_store (lawful_redBlackTree hA.1 hC.1 M) hs (valid_redBlackTree hA hC _ (RedBlackTree.ring_inRange _)), rfl,
    fun _ hk => ⟨RedBlackTree.ring_get hk (by omega), fun lim => RedBlackTree.ring_remove hk hM hM' lim⟩⟩

/-- C95: `is_valid_red_black_tree`, the check one would run on bytes from outside, is no help: there are bytes that load
and on which its loop does not end either. (The model counts black nodes in `Nat`; in Rust the `u32` count overflows after
`2 ^ 32` iterations, which panics if overflow is checked and goes unnoticed otherwise. So the statement is about fewer
iterations.) -/
theorem C95_valid_endless {A : Rep K} {C : Rep V} (hA : A.Element) (hC : C.Element) {M : Nat} (hM : 1 ≤ M)
    (s : Slice) (hs : s.Fits (redBlackTree A C M)) :
    ∃ mem t, load (redBlackTree A C M) { s with mem := mem } = .ok (some t) ∧ t.len = 1 ∧ t.isRed t.root = .ok false ∧
      ∀ n < 2 ^ 32, t.validLoop n [(t.root, 0)] [] = .error .diverge :=
  ⟨_, RedBlackTree.loop ⟨A.read s.mem, C.read s.mem⟩,
    load_store (lawful_redBlackTree hA.1 hC.1 M) hs (valid_redBlackTree hA hC _ (RedBlackTree.loop_inRange _)), rfl,
    RedBlackTree.loop_isRed hM, fun n _ => RedBlackTree.loop_valid hM n 0⟩

/-- The hypotheses: a buffer of zeros for three entries; every key but 0 can be inserted, 0 removed. -/
example : (⟨0, (redBlackTree (uint 8 8) (uint 8 8) 3).size, zeroMem⟩ : Slice).Fits (redBlackTree (uint 8 8) (uint 8 8) 3) ∧
    compare 5 ((uint 8 8).read zeroMem) ≠ .eq ∧ compare 0 ((uint 8 8).read zeroMem) = .eq :=
  ⟨⟨Nat.le_refl _, Nat.dvd_zero _⟩, by decide, by decide⟩

/-- The two trees in small, computed: three slots, the key 7 at the root, ten iterations. -/
example : ((RedBlackTree.knot ⟨7, 0⟩ : RedBlackTree Nat Nat 3).insert 9 1 10 matches .error .diverge) = true ∧
    ((RedBlackTree.ring ⟨7, 0⟩ : RedBlackTree Nat Nat 3).remove 7 10 matches .error .diverge) = true := by
  decide +kernel

end Sokoban.Props
