import Verif.Proof.Amortised

/-
C101: the colours of a red-black tree change a constant number of times per call on average.
-/
namespace Sokoban.Props
open MapSpec RedBlackSpec RedBlackTree
variable {K V : Type} [LinearOrder K] {M : Nat}

/-- **C101**: whatever calls are made on a new tree, all of them together change the colour of a node at most 9 times for every
insertion and 13 times for every removal among them, although a single call may recolour all nodes of a path. -/
theorem C101_rb_recolourings (hM0 : 0 < M) (hM : M + 1 < 2 ^ 32) (z : RBNode K V) {ops : List (TOp K V)} {n : Nat}
    (hr : Recolourings (RedBlackTree.new z : RedBlackTree K V M) ops n) : n ≤ (ops.map allowance).sum := by
  have := recolourings_le hM hM0 hr (Inv.new z) (HeldT.new z) (m := FMap.empty) ⟨List.Pairwise.nil, by simp [FMap.empty], rfl⟩
  simpa [Textbook.RBTree.pot] using this

/-- **C101**: the same from any moment on; then the nodes already there may be recoloured three times each in addition. -/
theorem C101_rb_recolourings_later (hM0 : 0 < M) (hM : M + 1 < 2 ^ 32) (z : RBNode K V) (before : List (TOp K V))
    {t : RedBlackTree K V M} {outs : List (TOut K V)} (hrun : run call (RedBlackTree.new z) before = .ok (t, outs))
    {ops : List (TOp K V)} {n : Nat} (hr : Recolourings t ops n) : n ≤ (ops.map allowance).sum + 3 * t.len := by
  obtain ⟨t0, os, E, m, e, h, hm, _⟩ := RedBlackTree.run_new hM hM0 z before
  rw [hrun] at e; cases e
  obtain ⟨T, _, hT, _⟩ := h.colours
  have h1 := recolourings_le hM hM0 hr h hT hm
  have h2 := T.pot_le
  have h3 : T.size = E.length := hT.is.2.1
  have h4 : t.len = E.length := h.base.size
  omega

/-! ### counting -/

/-- the colour of a key, as `get_addr` and `get_color` show it -/
def colourOf (s : RedBlackTree K V M) (k : K) : Option Nat :=
  match s.getAddr k with
  | .ok i => if i = SENTINEL then none else (s.getColor i).toOption
  | .error _ => none

/-- the keys of `U` whose colour a call has changed -/
def changed (U : List K) (s s' : RedBlackTree K V M) : List K :=
  U.filter fun k => (colourOf s k).isSome && (colourOf s' k).isSome && !(colourOf s k == colourOf s' k)

/-- the number of changes of colour of the keys `U`, call by call -/
def countChanges (U : List K) : RedBlackTree K V M → List (TOp K V) → R (List Nat)
  | _, [] => .ok []
  | s, op :: ops => do
    let (s', _) ← call s op
    let ns ← countChanges U s' ops
    return (changed U s s').length :: ns

theorem coloured_of {s : RedBlackTree K V M} {k : K} {c : Nat} (h : colourOf s k = some c) : Coloured s k c := by
  unfold colourOf at h
  split at h
  · rename_i i e
    split at h
    · cases h
    · rename_i hi
      cases hc : s.getColor i with
      | error p => rw [hc] at h; cases h
      | ok c' => rw [hc] at h; cases h; exact ⟨i, e, hi, hc⟩
  · cases h

/-- **C101**: counting the changes among some keys gives numbers which the theorems speak of. -/
theorem C101_rb_count {U : List K} (hU : U.Nodup) : ∀ {ops : List (TOp K V)} {s : RedBlackTree K V M} {ns : List Nat},
    countChanges U s ops = .ok ns → Recolourings s ops ns.sum
  | [], s, ns, h => by cases h; exact .done s
  | op :: ops, s, ns, h => by
    unfold countChanges at h
    cases e : call s op with
    | error p => rw [e] at h; cases h
    | ok r =>
      obtain ⟨s', o⟩ := r
      rw [e, except_bind_ok] at h
      cases e2 : countChanges U s' ops with
      | error p => simp only [e2] at h; cases h
      | ok ns' =>
        simp only [e2, except_bind_ok] at h
        cases h
        rw [List.sum_cons]
        refine .call e ⟨hU.filter _, fun k hk => ?_⟩ (C101_rb_count hU e2)
        unfold changed at hk
        simp only [List.mem_filter, Bool.and_eq_true, Bool.not_eq_true', beq_eq_false_iff_ne, ne_eq] at hk
        obtain ⟨_, ⟨h1, h2⟩, h3⟩ := hk
        obtain ⟨c, hc⟩ := Option.isSome_iff_exists.1 h1
        obtain ⟨c', hc'⟩ := Option.isSome_iff_exists.1 h2
        exact ⟨c, c', coloured_of hc, coloured_of hc', fun q => h3 (by rw [hc, hc', q])⟩

/-! ### examples -/

/-- Ascending insertions into a tree of capacity 16, and three removals: one insertion recolours six nodes, and all calls together 49. -/
example : countChanges (List.range 17) (RedBlackTree.new ⟨0, 0⟩ : RedBlackTree Nat Nat 16)
    ((List.range 16).map (fun k => .map (.insert k 0)) ++ [.map (.remove 0), .removeRoot, .map (.remove 1)]) =
    .ok [0, 0, 2, 2, 2, 3, 2, 5, 2, 5, 2, 5, 2, 6, 2, 5, 3, 2, 1] := by decide +kernel

end Sokoban.Props
