import Verif.Proof.AmortisedAVL

/-
C102: insertions into an AVL tree change a constant number of stored heights per call on average.
-/
namespace Sokoban.Props
open MapSpec AVLSpec AVLTree
variable {K V : Type} [LinearOrder K] {M : Nat}

/-- **C102**: whatever calls other than `remove` are made on a new tree, all of them together change the height stored in a node at
most 7 times for every insertion among them, although a single insertion may raise all nodes of a path. -/
theorem C102_avl_rewritings (hM0 : 0 < M) (hM : M + 1 < 2 ^ 32) (z : AVLNode K V) {ops : List (Op K V)} {n : Nat}
    (hk : ∀ op ∈ ops, Keeps op) (hr : Rewritings (AVLTree.new z : AVLTree K V M) ops n) : n ≤ (ops.map allowance).sum := by
  have := rewritings_le hM hM0 hr (Inv.new z) (HeldT.new z) (m := FMap.empty) ⟨List.Pairwise.nil, by simp [FMap.empty], rfl⟩ hk
  simpa [Textbook.Tree.pot] using this

/-- **C102**: the same from any moment on, after any calls; then one change more for every key already there. -/
theorem C102_avl_rewritings_later (hM0 : 0 < M) (hM : M + 1 < 2 ^ 32) (z : AVLNode K V) (before : List (Op K V))
    {t : AVLTree K V M} {outs : List (Out K V)} (hrun : run call (AVLTree.new z) before = .ok (t, outs))
    {ops : List (Op K V)} {n : Nat} (hk : ∀ op ∈ ops, Keeps op) (hr : Rewritings t ops n) :
    n ≤ (ops.map allowance).sum + t.len := by
  obtain ⟨t0, os, E, m, e, h, hm, _⟩ := AVLTree.run_new hM hM0 z before
  rw [hrun] at e; cases e
  obtain ⟨T, hT, _⟩ := h.heights
  have h1 := rewritings_le hM hM0 hr h hT hm hk
  have h2 := T.pot_le
  have h3 : T.size = E.length := hT.is.2.1
  have h4 : t.len = E.length := h.base.size
  omega

/-! ### counting -/

/-- the height stored for a key: register 3 of the node that `get_addr` shows -/
def heightOf (s : AVLTree K V M) (k : K) : Option Nat :=
  match s.getAddr k with
  | .ok i => if i = SENTINEL then none else (s.getField i AVLTree.HEIGHT).toOption
  | .error _ => none

/-- the keys of `U` whose stored height a call has changed -/
def rewritten (U : List K) (s s' : AVLTree K V M) : List K :=
  U.filter fun k => (heightOf s k).isSome && (heightOf s' k).isSome && !(heightOf s k == heightOf s' k)

/-- the number of changes of the heights of the keys `U`, call by call -/
def countRewrites (U : List K) : AVLTree K V M → List (Op K V) → R (List Nat)
  | _, [] => .ok []
  | s, op :: ops => do
    let (s', _) ← call s op
    let ns ← countRewrites U s' ops
    return (rewritten U s s').length :: ns

theorem high_of {s : AVLTree K V M} {k : K} {c : Nat} (h : heightOf s k = some c) : High s k c := by
  unfold heightOf at h
  split at h
  · rename_i i e
    split at h
    · cases h
    · rename_i hi
      cases hc : s.getField i AVLTree.HEIGHT with
      | error p => rw [hc] at h; cases h
      | ok c' => rw [hc] at h; cases h; exact ⟨i, e, hi, hc⟩
  · cases h

/-- **C102**: counting the changes among some keys gives numbers which the theorems speak of. -/
theorem C102_avl_count {U : List K} (hU : U.Nodup) : ∀ {ops : List (Op K V)} {s : AVLTree K V M} {ns : List Nat},
    countRewrites U s ops = .ok ns → Rewritings s ops ns.sum
  | [], s, ns, h => by cases h; exact .done s
  | op :: ops, s, ns, h => by
    unfold countRewrites at h
    cases e : call s op with
    | error p => rw [e] at h; cases h
    | ok r =>
      obtain ⟨s', o⟩ := r
      rw [e, except_bind_ok] at h
      cases e2 : countRewrites U s' ops with
      | error p => simp only [e2] at h; cases h
      | ok ns' =>
        simp only [e2, except_bind_ok] at h
        cases h
        rw [List.sum_cons]
        refine .call e ⟨hU.filter _, fun k hk => ?_⟩ (C102_avl_count hU e2)
        unfold rewritten at hk
        simp only [List.mem_filter, Bool.and_eq_true, Bool.not_eq_true', beq_eq_false_iff_ne, ne_eq] at hk
        obtain ⟨_, ⟨h1, h2⟩, h3⟩ := hk
        obtain ⟨c, hc⟩ := Option.isSome_iff_exists.1 h1
        obtain ⟨c', hc'⟩ := Option.isSome_iff_exists.1 h2
        exact ⟨c, c', high_of hc, high_of hc', fun q => h3 (by rw [hc, hc', q])⟩

/-! ### examples -/

/-- Ascending insertions into a tree of capacity 16: the last one raises four nodes, and all of them together change 37 heights. -/
example : countRewrites (List.range 17) (AVLTree.new ⟨0, 0⟩ : AVLTree Nat Nat 16)
    ((List.range 16).map (fun k => .insert k 0)) = .ok [0, 1, 2, 2, 2, 3, 2, 3, 2, 3, 2, 4, 2, 3, 2, 4] := by decide +kernel

/-- With removals it is different: in a full tree of fifteen keys, taking one key out and putting it back changes four heights
each time, however often it is done. -/
example : countRewrites (List.range 17) (AVLTree.new ⟨0, 0⟩ : AVLTree Nat Nat 16)
    ((List.range 16).map (fun k => .insert k 0) ++ [.remove 15, .insert 15 0, .remove 15, .insert 15 0]) =
    .ok [0, 1, 2, 2, 2, 3, 2, 3, 2, 3, 2, 4, 2, 3, 2, 4, 4, 4, 4, 4] := by decide +kernel

end Sokoban.Props
