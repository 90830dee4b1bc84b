import Verif.Proof.RBAny
import Verif.Proof.AVLAny

/-
Property theorems C67: red-black tree and AVL tree with keys whose comparison obeys no law.

Nothing is assumed about the comparison: for the red-black tree `[Ord K]` is any function into
`Ordering`, for the AVL tree `[LT K]` and `[PartialGt K]` are any two decidable relations (`a < b` and `a > b`),
related to each other or not. In Rust such comparisons arise from a faulty `Ord`/`PartialOrd` implementation or from floats.
`Trace (AnyOrder.TStep ..) [] ops outs L` (Spec/AnyOrder.lean) describes what every call does to the
sequence of the entries.
-/
namespace Sokoban.Props
open MapSpec
variable {K V : Type} {M : Nat}

section rb
open RedBlackSpec RedBlackTree
variable [Ord K]

/-- C67 for the red-black tree: whatever the comparison, every history completes without a panic and
an endless loop. Every call adds, removes or changes at most one entry, one whose key compares equal to the given one,
and leaves the others as they are and in their order; `iter` yields exactly the entries, from both ends. -/
theorem C67_rb_any_order (hM0 : 0 < M) (hM : M + 1 < 2 ^ 32) (z : RBNode K V) (ops : List (TOp K V)) :
    ∃ (t : RedBlackTree K V M) (outs : List (TOut K V)) (L : List (K × V)),
      run call (RedBlackTree.new z) ops = .ok (t, outs) ∧
      Trace (AnyOrder.TStep (fun k k' => compare k k' = .eq) M) [] ops outs L ∧
      t.len = L.length ∧ L.length ≤ M ∧ t.isEmpty = decide (L.length = 0) ∧
      (∀ es, ∃ it', drive (Iter.next t) (Iter.nextBack t) t.iter es = .ok (it', consume L es)) ∧
      ∀ k, AnyOrder.Finds api (fun k k' => compare k k' = .eq) M t L k := by
  obtain ⟨t, os, E, e, h, hs⟩ := RedBlackTree.run_any hM hM0 z ops
  have hl : t.len = (E.map Prod.snd).length := by rw [List.length_map]; exact h.base.size
  refine ⟨t, os, E.map Prod.snd, e, hs, hl, by simpa using h.base.le, ?_, (loose hM hM0).drive h, (loose hM hM0).finds h⟩
  rw [← hl]; rfl

/-- C67: the tree stays a red-black tree and shallow, whatever the comparison. -/
theorem C67_rb_any_order_balanced (hM0 : 0 < M) (hM : M + 1 < 2 ^ 32) (z : RBNode K V) (ops : List (TOp K V))
    {t : RedBlackTree K V M} {outs : List (TOut K V)}
    (hrun : run call (RedBlackTree.new z) ops = .ok (t, outs)) :
    t.isRed t.root = .ok false ∧
    (∀ p, ∃ i, walk t t.root p = .ok i ∧ (t.isRed i = .ok true →
      ∃ l r, t.getLeft i = .ok l ∧ t.getRight i = .ok r ∧ t.isRed l = .ok false ∧ t.isRed r = .ok false)) ∧
    (∃ n, ∀ p, ToNil t t.root p → blacks t t.root p = .ok n) ∧
    t.isValid = .ok true ∧
    (t.len ≠ 0 → ∀ k v fuel, 2 * (t.len + 1).log2 ≤ fuel →
      t.getAddrLoop k fuel t.root = t.getAddr k ∧ t.insertLoop k v fuel t.root = t.insert k v ∧
      t.removeLoop k fuel t.root = t.remove k) := by
  obtain ⟨t0, os, E, e, h, hs⟩ := RedBlackTree.run_any hM hM0 z ops
  rw [hrun] at e; cases e
  obtain ⟨h1, h2, h3, h4⟩ := h.redBlack
  have hl : t.len = E.length := h.base.size
  refine ⟨h1, h2, h3, h4, fun hne k v fuel hf => ?_⟩
  rw [hl] at hne hf
  exact h.depth hM (fun hc => hne (by rw [hc]; rfl)) k v hf

end rb

section avl
open AVLSpec AVLTree
variable [LT K] [DecidableLT K] [PartialGt K]

/-- C67 for the AVL tree. A key counts as equal to one in the tree if it is neither less nor greater. -/
theorem C67_avl_any_order (hM0 : 0 < M) (hM : M + 1 < 2 ^ 32) (z : AVLNode K V) (ops : List (Op K V)) :
    ∃ (t : AVLTree K V M) (outs : List (Out K V)) (L : List (K × V)),
      run call (AVLTree.new z) ops = .ok (t, outs) ∧
      Trace (AnyOrder.Step (fun k k' => ¬ k < k' ∧ ¬ PartialGt.gt k k') M) [] ops outs L ∧
      t.len = L.length ∧ L.length ≤ M ∧ t.isEmpty = decide (L.length = 0) ∧
      (∀ es, ∃ it', drive (Iter.next t) (Iter.nextBack t) t.iter es = .ok (it', consume L es)) ∧
      ∀ k, AnyOrder.Finds api (fun k k' => ¬ k < k' ∧ ¬ PartialGt.gt k k') M t L k := by
  obtain ⟨t, os, E, e, h, hs⟩ := AVLTree.run_any hM hM0 z ops
  have hl : t.len = (E.map Prod.snd).length := by rw [List.length_map]; exact h.base.size
  refine ⟨t, os, E.map Prod.snd, e, hs, hl, by simpa using h.base.le, ?_, (loose hM hM0).drive h, (loose hM hM0).finds h⟩
  rw [← hl]; rfl

/-- C67: the tree stays height-balanced and shallow, whatever the comparison. -/
theorem C67_avl_any_order_balanced (hM0 : 0 < M) (hM : M + 1 < 2 ^ 32) (z : AVLNode K V) (ops : List (Op K V))
    {t : AVLTree K V M} {outs : List (Out K V)}
    (hrun : run call (AVLTree.new z) ops = .ok (t, outs)) :
    (∀ p, ∃ i, walk t t.root p = .ok i ∧ (i ≠ SENTINEL →
      ∃ l r a b, t.getField i LEFT = .ok l ∧ t.getField i RIGHT = .ok r ∧ Levels t l a ∧ Levels t r b ∧
        a ≤ b + 1 ∧ b ≤ a + 1 ∧ t.getField i HEIGHT = .ok (max a b))) ∧
    (t.len ≠ 0 → ∀ k v fuel, 2 * (t.len + 1).log2 + 1 ≤ fuel →
      t.searchLoop k fuel t.root = t.getAddr k ∧
      t.insertLoop k v fuel t.root [(none, none, t.root)] = t.insert k v ∧
      (∃ i path, t.removePath k (fuel + 1) t.root [(none, none, t.root)] = .ok (i, path) ∧
        t.remove k = if i = SENTINEL then .ok (t, none) else t.removeNode i path)) := by
  obtain ⟨t0, os, E, e, h, hs⟩ := AVLTree.run_any hM hM0 z ops
  rw [hrun] at e; cases e
  have hl : t.len = E.length := h.base.size
  refine ⟨h.balanced, fun hne k v fuel hf => ?_⟩
  rw [hl] at hne hf
  exact h.depth hM (fun hc => hne (by rw [hc]; rfl)) k v (deep_of_log hf)

end avl

/-! ### examples -/

/-- keys compared like the hands of rock, paper, scissors -/
inductive Hand where
  | rock | paper | scissors
deriving DecidableEq

/-- a comparison that is not an order: every hand is less than the one beating it, and paper does not compare
equal to itself -/
instance : Ord Hand where
  compare
    | .rock, .rock => .eq
    | .rock, .paper => .lt
    | .rock, .scissors => .gt
    | .paper, .rock => .gt
    | .paper, .paper => .lt
    | .paper, .scissors => .lt
    | .scissors, .rock => .lt
    | .scissors, .paper => .gt
    | .scissors, .scissors => .eq

/-- The hypotheses of `C67_rb_any_order` with such keys: paper is stored twice and never found. -/
example : ∃ t outs, run RedBlackSpec.call (RedBlackTree.new ⟨.rock, 0⟩ : RedBlackTree Hand Nat 4)
    [.map (.insert .rock 1), .map (.insert .paper 2), .map (.insert .scissors 3), .map (.insert .paper 4),
      .map (.remove .paper)] = .ok (t, outs) ∧ t.len = 4 ∧ t.isValid = .ok true ∧ t.get .paper = .ok none ∧
      t.get .scissors = .ok (some 3) := by
  refine ⟨_, _, rfl, rfl, rfl, rfl, rfl⟩

/-- a relation that is not an order -/
instance : LT Hand := ⟨fun a b => compare a b = .lt⟩

instance : DecidableLT Hand := fun a b => inferInstanceAs (Decidable (compare a b = .lt))

/-- The hypotheses of `C67_avl_any_order` with such keys: rock < paper < scissors < rock.
After the removal of rock, scissors is still stored (and iterated over) but no longer found. -/
example : ∃ t outs, run AVLSpec.call (AVLTree.new ⟨.rock, 0⟩ : AVLTree Hand Nat 4)
    [.insert .rock 1, .insert .paper 2, .insert .scissors 3, .insert .paper 4, .remove .rock] = .ok (t, outs) ∧
      t.len = 3 ∧ t.get .scissors = .ok none ∧
      ∃ it, drive (AVLTree.Iter.next t) (AVLTree.Iter.nextBack t) t.iter [.front, .front] =
        .ok (it, [some (.scissors, 3), some (.paper, 4)]) := by
  refine ⟨_, _, rfl, rfl, rfl, _, rfl⟩

/-- numbers of which no two are less than one another but every one is greater than every other and than itself -/
structure Vain where
  n : Nat

instance : LT Vain := ⟨fun _ _ => False⟩

instance : DecidableLT Vain := fun _ _ => .isFalse id

instance : PartialGt Vain := ⟨fun _ _ => True, fun _ _ => .isTrue trivial⟩

/-- The hypotheses of `C67_avl_any_order` with `>` that is not `<` turned round: every insertion goes to the right end,
and nothing is found. -/
example : ∃ t outs, run AVLSpec.call (AVLTree.new ⟨⟨0⟩, 0⟩ : AVLTree Vain Nat 4)
    [.insert ⟨3⟩ 1, .insert ⟨1⟩ 2, .insert ⟨2⟩ 3, .insert ⟨1⟩ 4, .remove ⟨1⟩] = .ok (t, outs) ∧
      t.len = 4 ∧ t.get ⟨3⟩ = .ok none ∧ t.getField t.root AVLTree.HEIGHT = .ok 2 ∧
      ∃ it, drive (AVLTree.Iter.next t) (AVLTree.Iter.nextBack t) t.iter [.front, .front, .front, .front] =
        .ok (it, [some (⟨3⟩, 1), some (⟨1⟩, 2), some (⟨2⟩, 3), some (⟨1⟩, 4)]) := by
  refine ⟨_, _, rfl, rfl, rfl, rfl, _, rfl⟩

end Sokoban.Props
