import Verif.Model.Alloc

/-
What it means that functions for the left child, the right child and the parent of a node describe one
binary tree.
-/
namespace Sokoban.Nav

/-- `Linked left right parent p i L`: starting at node `i`, the functions describe a finite binary tree
with the nodes `L` from left to right; the parent of `i` is `p`. Node `SENTINEL` stands for no tree. -/
inductive Linked (left right parent : Nat → R Nat) : Nat → Nat → List Nat → Prop
  | none (p : Nat) : Linked left right parent p SENTINEL []
  | node {p i l r : Nat} {A B : List Nat} (hi : i ≠ SENTINEL) (hp : parent i = .ok p)
      (hl : left i = .ok l) (hr : right i = .ok r) (ha : Linked left right parent i l A)
      (hb : Linked left right parent i r B) : Linked left right parent p i (A ++ i :: B)

/-- The node reached from `i` by `d` calls of `parent`. -/
def climb (parent : Nat → R Nat) : Nat → Nat → R Nat
  | 0, i => .ok i
  | d + 1, i => do climb parent d (← parent i)

end Sokoban.Nav
