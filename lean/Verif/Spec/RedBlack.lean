import Verif.Model.RedBlack
import Verif.Spec.Api
import Mathlib.Order.Defs.LinearOrder

/-
Histories of red-black tree calls and the red-black conditions, stated through the accessor
functions.
-/
namespace Sokoban.RedBlackSpec
open MapSpec
variable {K V : Type} {M : Nat}

/-- `impl NodeAllocatorMap for RedBlackTree` (red_black_tree.rs:131-187) and the `Index`
implementation. -/
def api [Ord K] : Api (RedBlackTree K V M) K V where
  insert := RedBlackTree.insert
  remove := RedBlackTree.remove
  get := RedBlackTree.get
  contains := RedBlackTree.contains
  index := RedBlackTree.index
  getMut := RedBlackTree.getMut
  len := RedBlackTree.len
  isEmpty := RedBlackTree.isEmpty
  Iter := RedBlackTree.Iter
  iter := RedBlackTree.iter
  next := RedBlackTree.Iter.next
  nextBack := RedBlackTree.Iter.nextBack
  Ref := Nat
  slot := id
  nextMut := RedBlackTree.Iter.nextMut
  nextBackMut := RedBlackTree.Iter.nextBackMut
  read t i := do
    let n ← t.getNode i
    return (n.key, n.value)
  readVal t i := do
    let n ← t.getNode i
    return n.value
  write := RedBlackTree.setNodeValue

/-- Mutating calls on a red-black tree: those of every map, and `remove_root`. -/
inductive TOp (K V : Type) where
  | map (op : Op K V)
  | removeRoot

/-- Their results. -/
inductive TOut (K V : Type) where
  | map (o : Out K V)
  | root (e : Option (K × V))

/-- One call. -/
def call [Ord K] (t : RedBlackTree K V M) : TOp K V → R (RedBlackTree K V M × TOut K V)
  | .map op => do let (t, o) ← api.call t op; return (t, .map o)
  | .removeRoot => do
      let (t, n) ← t.removeRoot
      return (t, .root (n.map fun n => (n.key, n.value)))

/-- What one call may do to a finite map. `remove_root` removes some entry, if there is one. -/
def TStep [DecidableEq K] [LT K] (cap : Nat) (m : FMap K V) : TOp K V → TOut K V → FMap K V → Prop
  | .map op, .map o, m' => Step (treeRules K V cap) m op o m'
  | .removeRoot, .root none, m' => m.len = 0 ∧ m' = m
  | .removeRoot, .root (some (k, v)), m' => m.get k = some v ∧ m' = m.erase k
  | _, _, _ => False

/-- A history. -/
abbrev TSteps [DecidableEq K] [LT K] (cap : Nat) (m : FMap K V) :
    List (TOp K V) → List (TOut K V) → FMap K V → Prop := Trace (TStep cap) m

/-- The call removed key `k`. -/
def Removes (k : K) : TOp K V × TOut K V → Prop
  | (.map (.remove k'), _) => k' = k
  | (.removeRoot, .root (some (k', _))) => k' = k
  | _ => False

/-- Follow directions (`false` = left) from node `i`: the node reached. -/
def walk (t : RedBlackTree K V M) (i : Nat) : List Bool → R Nat
  | [] => .ok i
  | d :: ds => do
    let j ← (if d then t.getRight i else t.getLeft i)
    walk t j ds

/-- The number of black nodes strictly above the end of a path. -/
def blacks (t : RedBlackTree K V M) (i : Nat) : List Bool → R Nat
  | [] => .ok 0
  | d :: ds => do
    let b ← t.isBlack i
    let j ← (if d then t.getRight i else t.getLeft i)
    let n ← blacks t j ds
    return n + (if b then 1 else 0)

/-- `p` leads from `i` to a missing child (and not further). -/
def ToNil (t : RedBlackTree K V M) (i : Nat) (p : List Bool) : Prop :=
  walk t i p = .ok SENTINEL ∧ ∀ q d, q ++ [d] <+: p → ∃ j, walk t i q = .ok j ∧ j ≠ SENTINEL

end Sokoban.RedBlackSpec
