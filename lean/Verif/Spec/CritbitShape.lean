import Verif.Spec.Critbit

/-
The path-compressed binary trie of a set of keys, and what it means that a `Critbit` has that shape in
memory.
-/
namespace Sokoban.CritbitSpec
variable {V : Type} {N M : Nat}

/-- A trie: a leaf with its key, or a branching on the bit after `p` bits (most significant first). -/
inductive Shape where
  | leaf (k : BitVec 128)
  | inner (p : Nat) (l r : Shape)
deriving DecidableEq, Repr

/-- The trie of the keys listed, of which the last `n` bits are still to be looked at: a branching where
keys with a zero and keys with a one follow, nothing where all keys agree. -/
def trie : Nat → List (BitVec 128) → Option Shape
  | 0, ks => ks.head?.map .leaf
  | n + 1, ks =>
    match trie n (ks.filter fun k => !k.getMsbD (127 - n)), trie n (ks.filter fun k => k.getMsbD (127 - n)) with
    | some l, some r => some (.inner (127 - n) l r)
    | some l, none => some l
    | none, r => r

/-- The memory below node `i` has the shape given, read through the accessor functions. -/
def Shaped (t : Critbit V N M) : Nat → Shape → Prop
  | i, .leaf k => t.isInnerNode i = .ok false ∧ t.getKey i = .ok k
  | i, .inner p l r => t.isInnerNode i = .ok true ∧ (∃ n, t.getNode i = .ok n ∧ n.prefixLen = p) ∧
      (∃ a, t.getLeft i = .ok a ∧ Shaped t a l) ∧ ∃ b, t.getRight i = .ok b ∧ Shaped t b r

/-- The number of nodes from the top to the leftmost leaf. -/
def Shape.leftDepth : Shape → Nat
  | leaf _ => 1
  | inner _ l _ => l.leftDepth + 1

end Sokoban.CritbitSpec
