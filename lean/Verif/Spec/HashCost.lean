import Verif.Spec.HashShapes

/-
What looking up the keys of a hash table costs.
-/
namespace Sokoban.HashTableSpec
open MapSpec
variable {K V : Type} {B M : Nat} [DecidableEq K]

/-- The search for `k`, the only loop in `get`, `get_mut`, `insert`, `remove`, `contains` and `get_addr`, takes `n` iterations: with `n` or more
it gives the result of `get_addr`, with fewer it does not end. -/
def Iterations (hash : K → Nat) (h : HashTable K V B M) (k : K) (n : Nat) : Prop :=
  ∃ head, h.bucket (hash k % B) = .ok head ∧ (∀ fuel, n ≤ fuel → h.findLoop k fuel head = h.getAddr hash k) ∧
    ∀ fuel < n, h.findLoop k fuel head = .error .diverge

/-- The number of entries in bucket `b`. -/
def load (hash : K → Nat) (B : Nat) (L : List (K × V)) (b : Nat) : Nat := (L.filter fun e => hash e.1 % B = b).length

end Sokoban.HashTableSpec
