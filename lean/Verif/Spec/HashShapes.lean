import Verif.Spec.HashOrder

/-
The orders in which a hash table can yield its entries.
-/
namespace Sokoban.HashTableSpec
open MapSpec
variable {K V : Type} {B M : Nat}

/-- `iter()` of the table yields the entries `L` in this order, and `None` ever after; calls of `next_back` in between yield nothing and
change nothing (C19). -/
def Yields (h : HashTable K V B M) (L : List (K × V)) : Prop :=
  ∃ it, h.iter = .ok it ∧ ∀ es, ∃ it', drive (HashTable.Iter.next h) HashTable.Iter.nextBack it es = .ok (it', consumeFwd L es)

/-- The keys are distinct and ordered by the remainders of their hashes. -/
def ByBucket (hash : K → Nat) (B : Nat) (L : List (K × V)) : Prop :=
  (L.map Prod.fst).Nodup ∧ L.Pairwise fun e e' => hash e.1 % B ≤ hash e'.1 % B

end Sokoban.HashTableSpec
