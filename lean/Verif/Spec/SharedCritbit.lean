import Verif.Spec.Shared
import Verif.Spec.Critbit

/-
Several maps in the memory of one `Critbit`: what fails, and what each of the maps shows.
-/
namespace Sokoban.Shared
open MapSpec
variable {n N M : Nat} {V : Type}

/-- When a call on a `Critbit` of capacity `cap` fails, `x` being the maps in it: an `insert` into an empty map when the
others fill the tree; a `remove` or `get_mut` on an empty map while others hold entries (the root `SENTINEL` is taken for a
node); and a `remove` of the only entry of a map while others hold entries (`assert!(self.len() == 1)`). -/
def CritbitFails (cap : Nat) (x : Maps n (BitVec 128) V) : MapSpec.Op (BitVec 128) V → Panic → Prop
  | .insert _ _, p => p = .bufferFull ∧ (x.maps x.cur).len = 0 ∧ x.total = cap
  | .remove k, p => (p = .indexOutOfBounds ∧ (x.maps x.cur).len = 0 ∧ 0 < x.total) ∨
      (p = .assertion ∧ (x.maps x.cur).len = 1 ∧ (x.maps x.cur).get k ≠ none ∧ 1 < x.total)
  | .getMut _ _, p => p = .indexOutOfBounds ∧ (x.maps x.cur).len = 0 ∧ 0 < x.total
  | .iterMut _, _ => False

/-- A `Critbit` with `total` entries shows the map `m`, unless `m` is empty and `total` is not: then lookups panic, and
iteration alone shows that there is nothing. -/
def CritbitShows (s : Critbit V N M) (m : FMap (BitVec 128) V) (total : Nat) : Prop :=
  (m.len = 0 → 0 < total →
    (∀ k, s.get k = .error .indexOutOfBounds ∧ s.contains k = .error .indexOutOfBounds ∧ s.index k = .error .indexOutOfBounds) ∧
    ∀ es, ∃ it', drive (Critbit.Iter.next s) (Critbit.Iter.nextBack s) s.iter es = .ok (it', consume [] es)) ∧
  (0 < m.len ∨ total = 0 → Shows CritbitSpec.api s m)

end Sokoban.Shared
