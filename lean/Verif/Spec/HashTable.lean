import Verif.Model.HashTable
import Verif.Spec.Map

/-
Histories of hash table calls.
-/
namespace Sokoban.HashTableSpec
open MapSpec
variable {K V : Type} [BEq K] {B M : Nat}

/-- Reading an entry through a reference obtained from `iter_mut`. -/
def readSlot (h : HashTable K V B M) (i : Nat) : R (K × V) := do
  let n ← h.getNode i
  return (n.key, n.value)

/-- Writing the value through a reference obtained from `iter_mut` (the key is not writable). -/
def writeSlot (h : HashTable K V B M) (i : Nat) (e : K × V) : R (HashTable K V B M) :=
  h.setNodeValue i e.2

/-- The loop of `Op.iterMut` on the table. -/
def iterMut (h : HashTable K V B M) (es : List (End × (K → V → V))) :
    R (HashTable K V B M × HashTable.Iter × List (Option (Nat × K × V))) := do
  let it ← h.iter
  driveMut HashTable.Iter.nextMut HashTable.Iter.nextBackMut readSlot writeSlot h it (script es)

/-- `get_mut(k)` followed by a read and a write through the reference. -/
def getMutWrite (hash : K → Nat) (h : HashTable K V B M) (k : K) (f : V → V) :
    R (HashTable K V B M × Option V) := do
  let (h, s) ← h.getMut hash k
  match s with
  | none => return (h, none)
  | some i => do
    let n ← h.getNode i
    let h ← h.setNodeValue i (f n.value)
    return (h, some n.value)

/-- One call on the table. -/
def call (hash : K → Nat) (h : HashTable K V B M) : Op K V → R (HashTable K V B M × Out K V)
  | .insert k v => do let (h, i) ← h.insert hash k v; return (h, .inserted i.isSome)
  | .remove k => do let (h, v) ← h.remove hash k; return (h, .removed v)
  | .getMut k f => do let (h, v) ← getMutWrite hash h k f; return (h, .got v)
  | .iterMut es => do
      let (h, _, o) ← iterMut h es
      return (h, .seen (o.map (Option.map Prod.snd)))

end Sokoban.HashTableSpec
