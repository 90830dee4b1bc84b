import Verif.Spec.Map

/-
The trait `NodeAllocatorMap` of the tree-shaped maps as a record of functions, and histories of
its calls. Each structure fills the record with its model functions.
-/
namespace Sokoban
open MapSpec

/-- `NodeAllocatorMap` (node_allocator.rs:34-49) with the items of the iterators unfolded. A `&mut V`
is the number of the slot that it points to; `readVal` / `write` access it. `Ref` is the item
`(&K, &mut V)` of the mutable iterator: `slot` is the slot of its `&mut V`, and `read` reads through
both references. -/
structure Api (S K V : Type) where
  insert : S → K → V → R (S × Option Nat)
  remove : S → K → R (S × Option V)
  get : S → K → R (Option V)
  contains : S → K → R Bool
  index : S → K → R V
  getMut : S → K → R (Option Nat)
  len : S → Nat
  isEmpty : S → Bool
  Iter : Type
  iter : S → Iter
  next : S → Iter → R (Iter × Option (K × V))
  nextBack : S → Iter → R (Iter × Option (K × V))
  Ref : Type
  slot : Ref → Nat
  nextMut : S → Iter → R (Iter × Option Ref)
  nextBackMut : S → Iter → R (Iter × Option Ref)
  read : S → Ref → R (K × V)
  readVal : S → Nat → R V
  write : S → Nat → V → R S

namespace Api
variable {S K V : Type} (A : Api S K V)

/-- The loop of `Op.iterMut`: per call of `next` / `next_back` the slot referred to and the entry read. -/
def iterMut (s : S) (es : List (End × (K → V → V))) :
    R (S × A.Iter × List (Option (Nat × K × V))) := do
  let (s, it, xs) ← driveMut A.nextMut A.nextBackMut A.read (fun s r e => A.write s (A.slot r) e.2)
    s (A.iter s) (script es)
  return (s, it, xs.map (Option.map fun x => (A.slot x.1, x.2)))

/-- `get_mut(k)` followed by a read and a write through the reference. -/
def getMutWrite (s : S) (k : K) (f : V → V) : R (S × Option V) := do
  match ← A.getMut s k with
  | none => return (s, none)
  | some i => do
    let v ← A.readVal s i
    let s ← A.write s i (f v)
    return (s, some v)

/-- One call. -/
def call (s : S) : Op K V → R (S × Out K V)
  | .insert k v => do let (s, i) ← A.insert s k v; return (s, .inserted i.isSome)
  | .remove k => do let (s, v) ← A.remove s k; return (s, .removed v)
  | .getMut k f => do let (s, v) ← A.getMutWrite s k f; return (s, .got v)
  | .iterMut es => do
      let (s, _, o) ← A.iterMut s es
      return (s, .seen (o.map (Option.map Prod.snd)))

end Api
end Sokoban
