import Verif.Model.Critbit
import Verif.Spec.Api

/-
Histories of `Critbit` calls.
-/
namespace Sokoban.CritbitSpec
open MapSpec
variable {V : Type} {N M : Nat}

/-- `impl NodeAllocatorMap for Critbit` (critbit.rs:88-173) and the `Index` implementation. The
`&u128` of the mutable iterator points to a node, the `&mut V` to a leaf: `Ref` is the pair of the
two indices. -/
def api : Api (Critbit V N M) (BitVec 128) V where
  insert := Critbit.insert
  remove := Critbit.remove
  get := Critbit.get
  contains := Critbit.contains
  index := Critbit.index
  getMut := Critbit.getMut
  len := Critbit.len
  isEmpty := Critbit.isEmpty
  Iter := Critbit.Iter
  iter := Critbit.iter
  next := Critbit.Iter.next
  nextBack := Critbit.Iter.nextBack
  Ref := Nat × Nat
  slot := Prod.snd
  nextMut := Critbit.Iter.nextMut
  nextBackMut := Critbit.Iter.nextBackMut
  read t r := do
    let v ← t.getLeaf r.2
    let k ← t.getKey r.1
    return (k, v)
  readVal := Critbit.getLeaf
  write := Critbit.replaceLeaf

/-- One call on a critbit tree. -/
abbrev call : Critbit V N M → Op (BitVec 128) V → R (Critbit V N M × Out (BitVec 128) V) := api.call

end Sokoban.CritbitSpec
