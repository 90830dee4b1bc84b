import Verif.Spec.Api
import Verif.Spec.HashTable

/-
Several maps in the memory of one structure. A client keeps the field which says where a map begins (`root`, or
`buckets`) for each of its maps, and assigns the one it wants to work with before it calls.
-/
namespace Sokoban.Shared
open MapSpec

/-- What a client does: call a method, or go to the map with number `j`. -/
inductive Op (n : Nat) (K V : Type) where
  | call (op : MapSpec.Op K V)
  | switch (j : Fin n)

/-- What it gets. -/
inductive Out (K V : Type) where
  | did (o : MapSpec.Out K V)
  | switched

/-- A client of a structure of type `S` whose entry point is a field of type `W`: the structure, the fields which it has
put aside, and the number of the map which is in place. -/
structure Client (n : Nat) (S W : Type) where
  state : S
  saved : Fin n → W
  cur : Fin n

variable {n : Nat} {S W K V : Type}

/-- the entry points with the current one put aside -/
def Client.aside (field : S → W) (c : Client n S W) (j : Fin n) : W := if j = c.cur then field c.state else c.saved j

/-- `saved[cur] = t.field; t.field = saved[j]; cur = j` -/
def Client.switch (field : S → W) (assign : S → W → S) (c : Client n S W) (j : Fin n) : Client n S W where
  state := assign c.state (c.aside field j)
  saved := c.aside field
  cur := j

/-- One action of the client. -/
def exec (field : S → W) (assign : S → W → S) (call : S → MapSpec.Op K V → R (S × MapSpec.Out K V)) (c : Client n S W) :
    Op n K V → R (Client n S W × Out K V)
  | .call op => do let (s, o) ← call c.state op; return ({ c with state := s }, .did o)
  | .switch j => return (c.switch field assign j, .switched)

/-- Several finite maps of which one is in place. -/
structure Maps (n : Nat) (K V : Type) where
  maps : Fin n → FMap K V
  cur : Fin n

/-- all entries of all maps -/
def Maps.total (x : Maps n K V) : Nat := ((List.finRange n).map fun j => (x.maps j).len).sum

/-- the entries of the maps which are not in place -/
def Maps.others (x : Maps n K V) : Nat := x.total - (x.maps x.cur).len

/-- What one action may do: a call is a call on the map in place alone, whose capacity is what the others leave. -/
def Step [DecidableEq K] (rules : Nat → Rules K V) (cap : Nat) (x : Maps n K V) : Op n K V → Out K V → Maps n K V → Prop
  | .call op, .did o, y => ∃ m', MapSpec.Step (rules (cap - x.others)) (x.maps x.cur) op o m' ∧
      y = ⟨fun j => if j = x.cur then m' else x.maps j, x.cur⟩
  | .switch j, .switched, y => y = ⟨x.maps, j⟩
  | _, _, _ => False

/-- A tree-shaped map shows the finite map `m`: lookups, and iteration from both ends. -/
def Shows [LT K] (A : Api S K V) (s : S) (m : FMap K V) : Prop :=
  (∀ k, A.get s k = .ok (m.get k)) ∧ (∀ k, A.contains s k = .ok (m.get k).isSome) ∧ (∀ k, A.index s k = unwrap (m.get k)) ∧
  ∃ L : List (K × V), m.Lists L ∧ L.Pairwise (fun a b => a.1 < b.1) ∧
    ∀ es, ∃ it', drive (A.next s) (A.nextBack s) (A.iter s) es = .ok (it', consume L es)

/-- A hash table shows the finite map `m`: lookups, and iteration, which goes forward only. -/
def HashShows [BEq K] {B M : Nat} (hash : K → Nat) (h : HashTable K V B M) (m : FMap K V) : Prop :=
  (∀ k, h.get hash k = .ok (m.get k)) ∧ (∀ k, h.containsInherent hash k = .ok (m.get k).isSome) ∧
  ∃ (L : List (K × V)) (it : HashTable.Iter), h.iter = .ok it ∧ m.Lists L ∧
    ∀ es, ∃ it', drive (HashTable.Iter.next h) HashTable.Iter.nextBack it es = .ok (it', consumeFwd L es)

end Sokoban.Shared
