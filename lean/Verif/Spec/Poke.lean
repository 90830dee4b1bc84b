import Verif.Spec.AnyOrder
import Verif.Spec.AnyEq

/-
Histories in which the client also overwrites whole nodes, keys included, through `get_node_mut`: a specification
on the sequence of the entries with their addresses, in the order of iteration.
-/
namespace Sokoban.Poke
open MapSpec
variable {S Op Out K V : Type}

/-- A call, or a write of a node through `get_node_mut(i)`. -/
inductive POp (Op K V : Type) where
  | op (o : Op)
  | put (i : Nat) (k : K) (v : V)

/-- Their results. -/
inductive POut (Out : Type) where
  | op (o : Out)
  | put

/-- One call. `setNode` is the write through `get_node_mut`. -/
def call (f : S → Op → R (S × Out)) (setNode : S → Nat → K → V → R S) (s : S) : POp Op K V → R (S × POut Out)
  | .op o => do let (s, o) ← f s o; return (s, .op o)
  | .put i k v => do let s ← setNode s i k v; return (s, .put)

/-- The writes are to slots of the buffer. -/
def InRange (M : Nat) (ops : List (POp Op K V)) : Prop := ∀ i k v, POp.put i k v ∈ ops → 1 ≤ i ∧ i ≤ M

/-- What one call may do to the sequence of the entries (address, key, value). `same k k'`: comparing `k` with `k'`
says "equal". Every call concerns one entry, whose key compares equal to the given one, or none; all others stay in
their slots, unchanged and in their order. -/
def Step (same : K → K → Prop) (cap : Nat) (E : List (Nat × K × V)) : MapSpec.Op K V → MapSpec.Out K V →
    List (Nat × K × V) → Prop
  | .insert k v, o, E' =>
      (∃ E1 i k' w E2, same k k' ∧ E = E1 ++ (i, k', w) :: E2 ∧ E' = E1 ++ (i, k', v) :: E2 ∧ o = .inserted true) ∨
      (E.length < cap ∧ ∃ E1 i E2, i ∉ E.map Prod.fst ∧ E = E1 ++ E2 ∧ E' = E1 ++ (i, k, v) :: E2 ∧ o = .inserted true) ∨
      (E.length = cap ∧ E' = E ∧ o = .inserted false)
  | .remove k, o, E' =>
      (∃ E1 i k' w E2, same k k' ∧ E = E1 ++ (i, k', w) :: E2 ∧ E' = E1 ++ E2 ∧ o = .removed (some w)) ∨
      (E' = E ∧ o = .removed none)
  | .getMut k f, o, E' =>
      (∃ E1 i k' w E2, same k k' ∧ E = E1 ++ (i, k', w) :: E2 ∧ E' = E1 ++ (i, k', f w) :: E2 ∧ o = .got (some w)) ∨
      (E' = E ∧ o = .got none)
  | .iterMut es, o, E' =>
      o = .seen (consumeMut (E.map Prod.snd) (script es)).1 ∧
      E'.map Prod.snd = (consumeMut (E.map Prod.snd) (script es)).2 ∧ E'.map Prod.fst = E.map Prod.fst

/-- The same for a red-black tree: `remove_root` removes some entry, if there is one. -/
def TStep (same : K → K → Prop) (cap : Nat) (E : List (Nat × K × V)) :
    RedBlackSpec.TOp K V → RedBlackSpec.TOut K V → List (Nat × K × V) → Prop
  | .map op, .map o, E' => Step same cap E op o E'
  | .removeRoot, .root none, E' => E = [] ∧ E' = []
  | .removeRoot, .root (some e), E' => ∃ E1 i E2, E = E1 ++ (i, e) :: E2 ∧ E' = E1 ++ E2
  | _, _, _ => False

/-- The node in slot `i` becomes `(k, v)`; what is not in slot `i` stays. -/
def overwrite (i : Nat) (k : K) (v : V) (E : List (Nat × K × V)) : List (Nat × K × V) :=
  E.map fun e => if e.1 = i then (i, k, v) else e

/-- With writes of nodes. -/
def PStep (step : List (Nat × K × V) → Op → Out → List (Nat × K × V) → Prop) (E : List (Nat × K × V)) :
    POp Op K V → POut Out → List (Nat × K × V) → Prop
  | .op op, .op o, E' => step E op o E'
  | .put i k v, .put, E' => E' = overwrite i k v E
  | _, _, _ => False

/-! ### hash table -/

/-- Every entry afterwards is in the slot in which the entry of the same key was before, or it is the inserted one, in
a slot that was not in use. -/
def Kept (op : MapSpec.Op K V) (E E' : List (Nat × K × V)) : Prop :=
  ∀ e ∈ E', (∃ v, (e.1, e.2.1, v) ∈ E) ∨ (e.1 ∉ E.map Prod.fst ∧ op = .insert e.2.1 e.2.2)

/-- The rows without addresses. -/
def bare (T : List (List (Nat × K × V))) : List (List (K × V)) := T.map fun l => l.map Prod.snd

/-- What one call does to the rows of a hash table, one for each remainder of the hash: `AnyEq.step` without
addresses, and the entries stay in their slots. -/
def HStep [BEq K] (hash : K → Nat) (cap : Nat) (T : List (List (Nat × K × V))) (op : MapSpec.Op K V)
    (o : MapSpec.Out K V) (T' : List (List (Nat × K × V))) : Prop :=
  (bare T', o) = AnyEq.step hash cap (bare T) op ∧ Kept op T.flatten T'.flatten

/-- With writes of nodes. The written entry stays in its row, whatever the hash of its new key. -/
def HPStep [BEq K] (hash : K → Nat) (cap : Nat) (T : List (List (Nat × K × V))) :
    POp (MapSpec.Op K V) K V → POut (MapSpec.Out K V) → List (List (Nat × K × V)) → Prop
  | .op op, .op o, T' => HStep hash cap T op o T'
  | .put i k v, .put, T' => T' = T.map (overwrite i k v)
  | _, _, _ => False

end Sokoban.Poke
