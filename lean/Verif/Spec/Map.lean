import Verif.Spec.Run

/-
Finite maps and what a history of map calls means on them. Nothing here mentions how a map is
represented; `Rules` collects the points in which the sokoban maps differ from each other.
-/
namespace Sokoban

/-- A finite map: what each key is bound to, and how many keys are bound. -/
structure FMap (K V : Type) where
  get : K → Option V
  len : Nat

namespace FMap
variable {K V : Type} [DecidableEq K]

/-- The empty map. -/
def empty : FMap K V := ⟨fun _ => none, 0⟩

/-- Bind `k` to `v`. -/
def insert (m : FMap K V) (k : K) (v : V) : FMap K V :=
  ⟨fun k' => if k' = k then some v else m.get k', if (m.get k).isSome then m.len else m.len + 1⟩

/-- Unbind `k`. -/
def erase (m : FMap K V) (k : K) : FMap K V :=
  ⟨fun k' => if k' = k then none else m.get k', if (m.get k).isSome then m.len - 1 else m.len⟩

/-- Apply `f` to the value of `k`, if there is one. -/
def modify (m : FMap K V) (k : K) (f : V → V) : FMap K V :=
  ⟨fun k' => if k' = k then (m.get k).map f else m.get k', m.len⟩

/-- `L` lists the entries of `m`, each exactly once. -/
structure Lists {K V : Type} (m : FMap K V) (L : List (K × V)) : Prop where
  nodup : (L.map Prod.fst).Nodup
  mem : ∀ k v, (k, v) ∈ L ↔ m.get k = some v
  len : m.len = L.length

end FMap

namespace MapSpec

/-- Mutating calls on a map. `getMut k f`: call `get_mut(k)` and, if it returns a reference,
replace the value `v` found there by `f v`. `iterMut es`: make an `iter_mut()`, call `next` /
`next_back` in the order given, and at each entry `(k, v)` obtained replace `v` by `f k v`. -/
inductive Op (K V : Type) where
  | insert (k : K) (v : V)
  | remove (k : K)
  | getMut (k : K) (f : V → V)
  | iterMut (es : List (End × (K → V → V)))

/-- Results of calls: whether `insert` returned `Some`, what `remove` returned, the value seen
through `get_mut`, the entries seen by `iter_mut`. -/
inductive Out (K V : Type) where
  | inserted (ok : Bool)
  | removed (v : Option V)
  | got (v : Option V)
  | seen (es : List (Option (K × V)))

/-- What is written at an entry during `iter_mut`. -/
def upd {K V : Type} (f : K → V → V) (e : K × V) : K × V := (e.1, f e.1 e.2)

/-- A script as modifications of entries. -/
def script {K V : Type} (es : List (End × (K → V → V))) : List (End × (K × V → K × V)) :=
  es.map fun e => (e.1, upd e.2)

/-- Consuming a sequence when `next_back()` never yields anything (see C19). -/
def consumeMutFwd {α : Type} : List α → List (End × (α → α)) → List (Option α) × List α
  | l, [] => ([], l)
  | l, (.back, _) :: es => let (o, l') := consumeMutFwd l es; (none :: o, l')
  | [], (.front, _) :: es => let (o, l') := consumeMutFwd [] es; (none :: o, l')
  | x :: l, (.front, f) :: es =>
      let (o, l') := consumeMutFwd l es
      (some x :: o, f x :: l')

/-- The same without writes. -/
def consumeFwd {α : Type} : List α → List End → List (Option α)
  | _, [] => []
  | l, .back :: es => none :: consumeFwd l es
  | l, .front :: es => l.head? :: consumeFwd l.tail es

/-- The points in which the maps differ. -/
structure Rules (K V : Type) where
  /-- `insert(k, _)` is refused in map `m` -/
  refuses : FMap K V → K → Prop
  /-- the order in which iteration yields the entries -/
  ordered : List (K × V) → Prop
  /-- what a mixed sequence of `next` / `next_back` with writes does to the listed entries -/
  visit : List (K × V) → List (End × (K × V → K × V)) → List (Option (K × V)) × List (K × V)

/-- What one call may do to a finite map: result and new map. -/
def Step {K V : Type} [DecidableEq K] (R : Rules K V) (m : FMap K V) :
    Op K V → Out K V → FMap K V → Prop
  | .insert k v, o, m' =>
      (R.refuses m k ∧ o = .inserted false ∧ m' = m) ∨
      (¬ R.refuses m k ∧ o = .inserted true ∧ m' = m.insert k v)
  | .remove k, o, m' => o = .removed (m.get k) ∧ m' = m.erase k
  | .getMut k f, o, m' => o = .got (m.get k) ∧ m' = m.modify k f
  | .iterMut es, o, m' => ∃ L, m.Lists L ∧ R.ordered L ∧
      o = .seen (R.visit L (script es)).1 ∧ m'.Lists (R.visit L (script es)).2

/-- What a history of calls may do: results and final map. -/
abbrev Steps {K V : Type} [DecidableEq K] (R : Rules K V) (m : FMap K V) :
    List (Op K V) → List (Out K V) → FMap K V → Prop := Trace (Step R) m

/-- `HashTable`: refuses a new key when full; iteration in any order, and only forwards. -/
def hashRules (K V : Type) (cap : Nat) : Rules K V where
  refuses m k := m.get k = none ∧ m.len = cap
  ordered _ := True
  visit := consumeMutFwd

/-- `RedBlackTree`, `AVLTree`: refuse a new key when full; iteration in ascending key order,
from both ends. -/
def treeRules (K V : Type) [LT K] (cap : Nat) : Rules K V where
  refuses m k := m.get k = none ∧ m.len = cap
  ordered L := L.Pairwise (fun a b => a.1 < b.1)
  visit := consumeMut

/-- `Critbit`: refuses every key when full (see C43); iteration in ascending key order, from
both ends. -/
def critbitRules (K V : Type) [LT K] (cap : Nat) : Rules K V where
  refuses m _ := m.len = cap
  ordered L := L.Pairwise (fun a b => a.1 < b.1)
  visit := consumeMut

end MapSpec
end Sokoban
