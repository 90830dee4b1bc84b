import Verif.Spec.HashTable

/-
What a hash table does when nothing is assumed about equality of keys (not that it is reflexive, symmetric or
transitive, not that equal keys have equal hashes): a specification on the rows of the table, one list of
entries for each remainder of the hash. No chains, no indices, no registers.
-/
namespace Sokoban.AnyEq
open MapSpec
variable {K V : Type} [BEq K]

/-- Give the first entry whose key says that it equals `k` the value `v`. -/
def overwrite (k : K) (v : V) : List (K × V) → List (K × V)
  | [] => []
  | e :: l => if e.1 == k then (e.1, v) :: l else e :: overwrite k v l

/-- Cut a list into rows of the given lengths. -/
def cut {α : Type} : List Nat → List α → List (List α)
  | [], _ => []
  | n :: ns, L => L.take n :: cut ns (L.drop n)

/-- The row in which a key is looked for. -/
def row (hash : K → Nat) (T : List (List (K × V))) (k : K) : List (K × V) := T.getD (hash k % T.length) []

/-- The entry that a key finds: the first one of the row whose key says that it equals the given one. -/
def found (hash : K → Nat) (T : List (List (K × V))) (k : K) : Option (K × V) :=
  (row hash T k).find? fun e => e.1 == k

/-- What a call does to the rows, and what it returns. -/
def step (hash : K → Nat) (cap : Nat) (T : List (List (K × V))) : Op K V → List (List (K × V)) × Out K V
  | .insert k v =>
    match found hash T k with
    | some _ => (T.set (hash k % T.length) (overwrite k v (row hash T k)), .inserted true)
    | none =>
      if T.flatten.length < cap then (T.set (hash k % T.length) ((k, v) :: row hash T k), .inserted true)
      else (T, .inserted false)
  | .remove k =>
    (T.set (hash k % T.length) ((row hash T k).eraseP fun e => e.1 == k), .removed ((found hash T k).map Prod.snd))
  | .getMut k f =>
    match found hash T k with
    | none => (T, .got none)
    | some (k', v) =>
      (T.set (hash k % T.length) ((k', f v) :: (row hash T k).eraseP fun e => e.1 == k), .got (some v))
  | .iterMut es =>
    let visited := consumeMutFwd T.flatten (script es)
    (cut (T.map List.length) visited.2, .seen visited.1)

/-- The same for a history. -/
def steps (hash : K → Nat) (cap : Nat) (T : List (List (K × V))) :
    List (Op K V) → List (List (K × V)) × List (Out K V)
  | [] => (T, [])
  | op :: ops =>
    let (T, o) := step hash cap T op
    let (T, os) := steps hash cap T ops
    (T, o :: os)

end Sokoban.AnyEq
