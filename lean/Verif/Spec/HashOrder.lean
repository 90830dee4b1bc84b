import Verif.Spec.HashTable

/-
In which order a hash table yields its entries: a specification in terms of one list of entries, the most
recently touched one first. No buckets are stored, no chains, no indices.
-/
namespace Sokoban.HashTableSpec
open MapSpec
variable {K V : Type} [DecidableEq K]

/-- The order of iteration: by remainder of the hash, and among equal remainders most recent first. -/
def rows (hash : K → Nat) (B : Nat) (R : List (K × V)) : List (K × V) :=
  (List.range B).flatMap fun b => R.filter fun e => hash e.1 % B = b

/-- What a call does to the list of entries, most recently touched first, and what it returns. A new key
comes to the front, and so does a key that is asked for with `get_mut`; overwriting a value with `insert` or
through `iter_mut` moves nothing. -/
def recent (hash : K → Nat) (B M : Nat) (R : List (K × V)) : Op K V → List (K × V) × Out K V
  | .insert k v =>
    if k ∈ R.map Prod.fst then (R.map fun e => if e.1 = k then (k, v) else e, .inserted true)
    else if R.length < M then ((k, v) :: R, .inserted true)
    else (R, .inserted false)
  | .remove k => (R.filter fun e => e.1 ≠ k, .removed ((R.find? fun e => e.1 = k).map Prod.snd))
  | .getMut k f =>
    match R.find? fun e => e.1 = k with
    | none => (R, .got none)
    | some (_, v) => ((k, f v) :: R.filter fun e => e.1 ≠ k, .got (some v))
  | .iterMut es =>
    let visited := consumeMutFwd (rows hash B R) (script es)
    (R.map fun e => (visited.2.find? fun e' => e'.1 = e.1).getD e, .seen visited.1)

/-- The same for a history. -/
def recents (hash : K → Nat) (B M : Nat) (R : List (K × V)) : List (Op K V) → List (K × V) × List (Out K V)
  | [] => (R, [])
  | op :: ops =>
    let (R, o) := recent hash B M R op
    let (R, os) := recents hash B M R ops
    (R, o :: os)

end Sokoban.HashTableSpec
