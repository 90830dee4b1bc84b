import Verif.Spec.AnyEq

/-
Histories in which the hash function may be another one at each call: the bytes of a table outlive the program that
wrote them, and `DefaultHasher` is not specified (std may change it in a later release; hash_table.rs:119-121 also
truncates its result to `usize`, whose width depends on the machine).
-/
namespace Sokoban.Rehash
open MapSpec
variable {K V : Type} [BEq K]

/-- One call with the hash function that comes with it. -/
def call {B M : Nat} (h : HashTable K V B M) (x : (K → Nat) × Op K V) : R (HashTable K V B M × Out K V) :=
  HashTableSpec.call x.1 h x.2

/-- The rows and the results of such a history. -/
def steps (cap : Nat) (T : List (List (K × V))) :
    List ((K → Nat) × Op K V) → List (List (K × V)) × List (Out K V)
  | [] => (T, [])
  | x :: xs =>
    let (T, o) := AnyEq.step x.1 cap T x.2
    let (T, os) := steps cap T xs
    (T, o :: os)

/-- What `as usize` makes of a 64-bit hash on a machine with 32-bit addresses. -/
def usize32 (hash : K → Nat) (k : K) : Nat := hash k % 2 ^ 32

end Sokoban.Rehash
