import Verif.Model.Fuzz

/-
Model of `benches/bench.rs`: the benchmarks of the four maps. Those of `BTreeMap` and `HashMap` of the standard library
(bench.rs:33-53, 147-167, 217-247, 318-344) call nothing of this crate. Time is not modelled.
-/
namespace Sokoban.Bench
open Fuzz
variable {S K V It P : Type} (D : DynMap S K V It P)

/-- `for v in 0..n { m.insert(v as u128, rng.gen::<u128>()); }` (bench.rs:61-63 etc.): `keys` are the keys in order and
`val k` is the number drawn for key `k`. No key comes twice, so that every sequence of numbers is such a function. The
result of `insert` is dropped. -/
def insertAll (val : K → V) : List K → S → R S
  | [], m => .ok m
  | k :: keys, m => do
    let (m, _) ← D.insert m k (val k)
    insertAll val keys m

/-- `for k in slice.iter() { m.remove(k); }` (bench.rs:260-262 etc.). -/
def removeAll : List K → S → R S
  | [], m => .ok m
  | k :: keys, m => do
    let (m, _) ← D.remove m k
    removeAll keys m

/-- `for v in 0..n { m.get(&v); }` (bench.rs:355-357 etc.). -/
def getAll (m : S) : List K → R Unit
  | [] => .ok ()
  | k :: keys => do
    let _ ← D.get m k
    getAll m keys

/-- `b.iter(|| body)` (bench.rs:60 etc.): the `Bencher` of the standard library calls the closure as often as it likes,
once for every element of the list, which stands for the random numbers of that call. -/
def iter {α : Type} (body : α → S → R S) : List α → S → R S
  | [], m => .ok m
  | x :: xs, m => do
    let m ← body x m
    iter body xs m

/-- `bench_sokoban_*_insert_*` (bench.rs:55-145, 169-215); `m` is the new map. -/
def insertBench (keys : List K) (vals : List (K → V)) (m : S) : R S :=
  iter (fun val m => insertAll D val keys m) vals m

/-- `bench_sokoban_*_remove_1000_u128` (bench.rs:249-315); `slice` is `keys` in another order, `n` the number of calls of
the closure. -/
def removeBench (keys slice : List K) (val : K → V) (n : Nat) (m : S) : R S := do
  let m ← insertAll D val keys m
  iter (fun _ m => removeAll D slice m) (List.replicate n ()) m

/-- `bench_sokoban_*_lookup_20000_u128` (bench.rs:346-404). -/
def lookupBench (keys : List K) (val : K → V) (n : Nat) (m : S) : R S := do
  let m ← insertAll D val keys m
  iter (fun _ m => do getAll D m keys; return m) (List.replicate n ()) m

end Sokoban.Bench
