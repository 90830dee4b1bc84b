import Verif.Model.Fuzz

/-
The randomised test of the crate: `simulate` in tests/test.rs, run there on all four maps.
-/
namespace Sokoban.Simulate
open Fuzz

/-- What the test uses of `NodeAllocatorMap<K, V>` (node_allocator.rs:34-49) besides the functions in `DynMap`. `read`
reads the `(&K, &mut V)` that the mutable iterator returned, `slot` is the slot of its `&mut V`. -/
structure TestMap (S K V It P : Type) extends DynMap S K V It P where
  len : S → Nat
  capacity : S → Nat
  read : S → P → R (K × V)
  slot : P → Nat

/-! ### the standard library: `BTreeMap` as the list of its entries by ascending key, `assert!`, `gen_range` -/

section
variable {K V : Type} [LT K] [DecidableLT K]

/-- `BTreeMap::insert`. -/
def mapInsert (k : K) (v : V) : List (K × V) → List (K × V)
  | [] => [(k, v)]
  | e :: l => if k < e.1 then (k, v) :: e :: l else if e.1 < k then e :: mapInsert k v l else (k, v) :: l

/-- `BTreeMap::remove`. -/
def mapRemove (k : K) : List (K × V) → List (K × V)
  | [] => []
  | e :: l => if k < e.1 then e :: l else if e.1 < k then e :: mapRemove k l else l

/-- `<` of the items that `.sorted()` (itertools) sorts: by key, then by value. -/
def itemLe [LE V] [DecidableLE V] (a b : K × V) : Bool := a.1 < b.1 ∨ (¬ b.1 < a.1 ∧ a.2 ≤ b.2)

end

/-- `assert!(b)`. -/
def check (b : Bool) : R Unit := if b then .ok () else .error .assertion

/-- `rng.gen_range(low, high)` (rand 0.7), which asserts `low < high`; `r` is an arbitrary number. -/
def genRange (low high r : Nat) : R Nat := if low < high then .ok (low + r % (high - low)) else .error .assertion

/-- `a - b` on `usize`. -/
def sub (a b : Nat) : R Nat := if b ≤ a then .ok (a - b) else .error .overflow

/-! ### the random choices -/

/-- The random choices of one round of the loop in tests/test.rs:84-131: which of the three branches is taken (`third`:
0 for `sample < 0.33`, 1 for `sample < 0.66`, 2 otherwise), the number behind the `gen_range` of `num_samples`, and
for iteration `i` of the inner loop the key, the value and the number behind the `gen_range` of `j`. Choices are
indexed by where they are made and not by their place in the stream of the generator, of which nothing is assumed. -/
structure Round (K V : Type) where
  third : Fin 3
  count : Nat
  key : Nat → K
  val : Nat → V
  pick : Nat → Nat

/-- The random choices of a run of `simulate`, in the order of the code: `fill` are the `MAX_SIZE` entries of lines
58-66, `extra` that of lines 68-69, `shuffled` is `rand_keys` after line 73, `rounds` has 100 elements; then the
values written in lines 149-153, the numbers behind the two breakpoints, the values of lines 222-239 and those of lines
259-263. -/
structure Choices (K V : Type) where
  fill : List (K × V)
  extra : K × V
  shuffled : List K
  rounds : List (Round K V)
  val1 : Nat → V
  break1 : Nat
  break2 : Nat
  val2 : Nat → V
  val3 : Nat → V

/-- The local variables of `simulate`: `tree`, `keys`, `map` and `s`. -/
structure Vars (S K V : Type) where
  tree : S
  keys : List K
  map : List (K × V)
  s : Nat

section
variable {S K V It P : Type} [DecidableEq K] [DecidableEq V] [LT K] [DecidableLT K] (D : TestMap S K V It P)

/-- tests/test.rs:58-66. -/
def fill : List (K × V) → Vars S K V → R (Vars S K V)
  | [], x => .ok x
  | (k, v) :: l, x => do
    let (tree, res) ← D.insert x.tree k v
    check res.isSome
    let s := x.s + 1
    check (s = D.len tree)
    fill l { tree, keys := x.keys ++ [k], map := mapInsert k v x.map, s }

/-- tests/test.rs:75-79. -/
def drain : List K → Vars S K V → R (Vars S K V)
  | [], x => .ok x
  | k :: l, x => do
    let (tree, res) ← D.remove x.tree k
    check res.isSome
    let s ← sub x.s 1
    drain l { x with tree, map := mapRemove k x.map, s }

/-- tests/test.rs:93-101; `i` counts up, `n` iterations remain. -/
def insertMany (r : Round K V) : Nat → Nat → Vars S K V → R (Vars S K V)
  | 0, _, x => .ok x
  | n + 1, i, x => do
    check (D.len x.tree < D.capacity x.tree)
    let k := r.key i
    let v := r.val i
    let (tree, res) ← D.insert x.tree k v
    check res.isSome
    insertMany r n (i + 1) { tree, keys := x.keys ++ [k], map := mapInsert k v x.map, s := x.s + 1 }

/-- tests/test.rs:107-116. -/
def removeMany (r : Round K V) : Nat → Nat → Vars S K V → R (Vars S K V)
  | 0, _, x => .ok x
  | n + 1, i, x => do
    check (!x.keys.isEmpty)
    let j ← genRange 0 x.keys.length (r.pick i)
    let key ← at! x.keys j
    let keys := swapRemove x.keys j
    let (tree, res) ← D.remove x.tree key
    check res.isSome
    let map := mapRemove key x.map
    let s ← sub x.s 1
    removeMany r n (i + 1) { tree, keys, map, s }

/-- tests/test.rs:122-129. -/
def replaceMany (r : Round K V) : Nat → Nat → Vars S K V → R (Vars S K V)
  | 0, _, x => .ok x
  | n + 1, i, x => do
    check (!x.keys.isEmpty)
    let j ← genRange 0 x.keys.length (r.pick i)
    let key ← at! x.keys j
    let v := r.val i
    let (tree, ref) ← D.getMut x.tree key
    let ref ← unwrap ref
    let tree ← D.write tree ref v
    replaceMany r n (i + 1) { x with tree, map := mapInsert key v x.map }

/-- One round, tests/test.rs:85-130. -/
def round (r : Round K V) (x : Vars S K V) : R (Vars S K V) := do
  check (x.s = D.len x.tree)
  match r.third with
  | 0 => do
    let remaining ← sub (D.capacity x.tree) (D.len x.tree)
    if remaining = 0 then return x
    let n ← genRange 0 remaining r.count
    insertMany D r n 0 x
  | 1 => do
    if D.len x.tree < 2 then return x
    let n ← genRange 0 (D.len x.tree / 2) r.count
    removeMany D r n 0 x
  | 2 => do
    if D.len x.tree = 0 then return x
    let n ← genRange 0 (D.len x.tree) r.count
    replaceMany D r n 0 x

/-- tests/test.rs:84-131. -/
def roundsLoop : List (Round K V) → Vars S K V → R (Vars S K V)
  | [], x => .ok x
  | r :: rs, x => do
    let x ← round D r x
    roundsLoop rs x

/-- tests/test.rs:54-131: fill the map up, empty it, then random rounds. -/
def churn (c : Choices K V) (tree : S) : R (Vars S K V) := do
  let x ← fill D c.fill { tree, keys := [], map := [], s := 0 }
  let (tree, res) ← D.insert x.tree c.extra.1 c.extra.2
  check res.isNone
  let x ← drain D c.shuffled { x with tree }
  check (D.len x.tree = 0)
  roundsLoop D c.rounds { x with keys := [] }

omit [LT K] [DecidableLT K] in
/-- `for ((k1, v1), (k2, v2)) in map.iter().zip(it) { assert!(*k1 == *k2); assert!(*v1 == *v2); }`: `zip` ends with the
shorter of the two. -/
def zipIter (next : It → R (It × Option (K × V))) : List (K × V) → It → R Unit
  | [], _ => .ok ()
  | e :: l, it => do
    let (it, x) ← next it
    match x with
    | none => return ()
    | some x => do
      check (e.1 = x.1)
      check (e.2 = x.2)
      zipIter next l it

omit [LT K] [DecidableLT K] in
/-- The same loop with a vector as the second iterator. -/
def zipList : List (K × V) → List (K × V) → R Unit
  | e :: l, x :: m => do
    check (e.1 = x.1)
    check (e.2 = x.2)
    zipList l m
  | _, _ => .ok ()

omit [DecidableEq K] [DecidableEq V] [LT K] [DecidableLT K] in
/-- All items of an iterator, collected in a vector. -/
def collect (next : It → R (It × Option (K × V))) : Nat → It → R (List (K × V))
  | 0, _ => .error .diverge
  | fuel + 1, it => do
    let (it, x) ← next it
    match x with
    | none => return []
    | some x => do
      let l ← collect next fuel it
      return x :: l

/-- The comparison of a map with the tree, tests/test.rs:132-146, 155-163 with 251-256, 265-279. -/
def compare [LE V] [DecidableLE V] (fuel : Nat) (expectSorted : Bool) (map : List (K × V)) (tree : S) : R Unit := do
  if expectSorted then do
    let it ← D.iter tree
    zipIter (D.next tree) map it
    let it ← D.iter tree
    zipIter (D.nextBack tree) map.reverse it
  else do
    let it ← D.iter tree
    let l ← collect (D.next tree) fuel it
    zipList map (l.mergeSort itemLe)

omit [DecidableEq K] [DecidableEq V] in
/-- The loop over `tree.iter_mut()`, tests/test.rs:148-153, or over `tree.iter_mut().rev()`, 258-263: `next` is the
`next` or the `next_back` of the iterator, `i` counts up. -/
def overwrite (next : S → It → R (It × Option P)) (w : Nat → V) :
    Nat → Nat → S → It → List (K × V) → R (S × List (K × V))
  | 0, _, _, _, _ => .error .diverge
  | fuel + 1, i, tree, it, newMap => do
    let (it, x) ← next tree it
    match x with
    | none => return (tree, newMap)
    | some p => do
      let e ← D.read tree p
      let tree ← D.write tree (D.slot p) (w i)
      overwrite next w fuel (i + 1) tree it (mapInsert e.1 (w i) newMap)

omit [LT K] [DecidableLT K] in
/-- tests/test.rs:171-176: `n` times `next` on both. The iterator of the `BTreeMap` is the list of its remaining items. -/
def stepFront (next : It → R (It × Option (K × V))) : Nat → It → List (K × V) → R (It × List (K × V))
  | 0, it, l => .ok (it, l)
  | n + 1, it, l => do
    let (it, a) ← next it
    let b := l.head?
    check (a.isSome && b.isSome)
    check (a = b)
    stepFront next n it l.tail

omit [LT K] [DecidableLT K] in
/-- tests/test.rs:177-182: `n` times `next_back` on both. -/
def stepBack (nextBack : It → R (It × Option (K × V))) : Nat → It → List (K × V) → R (It × List (K × V))
  | 0, it, l => .ok (it, l)
  | n + 1, it, l => do
    let (it, a) ← nextBack it
    let b := l.getLast?
    check (a.isSome && b.isSome)
    check (a = b)
    stepBack nextBack n it l.dropLast

omit [DecidableEq K] [DecidableEq V] [LT K] [DecidableLT K] in
/-- `assert!(it.next().is_none())`. -/
def endsNow {α : Type} (next : It → R (It × Option α)) (it : It) : R It := do
  let (it, a) ← next it
  check a.isNone
  return it

/-- tests/test.rs:166-193. -/
def doubleEnded (r : Nat) (newMap : List (K × V)) (tree : S) : R Unit := do
  let it ← D.iter tree
  let high ← sub newMap.length 1
  let breakpoint ← genRange 1 high r
  let (it, l) ← stepFront (D.next tree) breakpoint it newMap
  let (it, l) ← stepBack (D.nextBack tree) (newMap.length - breakpoint) it l
  let it ← endsNow (D.next tree) it
  let it ← endsNow (D.nextBack tree) it
  check l.head?.isNone
  check l.getLast?.isNone
  let it ← endsNow (D.next tree) it
  let _ ← endsNow (D.nextBack tree) it
  check l.head?.isNone
  check l.getLast?.isNone

omit [DecidableEq K] [DecidableEq V] [LT K] [DecidableLT K] in
/-- `for _ in 0..n { assert!(it.next().is_some()); }`. -/
def skip {α : Type} (next : It → R (It × Option α)) : Nat → It → R It
  | 0, it => .ok it
  | n + 1, it => do
    let (it, a) ← next it
    check a.isSome
    skip next n it

/-- tests/test.rs:195-213. -/
def consumed (tree : S) : R Unit := do
  let it ← D.iter tree
  let it ← skip (D.next tree) (D.len tree) it
  let it ← endsNow (D.next tree) it
  let it ← endsNow (D.nextBack tree) it
  let it ← endsNow (D.next tree) it
  let _ ← endsNow (D.nextBack tree) it
  let it ← D.iter tree
  let it ← skip (D.nextBack tree) (D.len tree) it
  let it ← endsNow (D.nextBack tree) it
  let it ← endsNow (D.next tree) it
  let it ← endsNow (D.nextBack tree) it
  let _ ← endsNow (D.next tree) it

omit [LT K] [DecidableLT K] in
/-- tests/test.rs:222-230: `n` times `next` on both mutable iterators and a write through both references. Nobody reads
the `BTreeMap` after that, so the writes to it are left out; `i` counts up. -/
def stepFrontMut (w : Nat → V) : Nat → Nat → S → It → List (K × V) → R (S × It × List (K × V))
  | 0, _, tree, it, l => .ok (tree, it, l)
  | n + 1, i, tree, it, l => do
    let (it, a) ← D.nextMut tree it
    let b := l.head?
    check (a.isSome && b.isSome)
    let p ← unwrap a
    let e ← D.read tree p
    check (some e = b)
    let tree ← D.write tree (D.slot p) (w i)
    stepFrontMut w n (i + 1) tree it l.tail

omit [LT K] [DecidableLT K] in
/-- tests/test.rs:231-239: the same with `next_back`. -/
def stepBackMut (w : Nat → V) : Nat → Nat → S → It → List (K × V) → R (S × It × List (K × V))
  | 0, _, tree, it, l => .ok (tree, it, l)
  | n + 1, i, tree, it, l => do
    let (it, a) ← D.nextBackMut tree it
    let b := l.getLast?
    check (a.isSome && b.isSome)
    let p ← unwrap a
    let e ← D.read tree p
    check (some e = b)
    let tree ← D.write tree (D.slot p) (w i)
    stepBackMut w n (i + 1) tree it l.dropLast

/-- tests/test.rs:216-250. -/
def doubleEndedMut (r : Nat) (w : Nat → V) (newMap : List (K × V)) (tree : S) : R S := do
  let it ← D.iter tree
  let high ← sub newMap.length 1
  let breakpoint ← genRange 1 high r
  let (tree, it, l) ← stepFrontMut D w breakpoint 0 tree it newMap
  let (tree, it, l) ← stepBackMut D w (newMap.length - breakpoint) breakpoint tree it l
  let it ← endsNow (D.nextMut tree) it
  let it ← endsNow (D.nextBackMut tree) it
  check l.head?.isNone
  check l.getLast?.isNone
  let it ← endsNow (D.nextMut tree) it
  let _ ← endsNow (D.nextBackMut tree) it
  check l.head?.isNone
  check l.getLast?.isNone
  return tree

/-- tests/test.rs:132-281: the comparisons after the rounds. The result is the tree. -/
def verify [LE V] [DecidableLE V] (fuel : Nat) (expectSorted : Bool) (c : Choices K V) (x : Vars S K V) : R S := do
  compare D fuel expectSorted x.map x.tree
  let it ← D.iter x.tree
  let (tree, newMap) ← overwrite D D.nextMut c.val1 fuel 0 x.tree it []
  compare D fuel expectSorted newMap tree
  let tree ← (if expectSorted then do
      doubleEnded D c.break1 newMap tree
      consumed D tree
      doubleEndedMut D c.break2 c.val2 newMap tree
    else return tree)
  let it ← D.iter tree
  let (tree, newMap) ← overwrite D D.nextBackMut c.val3 fuel 0 tree it []
  compare D fuel expectSorted newMap tree
  return tree

/-- `simulate` (tests/test.rs:40-282) on the tree that `new_from_slice` made; `fuel` bounds the number of calls of `next`
of a `for` loop. -/
def simulate [LE V] [DecidableLE V] (fuel : Nat) (expectSorted : Bool) (c : Choices K V) (tree : S) : R S := do
  let x ← churn D c tree
  verify D fuel expectSorted c x

end

variable {K V : Type} {B N M : Nat}

/-- `test_simulate_red_black_tree` (tests/test.rs:284-288). -/
def redBlack [Ord K] : TestMap (RedBlackTree K V M) K V RedBlackTree.Iter Nat where
  toDynMap := Fuzz.redBlack
  len := RedBlackTree.len
  capacity := RedBlackTree.capacity
  read t i := do
    let n ← t.getNode i
    return (n.key, n.value)
  slot := id

/-- `test_simulate_hash_table` (tests/test.rs:290-295). -/
def hashTable [BEq K] (hash : K → Nat) : TestMap (HashTable K V B M) K V HashTable.Iter Nat where
  toDynMap := Fuzz.hashTable hash
  len := HashTable.len
  capacity := HashTable.capacity
  read t i := do
    let n ← t.getNode i
    return (n.key, n.value)
  slot := id

/-- `test_simulate_avl_tree` (tests/test.rs:297-301). -/
def avl [LT K] [DecidableLT K] [PartialGt K] : TestMap (AVLTree K V M) K V AVLTree.Iter Nat where
  toDynMap := Fuzz.avl
  len := AVLTree.len
  capacity := AVLTree.capacity
  read t i := do
    let n ← t.getNode i
    return (n.key, n.value)
  slot := id

/-- `test_simulate_critbit` (tests/test.rs:303-308). -/
def critbit : TestMap (Critbit V N M) (BitVec 128) V Critbit.Iter (Nat × Nat) where
  toDynMap := Fuzz.critbit
  len := Critbit.len
  capacity := Critbit.capacity
  read t r := do
    let v ← t.getLeaf r.2
    let k ← t.getKey r.1
    return (k, v)
  slot := Prod.snd

end Sokoban.Simulate
