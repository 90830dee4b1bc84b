import Verif.Model.Simulate
import Verif.Model.Deque

/-
The unit tests beside the code: those at the end of src/red_black_tree.rs and of src/deque.rs. The tests fix the
capacities, the number of elements and the keys; here they are arguments. A failed assertion is a panic. An
`assert!(a && b)` is written as two assertions.
-/
namespace Sokoban.UnitTests
open Simulate (check mapInsert)

/-- `assert_eq!(a, b)`. -/
def equal {α : Type} [DecidableEq α] (a : R α) (b : α) : R Unit := do check (decide ((← a) = b))

/-- `assert!(a)`. -/
def holds (a : R Bool) : R Unit := do check (← a)

section RedBlack
variable {K V : Type} [Ord K] {M : Nat}

/-- `tree.insert(k, v).unwrap()`. -/
def put (t : RedBlackTree K V M) (k : K) (v : V) : R (RedBlackTree K V M × Nat) := do
  let (t, r) ← t.insert k v
  return (t, ← unwrap r)

/-- `test_insert_with_red_parent_and_uncle` (red_black_tree.rs:975-1013): there the keys are 61, 52, 85, 76, 93, 100,
all values 0 and the capacity 1024. -/
def redParentAndUncle (t : RedBlackTree K V M) (k0 k1 k2 k3 k4 k5 : K) (v : Nat → V) : R Unit := do
  let (t, a0) ← put t k0 (v 0)
  let (t, a1) ← put t k1 (v 1)
  let (t, a2) ← put t k2 (v 2)
  let (t, a3) ← put t k3 (v 3)
  let (t, a4) ← put t k4 (v 4)
  let parent := a4
  let uncle := a3
  let grandparent := a2
  equal (t.getLeft a0) a1
  equal (t.getRight a0) grandparent
  equal (t.getParent a1) a0
  equal (t.getParent grandparent) a0
  equal (t.getLeft grandparent) uncle
  equal (t.getRight grandparent) parent
  equal (t.getParent uncle) grandparent
  equal (t.getParent parent) grandparent
  holds (t.isBlack a0)
  holds (t.isBlack a1)
  holds (t.isBlack grandparent)
  holds (t.isRed uncle)
  holds (t.isRed parent)
  let (t, leaf) ← put t k5 (v 5)
  holds (t.isBlack a0)
  holds (t.isBlack a1)
  holds (t.isBlack uncle)
  holds (t.isBlack parent)
  holds (t.isRed grandparent)
  holds (t.isRed leaf)

/-- `test_right_insert_with_red_right_child_parent_and_black_uncle` (red_black_tree.rs:1024-1066): keys 61, 52, 85,
93, 100. -/
def rightRight (t : RedBlackTree K V M) (k0 k1 k2 k3 k4 : K) (v : Nat → V) : R Unit := do
  let (t, a0) ← put t k0 (v 0)
  let (t, a1) ← put t k1 (v 1)
  let (t, a2) ← put t k2 (v 2)
  let (t, a3) ← put t k3 (v 3)
  let parent := a3
  let grandparent := a2
  holds (t.isBlack a0)
  holds (t.isBlack a1)
  holds (t.isBlack grandparent)
  holds (t.isRed parent)
  equal (t.getLeft a0) a1
  equal (t.getRight a0) grandparent
  equal (t.getParent a1) a0
  equal (t.getParent grandparent) a0
  equal (t.getLeft grandparent) SENTINEL
  equal (t.getRight grandparent) parent
  equal (t.getParent parent) grandparent
  let (t, leaf) ← put t k4 (v 4)
  holds (t.isBlack a0)
  holds (t.isBlack a1)
  holds (t.isBlack parent)
  holds (t.isRed grandparent)
  holds (t.isRed leaf)
  equal (t.getLeft a0) a1
  equal (t.getRight a0) parent
  equal (t.getParent a1) a0
  equal (t.getParent parent) a0
  equal (t.getLeft parent) grandparent
  equal (t.getRight parent) leaf
  equal (t.getParent grandparent) parent
  equal (t.getParent leaf) parent
  holds (t.isLeaf leaf)
  holds (t.isLeaf grandparent)

/-- `test_left_insert_with_red_right_child_parent_and_black_uncle` (red_black_tree.rs:1077-1119): keys 61, 52, 85,
93, 87. -/
def leftRight (t : RedBlackTree K V M) (k0 k1 k2 k3 k4 : K) (v : Nat → V) : R Unit := do
  let (t, a0) ← put t k0 (v 0)
  let (t, a1) ← put t k1 (v 1)
  let (t, a2) ← put t k2 (v 2)
  let (t, a3) ← put t k3 (v 3)
  let parent := a3
  let grandparent := a2
  holds (t.isBlack a0)
  holds (t.isBlack a1)
  holds (t.isBlack grandparent)
  holds (t.isRed parent)
  equal (t.getLeft a0) a1
  equal (t.getRight a0) grandparent
  equal (t.getParent a1) a0
  equal (t.getParent grandparent) a0
  equal (t.getLeft grandparent) SENTINEL
  equal (t.getRight grandparent) parent
  equal (t.getParent parent) grandparent
  let (t, leaf) ← put t k4 (v 4)
  holds (t.isBlack a0)
  holds (t.isBlack a1)
  holds (t.isBlack leaf)
  holds (t.isRed grandparent)
  holds (t.isRed parent)
  equal (t.getLeft a0) a1
  equal (t.getRight a0) leaf
  equal (t.getParent a1) a0
  equal (t.getParent leaf) a0
  equal (t.getLeft leaf) grandparent
  equal (t.getRight leaf) parent
  equal (t.getParent grandparent) leaf
  equal (t.getParent parent) leaf
  holds (t.isLeaf parent)
  holds (t.isLeaf grandparent)

/-- `test_left_insert_with_red_left_child_parent_and_black_uncle` (red_black_tree.rs:1130-1172): keys 61, 85, 52,
41, 25. -/
def leftLeft (t : RedBlackTree K V M) (k0 k1 k2 k3 k4 : K) (v : Nat → V) : R Unit := do
  let (t, a0) ← put t k0 (v 0)
  let (t, a1) ← put t k1 (v 1)
  let (t, a2) ← put t k2 (v 2)
  let (t, a3) ← put t k3 (v 3)
  let parent := a3
  let grandparent := a2
  holds (t.isBlack a0)
  holds (t.isBlack a1)
  holds (t.isBlack grandparent)
  holds (t.isRed parent)
  equal (t.getRight a0) a1
  equal (t.getLeft a0) grandparent
  equal (t.getParent a1) a0
  equal (t.getParent grandparent) a0
  equal (t.getRight grandparent) SENTINEL
  equal (t.getLeft grandparent) parent
  equal (t.getParent parent) grandparent
  let (t, leaf) ← put t k4 (v 4)
  holds (t.isBlack a0)
  holds (t.isBlack a1)
  holds (t.isBlack parent)
  holds (t.isRed grandparent)
  holds (t.isRed leaf)
  equal (t.getRight a0) a1
  equal (t.getLeft a0) parent
  equal (t.getParent a1) a0
  equal (t.getParent parent) a0
  equal (t.getRight parent) grandparent
  equal (t.getLeft parent) leaf
  equal (t.getParent grandparent) parent
  equal (t.getParent leaf) parent
  holds (t.isLeaf leaf)
  holds (t.isLeaf grandparent)

/-- `test_right_insert_with_red_left_child_parent_and_black_uncle` (red_black_tree.rs:1183-1226): keys 61, 85, 52,
41, 47; at the end the tree is printed. -/
def rightLeft (debug : K → String) (t : RedBlackTree K V M) (k0 k1 k2 k3 k4 : K) (v : Nat → V) : R Unit := do
  let (t, a0) ← put t k0 (v 0)
  let (t, a1) ← put t k1 (v 1)
  let (t, a2) ← put t k2 (v 2)
  let (t, a3) ← put t k3 (v 3)
  let parent := a3
  let grandparent := a2
  holds (t.isBlack a0)
  holds (t.isBlack a1)
  holds (t.isBlack grandparent)
  holds (t.isRed parent)
  equal (t.getRight a0) a1
  equal (t.getLeft a0) grandparent
  equal (t.getParent a1) a0
  equal (t.getParent grandparent) a0
  equal (t.getRight grandparent) SENTINEL
  equal (t.getLeft grandparent) parent
  equal (t.getParent parent) grandparent
  let (t, leaf) ← put t k4 (v 4)
  holds (t.isBlack a0)
  holds (t.isBlack a1)
  holds (t.isBlack leaf)
  holds (t.isRed grandparent)
  holds (t.isRed parent)
  equal (t.getRight a0) a1
  equal (t.getLeft a0) leaf
  equal (t.getParent a1) a0
  equal (t.getParent leaf) a0
  equal (t.getRight leaf) grandparent
  equal (t.getLeft leaf) parent
  equal (t.getParent grandparent) leaf
  equal (t.getParent parent) leaf
  holds (t.isLeaf parent)
  holds (t.isLeaf grandparent)
  let _ ← t.prettyPrint debug

/-- The loop that fills the tree: red_black_tree.rs:1238-1245, 1263-1270, 1291-1297, 1309-1313, 1331-1338, 1354-1361; `valid`: the
test calls `is_valid_red_black_tree` after every insertion (all tests but `test_delete_multiple_random_2048`). The
addresses are returned, `addrs` in line 1267. -/
def fillTree (valid : Bool) (t : RedBlackTree K V M) : List (K × V) → R (RedBlackTree K V M × List Nat)
  | [] => .ok (t, [])
  | (k, v) :: l => do
    let (t, a) ← put t k v
    if valid then holds t.isValid
    let (t, as) ← fillTree valid t l
    return (t, a :: as)

/-- The loop that empties the tree: red_black_tree.rs:1247-1250, 1276-1279, 1316-1319, 1339-1342, 1362-1365. -/
def drainTree (t : RedBlackTree K V M) : List K → R (RedBlackTree K V M)
  | [] => .ok t
  | k :: l => do
    let (t, r) ← t.remove k
    let _ ← unwrap r
    holds t.isValid
    drainTree t l

/-- `for (k, a) in keys.iter().zip(addrs)` (red_black_tree.rs:1272-1274). -/
def addressesKept (t : RedBlackTree K V M) : List (K × Nat) → R Unit
  | [] => .ok ()
  | (k, a) :: l => do
    equal (t.getAddr k) a
    addressesKept t l

/-- `test_delete_multiple_random_1023`, `_512`, `_4098` (red_black_tree.rs:1230-1251, 1323-1343, 1346-1366): the
keys are hashes of 0, 1, 2, ..., the values 0; the number of keys is the capacity. -/
def deleteAll (t : RedBlackTree K V M) (es : List (K × V)) : R Unit := do
  let (t, _) ← fillTree true t es
  let _ ← drainTree t (es.map Prod.fst)

/-- `test_delete_multiple_random_1024` (red_black_tree.rs:1254-1280). -/
def deleteAllAddresses (t : RedBlackTree K V M) (es : List (K × V)) : R Unit := do
  let (t, addrs) ← fillTree true t es
  addressesKept t ((es.map Prod.fst).zip addrs)
  let _ ← drainTree t (es.map Prod.fst)

/-- `test_delete_multiple_random_2048` (red_black_tree.rs:1283-1320): `index` is `key_to_index`, which maps a key to
its last position among the keys; a second tree is filled with these positions. -/
def deleteAllIndices [DecidableEq K] [LT K] [DecidableLT K] (t : RedBlackTree K V M) (t' : RedBlackTree Nat V M)
    (es : List (K × V)) (v : V) : R Unit := do
  let _ ← fillTree false t es
  let keys := es.map Prod.fst
  let index := keys.zipIdx.foldl (fun m e => mapInsert e.1 e.2 m) []
  let indices ← keys.mapM fun k => unwrap (index.lookup k)
  let (t', _) ← fillTree false t' (indices.map fun i => (i, v))
  holds t'.isValid
  let _ ← drainTree t' indices

/-- `remove_root` (red_black_tree.rs:1369-1385): the entries are (1, 5), (2, 0), (0, 4). -/
def removeRootTest [DecidableEq K] [DecidableEq V] (t : RedBlackTree K V M) (e0 e1 e2 : K × V) : R Unit := do
  let (t, r) ← t.removeRoot
  check r.isNone
  let (t, _) ← t.insert e0.1 e0.2
  let (t, _) ← t.insert e1.1 e1.2
  let (t, _) ← t.insert e2.1 e2.2
  let (_, r) ← t.removeRoot
  let root ← unwrap r
  check (root.key = e0.1)
  check (root.value = e0.2)

end RedBlack

/-! ### `test_deque` (deque.rs:307-401); a `VecDeque` is the list of its elements -/

section Deque
variable {T : Type} [DecidableEq T] {M : Nat}

/-- `(0..128).for_each(..)` with `push_back` on both: deque.rs:316-320, 381-385. -/
def pushBacks : List T → Deque T M × List T → R (Deque T M × List T)
  | [], x => .ok x
  | t :: l, (q, v) => do
    let q ← q.pushBack t
    pushBacks l (q, v ++ [t])

/-- The same with `push_front`: deque.rs:321-325, 386-390. -/
def pushFronts : List T → Deque T M × List T → R (Deque T M × List T)
  | [], x => .ok x
  | t :: l, (q, v) => do
    let q ← q.pushFront t
    pushFronts l (q, t :: v)

/-- `for ((_, i), j) in q.iter().zip(v.iter())` (deque.rs:326-328, 391-393): ends as soon as one of the iterators
does. -/
def zipForward (q : Deque T M) : List T → Deque.Iter → R Unit
  | [], it => do
    let _ ← it.next q
    return
  | j :: v, it => do
    let (it, x) ← it.next q
    match x with
    | none => return
    | some (_, i) => do
      check (i = j)
      zipForward q v it

/-- The same with `rev()` on both (deque.rs:329-331, 394-396); the argument is `v.iter().rev()` as a list. -/
def zipBackward (q : Deque T M) : List T → Deque.Iter → R Unit
  | [], it => do
    let _ ← it.nextBack q
    return
  | j :: v, it => do
    let (it, x) ← it.nextBack q
    match x with
    | none => return
    | some (_, i) => do
      check (i = j)
      zipBackward q v it

/-- `assert_eq!(q_iter.next().map(|x| x.1), v_iter.next())`, `n` times (deque.rs:337-339). -/
def stepsForward (q : Deque T M) : Nat → Deque.Iter × List T → R (Deque.Iter × List T)
  | 0, x => .ok x
  | n + 1, (it, v) => do
    let (it, x) ← it.next q
    check (x.map Prod.snd = v.head?)
    stepsForward q n (it, v.tail)

/-- The same with `next_back` (deque.rs:340-342). -/
def stepsBackward (q : Deque T M) : Nat → Deque.Iter × List T → R (Deque.Iter × List T)
  | 0, x => .ok x
  | n + 1, (it, v) => do
    let (it, x) ← it.nextBack q
    check (x.map Prod.snd = v.getLast?)
    stepsBackward q n (it, v.dropLast)

/-- `assert!(q_iter.next().is_none())` and so on, once (deque.rs:344-347, 349-352). -/
def endsForGood (q : Deque T M) (it : Deque.Iter) (v : List T) : R Deque.Iter := do
  let (it, x) ← it.next q
  check x.isNone
  let (it, x) ← it.nextBack q
  check x.isNone
  check v.head?.isNone
  check v.getLast?.isNone
  return it

/-- deque.rs:333-353, with the breakpoint `b` and `n` in place of 256. -/
def meet (q : Deque T M) (v : List T) (b n : Nat) : R Unit := do
  let x ← stepsForward q b (q.iter, v)
  let (it, v) ← stepsBackward q (n - b) x
  let it ← endsForGood q it v
  let _ ← endsForGood q it v

/-- The value behind the reference that the mutable iterator returned. -/
def deref (q : Deque T M) : Option Nat → R (Option T)
  | none => .ok none
  | some p => do return some (← q.getNode p)

/-- deque.rs:359-361. -/
def stepsForwardMut (q : Deque T M) : Nat → Deque.Iter × List T → R (Deque.Iter × List T)
  | 0, x => .ok x
  | n + 1, (it, v) => do
    let (it, x) ← it.nextMut q
    check ((← deref q x) = v.head?)
    stepsForwardMut q n (it, v.tail)

/-- deque.rs:362-364. -/
def stepsBackwardMut (q : Deque T M) : Nat → Deque.Iter × List T → R (Deque.Iter × List T)
  | 0, x => .ok x
  | n + 1, (it, v) => do
    let (it, x) ← it.nextBackMut q
    check ((← deref q x) = v.getLast?)
    stepsBackwardMut q n (it, v.dropLast)

/-- deque.rs:366-369, 371-374. -/
def endsForGoodMut (q : Deque T M) (it : Deque.Iter) (v : List T) : R Deque.Iter := do
  let (it, x) ← it.nextMut q
  check x.isNone
  let (it, x) ← it.nextBackMut q
  check x.isNone
  check v.head?.isNone
  check v.getLast?.isNone
  return it

/-- deque.rs:355-375. -/
def meetMut (q : Deque T M) (v : List T) (b n : Nat) : R Unit := do
  let x ← stepsForwardMut q b (q.iter, v)
  let (it, v) ← stepsBackwardMut q (n - b) x
  let it ← endsForGoodMut q it v
  let _ ← endsForGoodMut q it v

/-- `assert_eq!(q.pop_back(), v.pop_back())`, `n` times (deque.rs:377-379). -/
def popBacks : Nat → Deque T M × List T → R (Deque T M × List T)
  | 0, x => .ok x
  | n + 1, (q, v) => do
    let (q, x) ← q.popBack
    check (x = v.getLast?)
    popBacks n (q, v.dropLast)

/-- `assert_eq!(q.pop_front(), v.pop_front())`, `n` times (deque.rs:397-399). -/
def popFronts : Nat → Deque T M × List T → R (Deque T M × List T)
  | 0, x => .ok x
  | n + 1, (q, v) => do
    let (q, x) ← q.popFront
    check (x = v.head?)
    popFronts n (q, v.tail)

/-- `test_deque` (deque.rs:307-401). The random values are `b1`, `f1`, `b2`, `f2`, 128 each in the test, where the
capacity is 1024, and the two breakpoints are between 1 and 254. -/
def testDeque (q : Deque T M) (b1 f1 b2 f2 : List T) (break1 break2 : Nat) : R Unit := do
  let x ← pushBacks b1 (q, [])
  let (q, v) ← pushFronts f1 x
  zipForward q v q.iter
  zipBackward q v.reverse q.iter
  meet q v break1 (b1.length + f1.length)
  meetMut q v break2 (b1.length + f1.length)
  let (q, v) ← popBacks (b1.length + f1.length) (q, v)
  check (q.isEmpty && v.isEmpty)
  let x ← pushBacks b2 (q, v)
  let (q, v) ← pushFronts f2 x
  zipForward q v q.iter
  zipBackward q v.reverse q.iter
  let (q, v) ← popFronts (b2.length + f2.length) (q, v)
  check (q.isEmpty && v.isEmpty)

end Deque

end Sokoban.UnitTests
