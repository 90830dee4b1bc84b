import Verif.Model.RedBlack
import Verif.Model.AVL
import Verif.Model.HashTable
import Verif.Model.Critbit

/-
The fuzzing harness of the crate: fuzz/src/lib.rs and fuzz/fuzz_targets/*.rs.
-/
namespace Sokoban.Fuzz

/-- What the harness uses of `dyn NodeAllocatorMap<K, V>` (node_allocator.rs:34-49). A `&mut V` is the number of
the slot that it points to, `write` assigns through it; `P` is the item of the mutable iterator. -/
structure DynMap (S K V It P : Type) where
  insert : S → K → V → R (S × Option Nat)
  remove : S → K → R (S × Option V)
  get : S → K → R (Option V)
  getMut : S → K → R (S × Option Nat)
  write : S → Nat → V → R S
  iter : S → R It
  next : S → It → R (It × Option (K × V))
  nextBack : S → It → R (It × Option (K × V))
  nextMut : S → It → R (It × Option P)
  nextBackMut : S → It → R (It × Option P)

/-- `NodeAllocatorMapAction` (fuzz/src/lib.rs:7-17). -/
inductive Action (K V : Type) where
  | insert (key : K) (value : V)
  | upsert (value : V)
  | remove
  | replace (value : V)
  | iter
  | iterRev
  | iterMut
  | iterMutRev
deriving DecidableEq, Repr

/-- `assert_eq!`. -/
def assertEq {V : Type} [DecidableEq V] (a b : V) : R Unit := if a = b then .ok () else .error .assertion

/-- `for x in it { body(x) }`: calls `next` until it returns `None`. At most `fuel` calls. -/
def forEach {It α : Type} (next : It → R (It × Option α)) (body : α → R Unit) : Nat → It → R Unit
  | 0, _ => .error .diverge
  | fuel + 1, it => do
    let (it, x) ← next it
    match x with
    | none => return ()
    | some x => do
      body x
      forEach next body fuel it

/-- `v[j]`. -/
def at! {α : Type} (l : List α) (j : Nat) : R α :=
  match l[j]? with
  | none => .error .indexOutOfBounds
  | some x => .ok x

/-- `Vec::swap_remove(j)`: the last element takes the place of the removed one. -/
def swapRemove {α : Type} (l : List α) (j : Nat) : List α :=
  match l.getLast? with
  | none => []
  | some x => (l.set j x).dropLast

section
variable {S K V It P : Type} [DecidableEq V] (D : DynMap S K V It P)

/-- `perform_action` (fuzz/src/lib.rs:19-76). `rng.gen_range(0, n)` is `r % n` with an arbitrary number `r`; `fuel`
bounds the calls of `next` of a `for` loop. -/
def performAction (fuel : Nat) (tree : S) (keys : List K) (action : Action K V) (r : Nat) : R (S × List K) :=
  match action with
  | .insert key value => do
    if (← D.get tree key).isSome then return (tree, keys)
    let (tree, res) ← D.insert tree key value
    if res.isSome then do
      assertEq (← unwrap (← D.get tree key)) value
      return (tree, keys ++ [key])
    else return (tree, keys)
  | .upsert value => do
    if keys.length = 0 then return (tree, keys)
    let j := r % keys.length
    let key ← at! keys j
    let (tree, _) ← D.insert tree key value
    assertEq (← unwrap (← D.get tree key)) value
    return (tree, keys)
  | .replace value => do
    if keys.length = 0 then return (tree, keys)
    let j := r % keys.length
    let key ← at! keys j
    let (tree, ref) ← D.getMut tree key
    let ref ← unwrap ref
    let tree ← D.write tree ref value
    assertEq (← unwrap (← D.get tree key)) value
    return (tree, keys)
  | .remove => do
    if keys.length = 0 then return (tree, keys)
    let j := r % keys.length
    let key ← at! keys j
    let value ← unwrap (← D.get tree key)
    let (tree, removed) ← D.remove tree key
    assertEq value (← unwrap removed)
    return (tree, swapRemove keys j)
  | .iter => do
    let it ← D.iter tree
    forEach (D.next tree) (fun e => do assertEq (← unwrap (← D.get tree e.1)) e.2) fuel it
    return (tree, keys)
  | .iterRev => do
    let it ← D.iter tree
    forEach (D.nextBack tree) (fun e => do assertEq (← unwrap (← D.get tree e.1)) e.2) fuel it
    return (tree, keys)
  | .iterMut => do
    let it ← D.iter tree
    forEach (D.nextMut tree) (fun _ => .ok ()) fuel it
    return (tree, keys)
  | .iterMutRev => do
    let it ← D.iter tree
    forEach (D.nextBackMut tree) (fun _ => .ok ()) fuel it
    return (tree, keys)

/-- The loop of a fuzz target (fuzz/fuzz_targets/*.rs): `check` is what the target asserts after every action. -/
def target (check : S → R Unit) (fuel : Nat) (tree : S) (keys : List K) : List (Action K V × Nat) → R (S × List K)
  | [] => .ok (tree, keys)
  | (a, r) :: as => do
    let (tree, keys) ← performAction D fuel tree keys a r
    check tree
    target check fuel tree keys as

end

variable {K V : Type} {B N M : Nat}

/-- `RedBlackTree` as `dyn NodeAllocatorMap` (red_black_tree.rs:131-186). -/
def redBlack [Ord K] : DynMap (RedBlackTree K V M) K V RedBlackTree.Iter Nat where
  insert t k v := t.insert k v
  remove t k := t.remove k
  get := RedBlackTree.get
  getMut t k := do return (t, ← t.getMut k)
  write := RedBlackTree.setNodeValue
  iter t := .ok t.iter
  next := RedBlackTree.Iter.next
  nextBack := RedBlackTree.Iter.nextBack
  nextMut := RedBlackTree.Iter.nextMut
  nextBackMut := RedBlackTree.Iter.nextBackMut

/-- `AVLTree` as `dyn NodeAllocatorMap` (avl_tree.rs:111-190). -/
def avl [LT K] [DecidableLT K] [PartialGt K] : DynMap (AVLTree K V M) K V AVLTree.Iter Nat where
  insert t k v := t.insert k v
  remove t k := t.remove k
  get := AVLTree.get
  getMut t k := do return (t, ← t.getMut k)
  write := AVLTree.setNodeValue
  iter t := .ok t.iter
  next := AVLTree.Iter.next
  nextBack := AVLTree.Iter.nextBack
  nextMut := AVLTree.Iter.nextMut
  nextBackMut := AVLTree.Iter.nextBackMut

/-- `HashTable` as `dyn NodeAllocatorMap` (hash_table.rs:99-190). -/
def hashTable [BEq K] (hash : K → Nat) : DynMap (HashTable K V B M) K V HashTable.Iter Nat where
  insert t k v := t.insert hash k v
  remove t k := t.remove hash k
  get t k := t.get hash k
  getMut t k := t.getMut hash k
  write := HashTable.setNodeValue
  iter := HashTable.iter
  next := HashTable.Iter.next
  nextBack _ := HashTable.Iter.nextBack
  nextMut := HashTable.Iter.nextMut
  nextBackMut := HashTable.Iter.nextBackMut

/-- `Critbit` as `dyn NodeAllocatorMap` (critbit.rs:89-173). -/
def critbit : DynMap (Critbit V N M) (BitVec 128) V Critbit.Iter (Nat × Nat) where
  insert t k v := t.insert k v
  remove t k := t.remove k
  get := Critbit.get
  getMut t k := do return (t, ← t.getMut k)
  write := Critbit.replaceLeaf
  iter t := .ok t.iter
  next := Critbit.Iter.next
  nextBack := Critbit.Iter.nextBack
  nextMut := Critbit.Iter.nextMut
  nextBackMut := Critbit.Iter.nextBackMut

/-- `assert!(tree.is_valid_red_black_tree())` (fuzz_targets/fuzz_red_black_tree.rs:12). -/
def assertValid (t : RedBlackTree K V M) : R Unit := do
  if ← t.isValid then return () else .error .assertion

/-- The three other targets assert nothing after an action (fuzz_targets/fuzz_avl_tree.rs:10-12 and alike). -/
def assertNothing {S : Type} (_ : S) : R Unit := .ok ()

end Sokoban.Fuzz
