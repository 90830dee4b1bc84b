import Verif.Model.Caprice
import Verif.Spec.AnyOrder
import Verif.Spec.HashTable

/-
Histories of calls during which code of the key type panics or answers as it likes, and what they may do to the
entries.
-/
namespace Sokoban.Caprice
open MapSpec
variable {K V : Type} {σ α : Type} {M B : Nat}

/-- The client catches panics of the code of its key type (`catch_unwind`) and goes on with the same structure:
`none`. A panic of the crate itself or an endless loop ends the history. -/
def caught (m : C σ α) (s : σ) : R (σ × Option α) :=
  match m s with
  | .ok x s' => .ok (s', some x)
  | .error .user s' => .ok (s', none)
  | .error (.crate p) _ => .error p

/-- What a call may do that possibly ends with a panic in code of the key type: then nothing at all. -/
def Unless {Op Out : Type} (step : List (K × V) → Op → Out → List (K × V) → Prop) (L : List (K × V)) (op : Op) :
    Option Out → List (K × V) → Prop
  | none, L' => L' = L
  | some o, L' => step L op o L'

/-! ### red-black tree -/

/-- Answers of `Ord::cmp` during one call: iteration, given key, key in the tree. -/
abbrev Cmp (K : Type) := Nat → K → K → Option Ordering

/-- One call with the given answers. (`iter_mut` and `remove_root` compare no keys; the instance is not used.) -/
def rbDo (o : Cmp K) : RedBlackSpec.TOp K V → C (RedBlackTree K V M) (RedBlackSpec.TOut K V)
  | .map (.insert k v) => do return .map (.inserted (← rbInsert o k v).isSome)
  | .map (.remove k) => do return .map (.removed (← rbRemove o k))
  | .map (.getMut k f) => do return .map (.got (← rbGetMut o k f))
  | .map (.iterMut es) => step fun t => letI : Ord K := ⟨fun _ _ => .eq⟩; RedBlackSpec.call t (.map (.iterMut es))
  | .removeRoot => step fun t => letI : Ord K := ⟨fun _ _ => .eq⟩; RedBlackSpec.call t .removeRoot

/-- One call of a history. -/
def rbCall (t : RedBlackTree K V M) (c : RedBlackSpec.TOp K V × Cmp K) :
    R (RedBlackTree K V M × Option (RedBlackSpec.TOut K V)) := caught (rbDo c.2 c.1) t

/-- What the call may do: as with any order (Spec/AnyOrder.lean), where an entry is found only if one of the answers
given during this call for its key was "equal". -/
def RbStep (cap : Nat) (L : List (K × V)) (c : RedBlackSpec.TOp K V × Cmp K) :
    Option (RedBlackSpec.TOut K V) → List (K × V) → Prop :=
  Unless (AnyOrder.TStep (fun k k' => ∃ n, c.2 n k k' = some .eq) cap) L c.1

/-! ### AVL tree -/

/-- Answers of `PartialOrd::lt` and `PartialOrd::gt` during one call. -/
structure Less (K : Type) where
  lt : Nat → K → K → Option Bool
  gt : Nat → K → K → Option Bool

/-- One call with the given answers. (`iter_mut` compares no keys; the instance is not used.) -/
def avlDo (o : Less K) : Op K V → C (AVLTree K V M) (Out K V)
  | .insert k v => do return .inserted (← avlInsert o.lt o.gt k v).isSome
  | .remove k => do return .removed (← avlRemove o.lt o.gt k)
  | .getMut k f => do return .got (← avlGetMut o.lt o.gt k f)
  | .iterMut es => step fun t =>
      letI : LT K := ⟨fun _ _ => False⟩
      letI : DecidableLT K := fun _ _ => .isFalse id
      AVLSpec.call t (.iterMut es)

/-- One call of a history. -/
def avlCall (t : AVLTree K V M) (c : Op K V × Less K) : R (AVLTree K V M × Option (Out K V)) := caught (avlDo c.2 c.1) t

/-- What the call may do; an entry is found only if both questions about its key were answered "no" in one iteration
of this call. -/
def AvlStep (cap : Nat) (L : List (K × V)) (c : Op K V × Less K) : Option (Out K V) → List (K × V) → Prop :=
  Unless (AnyOrder.Step (fun k k' => ∃ n, c.2.lt n k k' = some false ∧ c.2.gt n k k' = some false) cap) L c.1

/-! ### hash table -/

/-- The hash of the key given to a call and the answers of `PartialEq::eq` during it. -/
structure Eqs (K : Type) where
  hash : Option Nat
  eq : Nat → K → K → Option Bool

/-- One call with the given answers. (`iter_mut` does not look at keys; the instance is not used.) -/
def hashDo (o : Eqs K) : Op K V → C (HashTable K V B M) (Out K V)
  | .insert k v => do return .inserted (← hashInsert o.hash o.eq k v).isSome
  | .remove k => do return .removed (← hashRemove o.hash o.eq k)
  | .getMut k f => do return .got (← hashGetMut o.hash o.eq k f)
  | .iterMut es => step fun h =>
      letI : BEq K := ⟨fun _ _ => false⟩
      HashTableSpec.call (fun _ => 0) h (.iterMut es)

/-- One call of a history. -/
def hashCall (h : HashTable K V B M) (c : Op K V × Eqs K) : R (HashTable K V B M × Option (Out K V)) :=
  caught (hashDo c.2 c.1) h

/-- What a call may do to the entries of a hash table, in the order of iteration. `get_mut` moves the entry to the front
of its bucket. -/
def HashDoes (same : K → K → Prop) (cap : Nat) (L : List (K × V)) : Op K V → Out K V → List (K × V) → Prop
  | .getMut k f, o, L' =>
      (∃ L1 L2 k' w L3, same k k' ∧ L = L1 ++ L2 ++ (k', w) :: L3 ∧ L' = L1 ++ (k', f w) :: (L2 ++ L3) ∧ o = .got (some w)) ∨
      (L' = L ∧ o = .got none)
  | .iterMut es, o, L' => o = .seen (consumeMutFwd L (script es)).1 ∧ L' = (consumeMutFwd L (script es)).2
  | op, o, L' => AnyOrder.Step same cap L op o L'

/-- What the call may do; an entry is found only if its key was answered to equal the given one during this call. -/
def HashStep (cap : Nat) (L : List (K × V)) (c : Op K V × Eqs K) : Option (Out K V) → List (K × V) → Prop :=
  Unless (HashDoes (fun k k' => ∃ n, c.2.eq n k' k = some true) cap) L c.1

/-! ### key types that keep to their instances -/

/-- The answers of the instance `Ord K`. -/
def cmpOf (K : Type) [Ord K] : Cmp K := fun _ a b => some (compare a b)

/-- The answers of the relations `<` and `>` of the key type. -/
def lessOf (K : Type) [LT K] [DecidableLT K] [PartialGt K] : Less K where
  lt _ a b := some (decide (a < b))
  gt _ a b := some (decide (PartialGt.gt a b))

/-- The key that a call hashes, if any. -/
def keyOf : Op K V → Option K
  | .insert k _ | .remove k | .getMut k _ => some k
  | .iterMut _ => none

/-- The answers of the hash function and the `==` of the key type. -/
def eqsOf [BEq K] (hash : K → Nat) (op : Op K V) : Eqs K where
  hash := (keyOf op).map hash
  eq _ a b := some (a == b)

/-- Every answer is that of the instance or a panic. -/
def CmpTrue [Ord K] (o : Cmp K) : Prop := ∀ n a b, o n a b = none ∨ o n a b = some (compare a b)

/-- Every answer is that of the relations `<` and `>` of the key type or a panic. -/
def LessTrue [LT K] [DecidableLT K] [PartialGt K] (o : Less K) : Prop :=
  (∀ n a b, o.lt n a b = none ∨ o.lt n a b = some (decide (a < b))) ∧
  ∀ n a b, o.gt n a b = none ∨ o.gt n a b = some (decide (PartialGt.gt a b))

/-- Every answer is that of the hash function and the `==` of the key type or a panic. -/
def EqsTrue [BEq K] (hash : K → Nat) (c : Op K V × Eqs K) : Prop :=
  (∀ k, keyOf c.1 = some k → c.2.hash = none ∨ c.2.hash = some (hash k)) ∧
  ∀ n a b, c.2.eq n a b = none ∨ c.2.eq n a b = some (a == b)

/-- The calls of a history that were not ended by a panic of the key type. -/
def completed {Op O Out : Type} (cs : List (Op × O)) (rs : List (Option Out)) : List Op :=
  (cs.zip rs).filterMap fun p => p.2.map fun _ => p.1.1

end Sokoban.Caprice
