import Verif.Spec.Api
import Verif.Spec.RedBlack
import Verif.Spec.AVL
import Verif.Spec.HashTable
import Verif.Spec.Critbit
import Verif.Spec.Deque
import Mathlib.Data.List.Forall2

/-
Two structures with the same links and counters whose keys and values differ, and calls and results that differ in the
same way. `RK k k'` says that key `k` of the one corresponds to key `k'` of the other; `RV` does so for values.
-/
namespace Sokoban

/-- Both computations panic, with the same panic, or both return, and the results satisfy `P`. -/
inductive BothDo {α α' : Type} (P : α → α' → Prop) : R α → R α' → Prop where
  | ok {a a'} : P a a' → BothDo P (.ok a) (.ok a')
  | error {p} : BothDo P (.error p) (.error p)

/-- The same allocator but for the contents of the nodes, which satisfy `P` slot by slot. -/
structure NodeAllocator.Like {T T' : Type} {M N : Nat} (P : T → T' → Prop) (a : NodeAllocator T M N)
    (a' : NodeAllocator T' M N) : Prop where
  size : a'.size = a.size
  bumpIndex : a'.bumpIndex = a.bumpIndex
  freeListHead : a'.freeListHead = a.freeListHead
  registers : ∀ (i : Nat) (h : i < M), a'.nodes[i].registers = a.nodes[i].registers
  value : ∀ (i : Nat) (h : i < M), P a.nodes[i].value a'.nodes[i].value

section
variable {K K' V V' T T' : Type} {B N M : Nat} (RK : K → K' → Prop) (RV : V → V' → Prop)

/-- The same tree but for its keys and values, which correspond. -/
def RedBlackTree.Like (t : RedBlackTree K V M) (t' : RedBlackTree K' V' M) : Prop :=
  t'.root = t.root ∧ t.allocator.Like (fun n n' => RK n.key n'.key ∧ RV n.value n'.value) t'.allocator

/-- The same tree but for its keys and values, which correspond. -/
def AVLTree.Like (t : AVLTree K V M) (t' : AVLTree K' V' M) : Prop :=
  t'.root = t.root ∧ t.allocator.Like (fun n n' => RK n.key n'.key ∧ RV n.value n'.value) t'.allocator

/-- The same table but for its keys and values, which correspond. -/
def HashTable.Like (h : HashTable K V B M) (h' : HashTable K' V' B M) : Prop :=
  h'.buckets = h.buckets ∧ h.allocator.Like (fun n n' => RK n.key n'.key ∧ RV n.value n'.value) h'.allocator

/-- The same tree, keys included, but for its values, which correspond. -/
def Critbit.Like (t : Critbit V N M) (t' : Critbit V' N M) : Prop :=
  t'.root = t.root ∧ t'.nodeAllocator = t.nodeAllocator ∧ t.leaves.Like RV t'.leaves

/-- The same queue but for its elements, which correspond. -/
def Deque.Like (RT : T → T' → Prop) (d : Deque T M) (d' : Deque T' M) : Prop :=
  d'.sequenceNumber = d.sequenceNumber ∧ d'.head = d.head ∧ d'.tail = d.tail ∧ d.allocator.Like RT d'.allocator

namespace MapSpec

/-- Corresponding entries. -/
def EntryLike (e : K × V) (e' : K' × V') : Prop := RK e.1 e'.1 ∧ RV e.2 e'.2

/-- Corresponding calls: the same function, with corresponding keys and values; functions that are applied to values
take corresponding values to corresponding ones. -/
inductive OpLike : Op K V → Op K' V' → Prop where
  | insert {k k' v v'} : RK k k' → RV v v' → OpLike (.insert k v) (.insert k' v')
  | remove {k k'} : RK k k' → OpLike (.remove k) (.remove k')
  | getMut {k k' f f'} : RK k k' → (∀ v v', RV v v' → RV (f v) (f' v')) → OpLike (.getMut k f) (.getMut k' f')
  | iterMut {es es'} :
      List.Forall₂ (fun e e' => e'.1 = e.1 ∧ ∀ k k' v v', RK k k' → RV v v' → RV (e.2 k v) (e'.2 k' v')) es es' →
      OpLike (.iterMut es) (.iterMut es')

/-- Corresponding results. -/
inductive OutLike : Out K V → Out K' V' → Prop where
  | inserted {b} : OutLike (.inserted b) (.inserted b)
  | removed {v v'} : Option.Rel RV v v' → OutLike (.removed v) (.removed v')
  | got {v v'} : Option.Rel RV v v' → OutLike (.got v) (.got v')
  | seen {es es'} : List.Forall₂ (Option.Rel (EntryLike RK RV)) es es' → OutLike (.seen es) (.seen es')

end MapSpec

/-- Two maps whose functions do the same on corresponding arguments: `RS`, `RI` and `RR` say which structures, iterators
and items of mutable iterators correspond. Addresses, counts and booleans must be equal. -/
structure Api.Like {S S' : Type} (RS : S → S' → Prop) (A : Api S K V) (A' : Api S' K' V') (RI : A.Iter → A'.Iter → Prop)
    (RR : A.Ref → A'.Ref → Prop) : Prop where
  insert : ∀ s s' k k' v v', RS s s' → RK k k' → RV v v' →
    BothDo (fun r r' => RS r.1 r'.1 ∧ r'.2 = r.2) (A.insert s k v) (A'.insert s' k' v')
  remove : ∀ s s' k k', RS s s' → RK k k' →
    BothDo (fun r r' => RS r.1 r'.1 ∧ Option.Rel RV r.2 r'.2) (A.remove s k) (A'.remove s' k')
  get : ∀ s s' k k', RS s s' → RK k k' → BothDo (Option.Rel RV) (A.get s k) (A'.get s' k')
  contains : ∀ s s' k k', RS s s' → RK k k' → A'.contains s' k' = A.contains s k
  index : ∀ s s' k k', RS s s' → RK k k' → BothDo RV (A.index s k) (A'.index s' k')
  getMut : ∀ s s' k k', RS s s' → RK k k' → A'.getMut s' k' = A.getMut s k
  len : ∀ s s', RS s s' → A'.len s' = A.len s
  isEmpty : ∀ s s', RS s s' → A'.isEmpty s' = A.isEmpty s
  iter : ∀ s s', RS s s' → RI (A.iter s) (A'.iter s')
  next : ∀ s s' it it', RS s s' → RI it it' →
    BothDo (fun r r' => RI r.1 r'.1 ∧ Option.Rel (MapSpec.EntryLike RK RV) r.2 r'.2) (A.next s it) (A'.next s' it')
  nextBack : ∀ s s' it it', RS s s' → RI it it' →
    BothDo (fun r r' => RI r.1 r'.1 ∧ Option.Rel (MapSpec.EntryLike RK RV) r.2 r'.2) (A.nextBack s it) (A'.nextBack s' it')
  slot : ∀ r r', RR r r' → A'.slot r' = A.slot r
  nextMut : ∀ s s' it it', RS s s' → RI it it' →
    BothDo (fun r r' => RI r.1 r'.1 ∧ Option.Rel RR r.2 r'.2) (A.nextMut s it) (A'.nextMut s' it')
  nextBackMut : ∀ s s' it it', RS s s' → RI it it' →
    BothDo (fun r r' => RI r.1 r'.1 ∧ Option.Rel RR r.2 r'.2) (A.nextBackMut s it) (A'.nextBackMut s' it')
  read : ∀ s s' r r', RS s s' → RR r r' → BothDo (MapSpec.EntryLike RK RV) (A.read s r) (A'.read s' r')
  readVal : ∀ s s' i, RS s s' → BothDo RV (A.readVal s i) (A'.readVal s' i)
  write : ∀ s s' i v v', RS s s' → RV v v' → BothDo RS (A.write s i v) (A'.write s' i v')

namespace RedBlackSpec
open MapSpec

/-- Corresponding calls. -/
inductive TOpLike : TOp K V → TOp K' V' → Prop where
  | map {op op'} : OpLike RK RV op op' → TOpLike (.map op) (.map op')
  | removeRoot : TOpLike .removeRoot .removeRoot

/-- Corresponding results. -/
inductive TOutLike : TOut K V → TOut K' V' → Prop where
  | map {o o'} : OutLike RK RV o o' → TOutLike (.map o) (.map o')
  | root {e e'} : Option.Rel (EntryLike RK RV) e e' → TOutLike (.root e) (.root e')

end RedBlackSpec

namespace DequeSpec

/-- Corresponding calls. -/
inductive OpLike (RT : T → T' → Prop) : Op T → Op T' → Prop where
  | pushBack {v v'} : RT v v' → OpLike RT (.pushBack v) (.pushBack v')
  | pushFront {v v'} : RT v v' → OpLike RT (.pushFront v) (.pushFront v')
  | popBack : OpLike RT .popBack .popBack
  | popFront : OpLike RT .popFront .popFront
  | iterMut {es es'} : List.Forall₂ (fun e e' => e'.1 = e.1 ∧ ∀ v v', RT v v' → RT (e.2 v) (e'.2 v')) es es' →
      OpLike RT (.iterMut es) (.iterMut es')

/-- Corresponding results. -/
inductive OutLike (RT : T → T' → Prop) : Out T → Out T' → Prop where
  | unit : OutLike RT .unit .unit
  | popped {v v'} : Option.Rel RT v v' → OutLike RT (.popped v) (.popped v')
  | seen {es es'} : List.Forall₂ (Option.Rel RT) es es' → OutLike RT (.seen es) (.seen es')

end DequeSpec
end
end Sokoban
