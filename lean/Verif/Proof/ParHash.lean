import Verif.Proof.Par

/-
Replacing the keys and values of a hash table.
-/
namespace Sokoban

/-- The replacement of keys keeps what `==` yields. -/
class ParEq (K K' : Type) [BEq K] [BEq K'] [Par K K'] : Prop where
  eq : ∀ a b : K, ((Par.map a : K') == Par.map b) = (a == b)

/-- The replacement of keys keeps the buckets. -/
class ParHash {K K' : Type} [Par K K'] (B : Nat) (hash : K → Nat) (hash' : K' → Nat) : Prop where
  bucket : ∀ k : K, hash' (Par.map k) % B = hash k % B

namespace HashTable
variable {K K' V V' : Type} {B M : Nat} [Par K K'] [Par V V']

instance : Par (HashNode K V) (HashNode K' V') := ⟨fun n => ⟨Par.map n.key, Par.map n.value⟩⟩
instance : Par (HashTable K V B M) (HashTable K' V' B M) := ⟨fun t => ⟨t.buckets, Par.map t.allocator⟩⟩

theorem par_new (z : HashNode K V) : (Par.map (new z : HashTable K V B M) : HashTable K' V' B M) = new (Par.map z) :=
  congrArg (HashTable.mk _) (NodeAllocator.par_new z)

theorem par_assert : Sim (assertProperAlignment B) (assertProperAlignment B) := Sim.rassert rfl

end HashTable
macro_rules | `(tactic| par_call) => `(tactic| exact HashTable.par_assert)
attribute [local irreducible] NodeAllocator.get NodeAllocator.put NodeAllocator.initialise NodeAllocator.addNode
  NodeAllocator.removeNode NodeAllocator.clearRegister NodeAllocator.connect NodeAllocator.setRegister
  NodeAllocator.getRegister NodeAllocator.getValue NodeAllocator.setValue

namespace HashTable
variable {K K' V V' : Type} {B M : Nat} [Par K K'] [Par V V']
theorem par_initialise (h : HashTable K V B M) :
    Sim (h.initialise) ((Par.map h : HashTable K' V' B M).initialise) := by
  unfold initialise; par
end HashTable
macro_rules | `(tactic| par_call) => `(tactic| exact HashTable.par_initialise _)
attribute [local irreducible] HashTable.initialise

namespace HashTable
variable {K K' V V' : Type} {B M : Nat} [Par K K'] [Par V V']
theorem par_newFromSlice (h : HashTable K V B M) :
    Sim (h.newFromSlice) ((Par.map h : HashTable K' V' B M).newFromSlice) := by
  unfold newFromSlice; par
end HashTable
macro_rules | `(tactic| par_call) => `(tactic| exact HashTable.par_newFromSlice _)
attribute [local irreducible] HashTable.newFromSlice

namespace HashTable
variable {K K' V V' : Type} {B M : Nat} [Par K K'] [Par V V']
theorem par_getNext (h : HashTable K V B M) (i : Nat) :
    Sim (h.getNext i) ((Par.map h : HashTable K' V' B M).getNext i) := by
  unfold getNext; par
end HashTable
macro_rules | `(tactic| par_call) => `(tactic| exact HashTable.par_getNext _ _)
attribute [local irreducible] HashTable.getNext

namespace HashTable
variable {K K' V V' : Type} {B M : Nat} [Par K K'] [Par V V']
theorem par_getPrev (h : HashTable K V B M) (i : Nat) :
    Sim (h.getPrev i) ((Par.map h : HashTable K' V' B M).getPrev i) := by
  unfold getPrev; par
end HashTable
macro_rules | `(tactic| par_call) => `(tactic| exact HashTable.par_getPrev _ _)
attribute [local irreducible] HashTable.getPrev

namespace HashTable
variable {K K' V V' : Type} {B M : Nat} [Par K K'] [Par V V']
theorem par_getNode (h : HashTable K V B M) (i : Nat) :
    Sim (h.getNode i) ((Par.map h : HashTable K' V' B M).getNode i) := by
  unfold getNode; par
end HashTable
macro_rules | `(tactic| par_call) => `(tactic| exact HashTable.par_getNode _ _)
attribute [local irreducible] HashTable.getNode

namespace HashTable
variable {K K' V V' : Type} {B M : Nat} [Par K K'] [Par V V']
theorem par_setNodeValue (h : HashTable K V B M) (i : Nat) (v : V) :
    Sim (h.setNodeValue i v) ((Par.map h : HashTable K' V' B M).setNodeValue i (Par.map v)) := by
  unfold setNodeValue; par
end HashTable
macro_rules | `(tactic| par_call) => `(tactic| exact HashTable.par_setNodeValue _ _ _)
attribute [local irreducible] HashTable.setNodeValue

namespace HashTable
variable {K K' V V' : Type} {B M : Nat} [Par K K'] [Par V V']
theorem par_setNode (h : HashTable K V B M) (i : Nat) (n : HashNode K V) :
    Sim (h.setNode i n) ((Par.map h : HashTable K' V' B M).setNode i (Par.map n)) := by
  unfold setNode; par
end HashTable
macro_rules | `(tactic| par_call) => `(tactic| exact HashTable.par_setNode _ _ _)
attribute [local irreducible] HashTable.setNode

namespace HashTable
variable {K K' V V' : Type} {B M : Nat} [Par K K'] [Par V V']
theorem par_bucketIndex (hash : K → Nat) (hash' : K' → Nat) [ParHash B hash hash'] (k : K) :
    Sim (bucketIndex B hash k) (bucketIndex B hash' (Par.map k)) := by
  unfold bucketIndex
  exact Sim.mk_ite Iff.rfl Sim.mk_error (Sim.mk_ok (ParHash.bucket k))
theorem par_bucket (h : HashTable K V B M) (b : Nat) : Sim (h.bucket b) ((Par.map h : HashTable K' V' B M).bucket b) := by
  unfold bucket
  split <;> rfl
theorem par_setBucket (h : HashTable K V B M) (b i : Nat) :
    Sim (h.setBucket b i) ((Par.map h : HashTable K' V' B M).setBucket b i) := by
  unfold setBucket
  split <;> rfl
end HashTable
macro_rules | `(tactic| par_call) => `(tactic| exact HashTable.par_bucketIndex _ _ _)
macro_rules | `(tactic| par_call) => `(tactic| exact HashTable.par_bucket _ _)
macro_rules | `(tactic| par_call) => `(tactic| exact HashTable.par_setBucket _ _ _)
attribute [local irreducible] HashTable.bucketIndex HashTable.bucket HashTable.setBucket

namespace HashTable
variable {K K' V V' : Type} {B M : Nat} [Par K K'] [Par V V']
theorem par_findLoop [BEq K] [BEq K'] [ParEq K K'] (h : HashTable K V B M) (k : K) (f : Nat) (i : Nat) :
    Sim (h.findLoop k f i) ((Par.map h : HashTable K' V' B M).findLoop (Par.map k) f i) := by
  induction f generalizing i with
  | zero => exact Sim.mk_error
  | succ f ih =>
    unfold findLoop
    refine Sim.mk_ite Iff.rfl (Sim.mk_pure rfl) ?_
    refine Sim.bind (by first | par_call | fail) fun n => ?_
    refine Sim.mk_ite ?_ (Sim.mk_pure rfl) ?_
    · rw [show ((Par.map n : HashNode K' V').key == Par.map k) = (n.key == k) from ParEq.eq n.key k]
    · repeat' first | exact ih _ | par_step
end HashTable
macro_rules | `(tactic| par_call) => `(tactic| exact HashTable.par_findLoop _ _ _ _)
attribute [local irreducible] HashTable.findLoop

namespace HashTable
variable {K K' V V' : Type} {B M : Nat} [Par K K'] [Par V V']
theorem par_get [BEq K] [BEq K'] [ParEq K K'] (hash : K → Nat) (hash' : K' → Nat) [ParHash B hash hash'] (h : HashTable K V B M) (k : K) :
    Sim (h.get hash k) ((Par.map h : HashTable K' V' B M).get hash' (Par.map k)) := by
  unfold get; par
end HashTable
macro_rules | `(tactic| par_call) => `(tactic| exact HashTable.par_get _ _ _ _)
attribute [local irreducible] HashTable.get

namespace HashTable
variable {K K' V V' : Type} {B M : Nat} [Par K K'] [Par V V']
theorem par_contains [BEq K] [BEq K'] [ParEq K K'] (hash : K → Nat) (hash' : K' → Nat) [ParHash B hash hash'] (h : HashTable K V B M) (k : K) :
    Sim (h.contains hash k) ((Par.map h : HashTable K' V' B M).contains hash' (Par.map k)) := by
  unfold contains
  refine Sim.bind (by first | par_call | fail) fun o => Sim.mk_pure ?_
  cases o <;> rfl
end HashTable
macro_rules | `(tactic| par_call) => `(tactic| exact HashTable.par_contains _ _ _ _)
attribute [local irreducible] HashTable.contains

namespace HashTable
variable {K K' V V' : Type} {B M : Nat} [Par K K'] [Par V V']
theorem par_getMut [BEq K] [BEq K'] [ParEq K K'] (hash : K → Nat) (hash' : K' → Nat) [ParHash B hash hash'] (h : HashTable K V B M) (k : K) :
    Sim (h.getMut hash k) ((Par.map h : HashTable K' V' B M).getMut hash' (Par.map k)) := by
  unfold getMut; par
end HashTable
macro_rules | `(tactic| par_call) => `(tactic| exact HashTable.par_getMut _ _ _ _)
attribute [local irreducible] HashTable.getMut

namespace HashTable
variable {K K' V V' : Type} {B M : Nat} [Par K K'] [Par V V']
theorem par_insert [BEq K] [BEq K'] [ParEq K K'] (hash : K → Nat) (hash' : K' → Nat) [ParHash B hash hash'] (h : HashTable K V B M) (k : K) (v : V) :
    Sim (h.insert hash k v) ((Par.map h : HashTable K' V' B M).insert hash' (Par.map k) (Par.map v)) := by
  unfold insert; par
end HashTable
macro_rules | `(tactic| par_call) => `(tactic| exact HashTable.par_insert _ _ _ _ _)
attribute [local irreducible] HashTable.insert

namespace HashTable
variable {K K' V V' : Type} {B M : Nat} [Par K K'] [Par V V']
theorem par_remove [BEq K] [BEq K'] [ParEq K K'] (hash : K → Nat) (hash' : K' → Nat) [ParHash B hash hash'] (h : HashTable K V B M) (k : K) :
    Sim (h.remove hash k) ((Par.map h : HashTable K' V' B M).remove hash' (Par.map k)) := by
  unfold remove; par
end HashTable
macro_rules | `(tactic| par_call) => `(tactic| exact HashTable.par_remove _ _ _ _)
attribute [local irreducible] HashTable.remove

namespace HashTable
variable {K K' V V' : Type} {B M : Nat} [Par K K'] [Par V V']
theorem par_containsInherent [BEq K] [BEq K'] [ParEq K K'] (hash : K → Nat) (hash' : K' → Nat) [ParHash B hash hash'] (h : HashTable K V B M) (k : K) :
    Sim (h.containsInherent hash k) ((Par.map h : HashTable K' V' B M).containsInherent hash' (Par.map k)) := by
  unfold containsInherent; par
end HashTable
macro_rules | `(tactic| par_call) => `(tactic| exact HashTable.par_containsInherent _ _ _ _)
attribute [local irreducible] HashTable.containsInherent

namespace HashTable
variable {K K' V V' : Type} {B M : Nat} [Par K K'] [Par V V']
theorem par_getAddr [BEq K] [BEq K'] [ParEq K K'] (hash : K → Nat) (hash' : K' → Nat) [ParHash B hash hash'] (h : HashTable K V B M) (k : K) :
    Sim (h.getAddr hash k) ((Par.map h : HashTable K' V' B M).getAddr hash' (Par.map k)) := by
  unfold getAddr; par
end HashTable
macro_rules | `(tactic| par_call) => `(tactic| exact HashTable.par_getAddr _ _ _ _)
attribute [local irreducible] HashTable.getAddr

namespace HashTable
variable {K K' V V' : Type} {B M : Nat} [Par K K'] [Par V V']
theorem par_iter (h : HashTable K V B M) :
    Sim (h.iter) ((Par.map h : HashTable K' V' B M).iter) := by
  unfold iter; par
end HashTable
macro_rules | `(tactic| par_call) => `(tactic| exact HashTable.par_iter _)
attribute [local irreducible] HashTable.iter

namespace HashTable
variable {K K' V V' : Type} {B M : Nat} [Par K K'] [Par V V']
theorem par_Iter_skip (h : HashTable K V B M) (f : Nat) (it : Iter) :
    Sim (Iter.skip h f it) (Iter.skip (Par.map h : HashTable K' V' B M) f it) := by
  induction f generalizing it with
  | zero => exact Sim.mk_error
  | succ f ih =>
    unfold Iter.skip
    repeat' first | exact ih _ | par_step
end HashTable
macro_rules | `(tactic| par_call) => `(tactic| exact HashTable.par_Iter_skip _ _ _)
attribute [local irreducible] HashTable.Iter.skip

namespace HashTable
variable {K K' V V' : Type} {B M : Nat} [Par K K'] [Par V V']
theorem par_Iter_next (h : HashTable K V B M) (it : Iter) :
    Sim (Iter.next h it) (Iter.next (Par.map h : HashTable K' V' B M) it) := by
  unfold Iter.next; par
end HashTable
macro_rules | `(tactic| par_call) => `(tactic| exact HashTable.par_Iter_next _ _)
attribute [local irreducible] HashTable.Iter.next

namespace HashTable
variable {K K' V V' : Type} {B M : Nat} [Par K K'] [Par V V']
theorem par_Iter_nextMut (h : HashTable K V B M) (it : Iter) :
    Sim (Iter.nextMut h it) (Iter.nextMut (Par.map h : HashTable K' V' B M) it) := by
  unfold Iter.nextMut; par
end HashTable
macro_rules | `(tactic| par_call) => `(tactic| exact HashTable.par_Iter_nextMut _ _)
attribute [local irreducible] HashTable.Iter.nextMut

namespace HashTable
variable {K K' V V' : Type} {B M : Nat} [Par K K'] [Par V V']
theorem par_index [BEq K] [BEq K'] [ParEq K K'] (hash : K → Nat) (hash' : K' → Nat) [ParHash B hash hash'] (h : HashTable K V B M) (k : K) :
    Sim (h.index hash k) ((Par.map h : HashTable K' V' B M).index hash' (Par.map k)) := by
  unfold index
  refine Sim.bind (by first | par_call | fail) fun o => Sim.unwrap rfl
end HashTable
macro_rules | `(tactic| par_call) => `(tactic| exact HashTable.par_index _ _ _ _)
attribute [local irreducible] HashTable.index

namespace HashTable
variable {K K' V V' : Type} {B M : Nat} [Par K K'] [Par V V']
theorem par_indexMut [BEq K] [BEq K'] [ParEq K K'] (hash : K → Nat) (hash' : K' → Nat) [ParHash B hash hash'] (h : HashTable K V B M) (k : K) :
    Sim (h.indexMut hash k) ((Par.map h : HashTable K' V' B M).indexMut hash' (Par.map k)) := by
  unfold indexMut
  refine Sim.bind (by first | par_call | fail) ?_
  rintro ⟨h, o⟩
  cases o <;> rfl
end HashTable
macro_rules | `(tactic| par_call) => `(tactic| exact HashTable.par_indexMut _ _ _ _)
attribute [local irreducible] HashTable.indexMut

end Sokoban
