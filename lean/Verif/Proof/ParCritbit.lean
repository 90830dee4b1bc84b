import Verif.Proof.Par

/-
Replacing the values of a crit-bit tree.
-/
namespace Sokoban

namespace Critbit
variable {V V' : Type} {N M : Nat} [Par V V']

instance : Par (Critbit V N M) (Critbit V' N M) := ⟨fun t => ⟨t.root, t.nodeAllocator, Par.map t.leaves⟩⟩

theorem par_new (z : CritbitNode) (w : V) :
    (Par.map (new z w : Critbit V N M) : Critbit V' N M) = new z (Par.map w) :=
  congrArg (Critbit.mk _ _) (NodeAllocator.par_new w)

theorem par_same {α : Type} [Par α α] (h : ∀ a : α, Par.map a = a) (x : R α) : Sim x x := by
  cases x with
  | error p => rfl
  | ok a => exact congrArg Except.ok (h a).symm

end Critbit
macro_rules | `(tactic| par_call) => `(tactic| exact Critbit.par_same (fun _ => rfl) (NodeAllocator.initialise _))
macro_rules | `(tactic| par_call) => `(tactic| exact Critbit.par_same (fun _ => rfl) (NodeAllocator.addNode _ _))
macro_rules | `(tactic| par_call) => `(tactic| exact Critbit.par_same (fun _ => rfl) (NodeAllocator.removeNode _ _))
macro_rules | `(tactic| par_call) => `(tactic| exact Critbit.par_same (fun _ => rfl) (NodeAllocator.clearRegister _ _ _))
macro_rules | `(tactic| par_call) => `(tactic| exact Critbit.par_same (fun _ => rfl) (NodeAllocator.connect _ _ _ _ _))
macro_rules | `(tactic| par_call) => `(tactic| exact Critbit.par_same (fun _ => rfl) (NodeAllocator.disconnect _ _ _ _ _))
macro_rules | `(tactic| par_call) => `(tactic| exact Critbit.par_same (fun _ => rfl) (NodeAllocator.setRegister _ _ _ _))
macro_rules | `(tactic| par_call) => `(tactic| exact Critbit.par_same (fun _ => rfl) (NodeAllocator.getRegister _ _ _))
macro_rules | `(tactic| par_call) => `(tactic| exact Critbit.par_same (fun _ => rfl) (NodeAllocator.getValue _ _))
macro_rules | `(tactic| par_call) => `(tactic| exact Critbit.par_same (fun _ => rfl) (NodeAllocator.setValue _ _ _))
attribute [local irreducible] NodeAllocator.get NodeAllocator.put NodeAllocator.initialise NodeAllocator.addNode
  NodeAllocator.removeNode NodeAllocator.clearRegister NodeAllocator.connect NodeAllocator.setRegister
  NodeAllocator.getRegister NodeAllocator.getValue NodeAllocator.setValue
attribute [local irreducible] NodeAllocator.disconnect

namespace Critbit
variable {V V' : Type} {N M : Nat} [Par V V']
theorem par_initialise (t : Critbit V N M) :
    Sim (t.initialise) ((Par.map t : Critbit V' N M).initialise) := by
  unfold initialise; par
end Critbit
macro_rules | `(tactic| par_call) => `(tactic| exact Critbit.par_initialise _)
attribute [local irreducible] Critbit.initialise

namespace Critbit
variable {V V' : Type} {N M : Nat} [Par V V']
theorem par_newFromSlice (t : Critbit V N M) :
    Sim (t.newFromSlice) ((Par.map t : Critbit V' N M).newFromSlice) := by
  unfold newFromSlice; par
end Critbit
macro_rules | `(tactic| par_call) => `(tactic| exact Critbit.par_newFromSlice _)
attribute [local irreducible] Critbit.newFromSlice

namespace Critbit
variable {V V' : Type} {N M : Nat} [Par V V']
theorem par_getLeaf (t : Critbit V N M) (i : Nat) :
    Sim (t.getLeaf i) ((Par.map t : Critbit V' N M).getLeaf i) := by
  unfold getLeaf; par
end Critbit
macro_rules | `(tactic| par_call) => `(tactic| exact Critbit.par_getLeaf _ _)
attribute [local irreducible] Critbit.getLeaf

namespace Critbit
variable {V V' : Type} {N M : Nat} [Par V V']
theorem par_replaceLeaf (t : Critbit V N M) (i : Nat) (v : V) :
    Sim (t.replaceLeaf i v) ((Par.map t : Critbit V' N M).replaceLeaf i (Par.map v)) := by
  unfold replaceLeaf; par
end Critbit
macro_rules | `(tactic| par_call) => `(tactic| exact Critbit.par_replaceLeaf _ _ _)
attribute [local irreducible] Critbit.replaceLeaf

namespace Critbit
variable {V V' : Type} {N M : Nat} [Par V V']
theorem par_setNode (t : Critbit V N M) (i : Nat) (n : CritbitNode) :
    Sim (t.setNode i n) ((Par.map t : Critbit V' N M).setNode i n) := by
  unfold setNode; par
end Critbit
macro_rules | `(tactic| par_call) => `(tactic| exact Critbit.par_setNode _ _ _)
attribute [local irreducible] Critbit.setNode

namespace Critbit
variable {V V' : Type} {N M : Nat} [Par V V']
theorem par_getLeafIndex (t : Critbit V N M) (i : Nat) :
    Sim (t.getLeafIndex i) ((Par.map t : Critbit V' N M).getLeafIndex i) := by
  unfold getLeafIndex; par
end Critbit
macro_rules | `(tactic| par_call) => `(tactic| exact Critbit.par_getLeafIndex _ _)
attribute [local irreducible] Critbit.getLeafIndex

namespace Critbit
variable {V V' : Type} {N M : Nat} [Par V V']
theorem par_isInnerNode (t : Critbit V N M) (i : Nat) :
    Sim (t.isInnerNode i) ((Par.map t : Critbit V' N M).isInnerNode i) := by
  unfold isInnerNode; par
end Critbit
macro_rules | `(tactic| par_call) => `(tactic| exact Critbit.par_isInnerNode _ _)
attribute [local irreducible] Critbit.isInnerNode

namespace Critbit
variable {V V' : Type} {N M : Nat} [Par V V']
theorem par_getNode (t : Critbit V N M) (i : Nat) :
    Sim (t.getNode i) ((Par.map t : Critbit V' N M).getNode i) := by
  unfold getNode; par
end Critbit
macro_rules | `(tactic| par_call) => `(tactic| exact Critbit.par_getNode _ _)
attribute [local irreducible] Critbit.getNode

namespace Critbit
variable {V V' : Type} {N M : Nat} [Par V V']
theorem par_getKey (t : Critbit V N M) (i : Nat) :
    Sim (t.getKey i) ((Par.map t : Critbit V' N M).getKey i) := by
  unfold getKey; par
end Critbit
macro_rules | `(tactic| par_call) => `(tactic| exact Critbit.par_getKey _ _)
attribute [local irreducible] Critbit.getKey

namespace Critbit
variable {V V' : Type} {N M : Nat} [Par V V']
theorem par_getLeft (t : Critbit V N M) (i : Nat) :
    Sim (t.getLeft i) ((Par.map t : Critbit V' N M).getLeft i) := by
  unfold getLeft; par
end Critbit
macro_rules | `(tactic| par_call) => `(tactic| exact Critbit.par_getLeft _ _)
attribute [local irreducible] Critbit.getLeft

namespace Critbit
variable {V V' : Type} {N M : Nat} [Par V V']
theorem par_getRight (t : Critbit V N M) (i : Nat) :
    Sim (t.getRight i) ((Par.map t : Critbit V' N M).getRight i) := by
  unfold getRight; par
end Critbit
macro_rules | `(tactic| par_call) => `(tactic| exact Critbit.par_getRight _ _)
attribute [local irreducible] Critbit.getRight

namespace Critbit
variable {V V' : Type} {N M : Nat} [Par V V']
theorem par_getParent (t : Critbit V N M) (i : Nat) :
    Sim (t.getParent i) ((Par.map t : Critbit V' N M).getParent i) := by
  unfold getParent; par
end Critbit
macro_rules | `(tactic| par_call) => `(tactic| exact Critbit.par_getParent _ _)
attribute [local irreducible] Critbit.getParent

namespace Critbit
variable {V V' : Type} {N M : Nat} [Par V V']
theorem par_addLeaf (t : Critbit V N M) (k : BitVec 128) (v : V) :
    Sim (t.addLeaf k v) ((Par.map t : Critbit V' N M).addLeaf k (Par.map v)) := by
  unfold addLeaf; par
end Critbit
macro_rules | `(tactic| par_call) => `(tactic| exact Critbit.par_addLeaf _ _ _)
attribute [local irreducible] Critbit.addLeaf

namespace Critbit
theorem par_mask (n : Nat) : Sim (critBitMask n) (critBitMask n) := by
  unfold critBitMask
  split <;> rfl
end Critbit
macro_rules | `(tactic| par_call) => `(tactic| exact Critbit.par_mask _)
attribute [local irreducible] Critbit.critBitMask

namespace Critbit
variable {V V' : Type} {N M : Nat} [Par V V']
theorem par_getChild (t : Critbit V N M) (p : Nat) (i : Nat) (k : BitVec 128) :
    Sim (t.getChild p i k) ((Par.map t : Critbit V' N M).getChild p i k) := by
  unfold getChild; par
end Critbit
macro_rules | `(tactic| par_call) => `(tactic| exact Critbit.par_getChild _ _ _ _)
attribute [local irreducible] Critbit.getChild

namespace Critbit
variable {V V' : Type} {N M : Nat} [Par V V']
theorem par_duplicate (t : Critbit V N M) (i : Nat) :
    Sim (t.duplicate i) ((Par.map t : Critbit V' N M).duplicate i) := by
  unfold duplicate; par
end Critbit
macro_rules | `(tactic| par_call) => `(tactic| exact Critbit.par_duplicate _ _)
attribute [local irreducible] Critbit.duplicate

namespace Critbit
variable {V V' : Type} {N M : Nat} [Par V V']
theorem par_replaceNode (t : Critbit V N M) (i : Nat) (n : CritbitNode) (l : Nat) (r : Nat) :
    Sim (t.replaceNode i n l r) ((Par.map t : Critbit V' N M).replaceNode i n l r) := by
  unfold replaceNode; par
end Critbit
macro_rules | `(tactic| par_call) => `(tactic| exact Critbit.par_replaceNode _ _ _ _ _)
attribute [local irreducible] Critbit.replaceNode

namespace Critbit
variable {V V' : Type} {N M : Nat} [Par V V']
theorem par_migrateLeaf (t : Critbit V N M) (i : Nat) (j : Nat) :
    Sim (t.migrateLeaf i j) ((Par.map t : Critbit V' N M).migrateLeaf i j) := by
  unfold migrateLeaf; par
end Critbit
macro_rules | `(tactic| par_call) => `(tactic| exact Critbit.par_migrateLeaf _ _ _)
attribute [local irreducible] Critbit.migrateLeaf

namespace Critbit
variable {V V' : Type} {N M : Nat} [Par V V']
theorem par_migrate (t : Critbit V N M) (i : Nat) (j : Nat) :
    Sim (t.migrate i j) ((Par.map t : Critbit V' N M).migrate i j) := by
  unfold migrate; par
end Critbit
macro_rules | `(tactic| par_call) => `(tactic| exact Critbit.par_migrate _ _ _)
attribute [local irreducible] Critbit.migrate

namespace Critbit
variable {V V' : Type} {N M : Nat} [Par V V']
theorem par_removeLeaf (t : Critbit V N M) (i : Nat) :
    Sim (t.removeLeaf i) ((Par.map t : Critbit V' N M).removeLeaf i) := by
  unfold removeLeaf; par
end Critbit
macro_rules | `(tactic| par_call) => `(tactic| exact Critbit.par_removeLeaf _ _)
attribute [local irreducible] Critbit.removeLeaf

namespace Critbit
variable {V V' : Type} {N M : Nat} [Par V V']
theorem par_findLoop (t : Critbit V N M) (k : BitVec 128) (f : Nat) (i : Nat) :
    Sim (t.findLoop k f i) ((Par.map t : Critbit V' N M).findLoop k f i) := by
  induction f generalizing i with
  | zero => exact Sim.mk_error
  | succ f ih =>
    unfold findLoop
    repeat' first | exact ih _ | par_step
end Critbit
macro_rules | `(tactic| par_call) => `(tactic| exact Critbit.par_findLoop _ _ _ _)
attribute [local irreducible] Critbit.findLoop

namespace Critbit
variable {V V' : Type} {N M : Nat} [Par V V']
theorem par_get (t : Critbit V N M) (k : BitVec 128) :
    Sim (t.get k) ((Par.map t : Critbit V' N M).get k) := by
  unfold get
  refine Sim.mk_ite Iff.rfl (Sim.mk_pure rfl) ?_
  refine Sim.bind (by first | par_call | fail) fun o => ?_
  cases o <;> par
end Critbit
macro_rules | `(tactic| par_call) => `(tactic| exact Critbit.par_get _ _)
attribute [local irreducible] Critbit.get

namespace Critbit
variable {V V' : Type} {N M : Nat} [Par V V']
theorem par_getMut (t : Critbit V N M) (k : BitVec 128) :
    Sim (t.getMut k) ((Par.map t : Critbit V' N M).getMut k) := by
  unfold getMut
  refine Sim.mk_ite Iff.rfl (Sim.mk_pure rfl) ?_
  refine Sim.bind (by first | par_call | fail) fun o => ?_
  cases o <;> par
end Critbit
macro_rules | `(tactic| par_call) => `(tactic| exact Critbit.par_getMut _ _)
attribute [local irreducible] Critbit.getMut

namespace Critbit
variable {V V' : Type} {N M : Nat} [Par V V']
theorem par_contains (t : Critbit V N M) (k : BitVec 128) :
    Sim (t.contains k) ((Par.map t : Critbit V' N M).contains k) := by
  unfold contains
  refine Sim.bind (by first | par_call | fail) fun o => Sim.mk_pure ?_
  cases o <;> rfl
end Critbit
macro_rules | `(tactic| par_call) => `(tactic| exact Critbit.par_contains _ _)
attribute [local irreducible] Critbit.contains

namespace Critbit
variable {V V' : Type} {N M : Nat} [Par V V']
theorem par_index (t : Critbit V N M) (k : BitVec 128) :
    Sim (t.index k) ((Par.map t : Critbit V' N M).index k) := by
  unfold index
  refine Sim.bind (by first | par_call | fail) fun o => Sim.unwrap rfl
end Critbit
macro_rules | `(tactic| par_call) => `(tactic| exact Critbit.par_index _ _)
attribute [local irreducible] Critbit.index

namespace Critbit
variable {V V' : Type} {N M : Nat} [Par V V']
theorem par_indexMut (t : Critbit V N M) (k : BitVec 128) :
    Sim (t.indexMut k) ((Par.map t : Critbit V' N M).indexMut k) := by
  unfold indexMut
  refine Sim.bind (by first | par_call | fail) fun o => ?_
  cases o <;> rfl
end Critbit
macro_rules | `(tactic| par_call) => `(tactic| exact Critbit.par_indexMut _ _)
attribute [local irreducible] Critbit.indexMut

namespace Critbit
variable {V V' : Type} {N M : Nat} [Par V V']
theorem par_getAddr (t : Critbit V N M) (k : BitVec 128) :
    Sim (t.getAddr k) ((Par.map t : Critbit V' N M).getAddr k) := by
  unfold getAddr
  refine Sim.bind (by first | par_call | fail) fun o => ?_
  cases o <;> par
end Critbit
macro_rules | `(tactic| par_call) => `(tactic| exact Critbit.par_getAddr _ _)
attribute [local irreducible] Critbit.getAddr

namespace Critbit
variable {V V' : Type} {N M : Nat} [Par V V']
theorem par_insertSplit (t : Critbit V N M) (k : BitVec 128) (v : V) (i : Nat) (p : Nat) :
    Sim (t.insertSplit k v i p) ((Par.map t : Critbit V' N M).insertSplit k (Par.map v) i p) := by
  unfold insertSplit; par
end Critbit
macro_rules | `(tactic| par_call) => `(tactic| exact Critbit.par_insertSplit _ _ _ _ _)
attribute [local irreducible] Critbit.insertSplit

namespace Critbit
variable {V V' : Type} {N M : Nat} [Par V V']
theorem par_insertLoop (t : Critbit V N M) (k : BitVec 128) (v : V) (f : Nat) (i : Nat) :
    Sim (t.insertLoop k v f i) ((Par.map t : Critbit V' N M).insertLoop k (Par.map v) f i) := by
  induction f generalizing t i with
  | zero => exact Sim.mk_error
  | succ f ih =>
    unfold insertLoop
    repeat' first | exact ih _ _ | par_step
end Critbit
macro_rules | `(tactic| par_call) => `(tactic| exact Critbit.par_insertLoop _ _ _ _ _)
attribute [local irreducible] Critbit.insertLoop

namespace Critbit
variable {V V' : Type} {N M : Nat} [Par V V']
theorem par_insert (t : Critbit V N M) (k : BitVec 128) (v : V) :
    Sim (t.insert k v) ((Par.map t : Critbit V' N M).insert k (Par.map v)) := by
  unfold insert; par
end Critbit
macro_rules | `(tactic| par_call) => `(tactic| exact Critbit.par_insert _ _ _)
attribute [local irreducible] Critbit.insert

namespace Critbit
variable {V V' : Type} {N M : Nat} [Par V V']
theorem par_removeLoop (t : Critbit V N M) (k : BitVec 128) (f : Nat) (p : Nat) (c : Nat) (b : Bool) :
    Sim (t.removeLoop k f p c b) ((Par.map t : Critbit V' N M).removeLoop k f p c b) := by
  induction f generalizing p c b with
  | zero => exact Sim.mk_error
  | succ f ih =>
    unfold removeLoop
    repeat' first | exact ih _ _ _ | par_step
end Critbit
macro_rules | `(tactic| par_call) => `(tactic| exact Critbit.par_removeLoop _ _ _ _ _ _)
attribute [local irreducible] Critbit.removeLoop

namespace Critbit
variable {V V' : Type} {N M : Nat} [Par V V']
theorem par_removeAt (t : Critbit V N M) (p : Nat) (c : Nat) (b : Bool) :
    Sim (t.removeAt p c b) ((Par.map t : Critbit V' N M).removeAt p c b) := by
  unfold removeAt; par
end Critbit
macro_rules | `(tactic| par_call) => `(tactic| exact Critbit.par_removeAt _ _ _ _)
attribute [local irreducible] Critbit.removeAt

namespace Critbit
variable {V V' : Type} {N M : Nat} [Par V V']
theorem par_remove (t : Critbit V N M) (k : BitVec 128) :
    Sim (t.remove k) ((Par.map t : Critbit V' N M).remove k) := by
  unfold remove
  refine Sim.mk_ite Iff.rfl (Sim.mk_pure rfl) ?_
  refine Sim.bind (by first | par_call | fail) fun b => ?_
  refine Sim.mk_ite Iff.rfl ?_ (by par)
  refine Sim.bind (by first | par_call | fail) fun n => ?_
  refine Sim.bind (by first | par_call | fail) ?_
  rintro ⟨c, r⟩
  refine Sim.bind (by first | par_call | fail) fun o => ?_
  rcases o with _ | ⟨p, c, r⟩ <;> par
end Critbit
macro_rules | `(tactic| par_call) => `(tactic| exact Critbit.par_remove _ _)
attribute [local irreducible] Critbit.remove

namespace Critbit
variable {V V' : Type} {N M : Nat} [Par V V']
theorem par_minLoop (t : Critbit V N M) (f : Nat) (i : Nat) :
    Sim (t.minLoop f i) ((Par.map t : Critbit V' N M).minLoop f i) := by
  induction f generalizing i with
  | zero => exact Sim.mk_error
  | succ f ih =>
    unfold minLoop
    repeat' first | exact ih _ | par_step
end Critbit
macro_rules | `(tactic| par_call) => `(tactic| exact Critbit.par_minLoop _ _ _)
attribute [local irreducible] Critbit.minLoop

namespace Critbit
variable {V V' : Type} {N M : Nat} [Par V V']
theorem par_maxLoop (t : Critbit V N M) (f : Nat) (i : Nat) :
    Sim (t.maxLoop f i) ((Par.map t : Critbit V' N M).maxLoop f i) := by
  induction f generalizing i with
  | zero => exact Sim.mk_error
  | succ f ih =>
    unfold maxLoop
    repeat' first | exact ih _ | par_step
end Critbit
macro_rules | `(tactic| par_call) => `(tactic| exact Critbit.par_maxLoop _ _ _)
attribute [local irreducible] Critbit.maxLoop

namespace Critbit
variable {V V' : Type} {N M : Nat} [Par V V']
theorem par_getMinIndex (t : Critbit V N M) :
    Sim (t.getMinIndex) ((Par.map t : Critbit V' N M).getMinIndex) := by
  unfold getMinIndex; par
end Critbit
macro_rules | `(tactic| par_call) => `(tactic| exact Critbit.par_getMinIndex _)
attribute [local irreducible] Critbit.getMinIndex

namespace Critbit
variable {V V' : Type} {N M : Nat} [Par V V']
theorem par_getMaxIndex (t : Critbit V N M) :
    Sim (t.getMaxIndex) ((Par.map t : Critbit V' N M).getMaxIndex) := by
  unfold getMaxIndex; par
end Critbit
macro_rules | `(tactic| par_call) => `(tactic| exact Critbit.par_getMaxIndex _)
attribute [local irreducible] Critbit.getMaxIndex

namespace Critbit
variable {V V' : Type} {N M : Nat} [Par V V']
theorem par_entryAt (t : Critbit V N M) (i : Nat) :
    Sim (t.entryAt i) ((Par.map t : Critbit V' N M).entryAt i) := by
  unfold entryAt; par
end Critbit
macro_rules | `(tactic| par_call) => `(tactic| exact Critbit.par_entryAt _ _)
attribute [local irreducible] Critbit.entryAt

namespace Critbit
variable {V V' : Type} {N M : Nat} [Par V V']
theorem par_getMin (t : Critbit V N M) :
    Sim (t.getMin) ((Par.map t : Critbit V' N M).getMin) := by
  unfold getMin; par
end Critbit
macro_rules | `(tactic| par_call) => `(tactic| exact Critbit.par_getMin _)
attribute [local irreducible] Critbit.getMin

namespace Critbit
variable {V V' : Type} {N M : Nat} [Par V V']
theorem par_getMax (t : Critbit V N M) :
    Sim (t.getMax) ((Par.map t : Critbit V' N M).getMax) := by
  unfold getMax; par
end Critbit
macro_rules | `(tactic| par_call) => `(tactic| exact Critbit.par_getMax _)
attribute [local irreducible] Critbit.getMax

namespace Critbit
variable {V V' : Type} {N M : Nat} [Par V V']
theorem par_Iter_nextLoop (t : Critbit V N M) (f : Nat) (it : Iter) :
    Sim (Iter.nextLoop t f it) (Iter.nextLoop (Par.map t : Critbit V' N M) f it) := by
  induction f generalizing it with
  | zero => exact Sim.mk_error
  | succ f ih =>
    unfold Iter.nextLoop
    refine Sim.mk_ite Iff.rfl (Sim.mk_pure rfl) ?_
    cases it.fwdStack with
    | nil => exact Sim.mk_pure rfl
    | cons c s => repeat' first | exact ih _ | par_step
end Critbit
macro_rules | `(tactic| par_call) => `(tactic| exact Critbit.par_Iter_nextLoop _ _ _)
attribute [local irreducible] Critbit.Iter.nextLoop

namespace Critbit
variable {V V' : Type} {N M : Nat} [Par V V']
theorem par_Iter_nextBackLoop (t : Critbit V N M) (f : Nat) (it : Iter) :
    Sim (Iter.nextBackLoop t f it) (Iter.nextBackLoop (Par.map t : Critbit V' N M) f it) := by
  induction f generalizing it with
  | zero => exact Sim.mk_error
  | succ f ih =>
    unfold Iter.nextBackLoop
    refine Sim.mk_ite Iff.rfl (Sim.mk_pure rfl) ?_
    cases it.revStack with
    | nil => exact Sim.mk_pure rfl
    | cons c s => repeat' first | exact ih _ | par_step
end Critbit
macro_rules | `(tactic| par_call) => `(tactic| exact Critbit.par_Iter_nextBackLoop _ _ _)
attribute [local irreducible] Critbit.Iter.nextBackLoop

namespace Critbit
variable {V V' : Type} {N M : Nat} [Par V V']
theorem par_Iter_item (t : Critbit V N M) (p : Iter × Option (Nat × Nat)) :
    Sim (Iter.item t p) (Iter.item (Par.map t : Critbit V' N M) p) := by
  obtain ⟨it, o⟩ := p
  rcases o with _ | ⟨n, i⟩ <;> unfold Iter.item <;> par
end Critbit
macro_rules | `(tactic| par_call) => `(tactic| exact Critbit.par_Iter_item _ _)
attribute [local irreducible] Critbit.Iter.item

namespace Critbit
variable {V V' : Type} {N M : Nat} [Par V V']
theorem par_Iter_next (t : Critbit V N M) (it : Iter) :
    Sim (Iter.next t it) (Iter.next (Par.map t : Critbit V' N M) it) := by
  unfold Iter.next; par
end Critbit
macro_rules | `(tactic| par_call) => `(tactic| exact Critbit.par_Iter_next _ _)
attribute [local irreducible] Critbit.Iter.next

namespace Critbit
variable {V V' : Type} {N M : Nat} [Par V V']
theorem par_Iter_nextBack (t : Critbit V N M) (it : Iter) :
    Sim (Iter.nextBack t it) (Iter.nextBack (Par.map t : Critbit V' N M) it) := by
  unfold Iter.nextBack; par
end Critbit
macro_rules | `(tactic| par_call) => `(tactic| exact Critbit.par_Iter_nextBack _ _)
attribute [local irreducible] Critbit.Iter.nextBack

namespace Critbit
variable {V V' : Type} {N M : Nat} [Par V V']
theorem par_Iter_nextMut (t : Critbit V N M) (it : Iter) :
    Sim (Iter.nextMut t it) (Iter.nextMut (Par.map t : Critbit V' N M) it) := by
  unfold Iter.nextMut; par
end Critbit
macro_rules | `(tactic| par_call) => `(tactic| exact Critbit.par_Iter_nextMut _ _)
attribute [local irreducible] Critbit.Iter.nextMut

namespace Critbit
variable {V V' : Type} {N M : Nat} [Par V V']
theorem par_Iter_nextBackMut (t : Critbit V N M) (it : Iter) :
    Sim (Iter.nextBackMut t it) (Iter.nextBackMut (Par.map t : Critbit V' N M) it) := by
  unfold Iter.nextBackMut; par
end Critbit
macro_rules | `(tactic| par_call) => `(tactic| exact Critbit.par_Iter_nextBackMut _ _)
attribute [local irreducible] Critbit.Iter.nextBackMut

end Sokoban
