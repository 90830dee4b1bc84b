import Verif.Proof.Par

/-
Replacing the keys and values of a red-black tree.
-/
namespace Sokoban

/-- The replacement of keys keeps what comparisons yield. -/
class ParOrd (K K' : Type) [Ord K] [Ord K'] [Par K K'] : Prop where
  cmp : ∀ a b : K, compare (Par.map a : K') (Par.map b) = compare a b

namespace RedBlackTree
variable {K K' V V' : Type} {M : Nat} [Par K K'] [Par V V']

instance : Par (RBNode K V) (RBNode K' V') := ⟨fun n => ⟨Par.map n.key, Par.map n.value⟩⟩
instance : Par (RedBlackTree K V M) (RedBlackTree K' V' M) := ⟨fun t => ⟨t.root, Par.map t.allocator⟩⟩

theorem par_new (z : RBNode K V) : (Par.map (new z : RedBlackTree K V M) : RedBlackTree K' V' M) = new (Par.map z) :=
  congrArg (RedBlackTree.mk SENTINEL) (NodeAllocator.par_new z)

end RedBlackTree
attribute [local irreducible] NodeAllocator.get NodeAllocator.put NodeAllocator.initialise NodeAllocator.addNode
  NodeAllocator.removeNode NodeAllocator.clearRegister NodeAllocator.connect NodeAllocator.setRegister
  NodeAllocator.getRegister NodeAllocator.getValue NodeAllocator.setValue

namespace RedBlackTree
variable {K K' V V' : Type} {M : Nat} [Par K K'] [Par V V']
theorem par_initialise  (t : RedBlackTree K V M) : Sim (t.initialise) ((Par.map t : RedBlackTree K' V' M).initialise) := by
  unfold initialise; par
end RedBlackTree
macro_rules | `(tactic| par_call) => `(tactic| exact RedBlackTree.par_initialise _)
attribute [local irreducible] RedBlackTree.initialise

namespace RedBlackTree
variable {K K' V V' : Type} {M : Nat} [Par K K'] [Par V V']
theorem par_getNode  (t : RedBlackTree K V M) (i : Nat) : Sim (t.getNode i) ((Par.map t : RedBlackTree K' V' M).getNode i) := by
  unfold getNode; par
end RedBlackTree
macro_rules | `(tactic| par_call) => `(tactic| exact RedBlackTree.par_getNode _ _)
attribute [local irreducible] RedBlackTree.getNode

namespace RedBlackTree
variable {K K' V V' : Type} {M : Nat} [Par K K'] [Par V V']
theorem par_setNodeValue  (t : RedBlackTree K V M) (i : Nat) (v : V) : Sim (t.setNodeValue i v) ((Par.map t : RedBlackTree K' V' M).setNodeValue i (Par.map v)) := by
  unfold setNodeValue; par
end RedBlackTree
macro_rules | `(tactic| par_call) => `(tactic| exact RedBlackTree.par_setNodeValue _ _ _)
attribute [local irreducible] RedBlackTree.setNodeValue

namespace RedBlackTree
variable {K K' V V' : Type} {M : Nat} [Par K K'] [Par V V']
theorem par_setNode  (t : RedBlackTree K V M) (i : Nat) (n : RBNode K V) : Sim (t.setNode i n) ((Par.map t : RedBlackTree K' V' M).setNode i (Par.map n)) := by
  unfold setNode; par
end RedBlackTree
macro_rules | `(tactic| par_call) => `(tactic| exact RedBlackTree.par_setNode _ _ _)
attribute [local irreducible] RedBlackTree.setNode

namespace RedBlackTree
variable {K K' V V' : Type} {M : Nat} [Par K K'] [Par V V']
theorem par_colorRed  (t : RedBlackTree K V M) (i : Nat) : Sim (t.colorRed i) ((Par.map t : RedBlackTree K' V' M).colorRed i) := by
  unfold colorRed; par
end RedBlackTree
macro_rules | `(tactic| par_call) => `(tactic| exact RedBlackTree.par_colorRed _ _)
attribute [local irreducible] RedBlackTree.colorRed

namespace RedBlackTree
variable {K K' V V' : Type} {M : Nat} [Par K K'] [Par V V']
theorem par_colorBlack  (t : RedBlackTree K V M) (i : Nat) : Sim (t.colorBlack i) ((Par.map t : RedBlackTree K' V' M).colorBlack i) := by
  unfold colorBlack; par
end RedBlackTree
macro_rules | `(tactic| par_call) => `(tactic| exact RedBlackTree.par_colorBlack _ _)
attribute [local irreducible] RedBlackTree.colorBlack

namespace RedBlackTree
variable {K K' V V' : Type} {M : Nat} [Par K K'] [Par V V']
theorem par_colorNode  (t : RedBlackTree K V M) (i : Nat) (c : Nat) : Sim (t.colorNode i c) ((Par.map t : RedBlackTree K' V' M).colorNode i c) := by
  unfold colorNode; par
end RedBlackTree
macro_rules | `(tactic| par_call) => `(tactic| exact RedBlackTree.par_colorNode _ _ _)
attribute [local irreducible] RedBlackTree.colorNode

namespace RedBlackTree
variable {K K' V V' : Type} {M : Nat} [Par K K'] [Par V V']
theorem par_isRed  (t : RedBlackTree K V M) (i : Nat) : Sim (t.isRed i) ((Par.map t : RedBlackTree K' V' M).isRed i) := by
  unfold isRed; par
end RedBlackTree
macro_rules | `(tactic| par_call) => `(tactic| exact RedBlackTree.par_isRed _ _)
attribute [local irreducible] RedBlackTree.isRed

namespace RedBlackTree
variable {K K' V V' : Type} {M : Nat} [Par K K'] [Par V V']
theorem par_isBlack  (t : RedBlackTree K V M) (i : Nat) : Sim (t.isBlack i) ((Par.map t : RedBlackTree K' V' M).isBlack i) := by
  unfold isBlack; par
end RedBlackTree
macro_rules | `(tactic| par_call) => `(tactic| exact RedBlackTree.par_isBlack _ _)
attribute [local irreducible] RedBlackTree.isBlack

namespace RedBlackTree
variable {K K' V V' : Type} {M : Nat} [Par K K'] [Par V V']
theorem par_getChild  (t : RedBlackTree K V M) (i : Nat) (d : Nat) : Sim (t.getChild i d) ((Par.map t : RedBlackTree K' V' M).getChild i d) := by
  unfold getChild; par
end RedBlackTree
macro_rules | `(tactic| par_call) => `(tactic| exact RedBlackTree.par_getChild _ _ _)
attribute [local irreducible] RedBlackTree.getChild

namespace RedBlackTree
variable {K K' V V' : Type} {M : Nat} [Par K K'] [Par V V']
theorem par_getLeft  (t : RedBlackTree K V M) (i : Nat) : Sim (t.getLeft i) ((Par.map t : RedBlackTree K' V' M).getLeft i) := by
  unfold getLeft; par
end RedBlackTree
macro_rules | `(tactic| par_call) => `(tactic| exact RedBlackTree.par_getLeft _ _)
attribute [local irreducible] RedBlackTree.getLeft

namespace RedBlackTree
variable {K K' V V' : Type} {M : Nat} [Par K K'] [Par V V']
theorem par_getRight  (t : RedBlackTree K V M) (i : Nat) : Sim (t.getRight i) ((Par.map t : RedBlackTree K' V' M).getRight i) := by
  unfold getRight; par
end RedBlackTree
macro_rules | `(tactic| par_call) => `(tactic| exact RedBlackTree.par_getRight _ _)
attribute [local irreducible] RedBlackTree.getRight

namespace RedBlackTree
variable {K K' V V' : Type} {M : Nat} [Par K K'] [Par V V']
theorem par_isLeaf  (t : RedBlackTree K V M) (i : Nat) : Sim (t.isLeaf i) ((Par.map t : RedBlackTree K' V' M).isLeaf i) := by
  unfold isLeaf; par
end RedBlackTree
macro_rules | `(tactic| par_call) => `(tactic| exact RedBlackTree.par_isLeaf _ _)
attribute [local irreducible] RedBlackTree.isLeaf

namespace RedBlackTree
variable {K K' V V' : Type} {M : Nat} [Par K K'] [Par V V']
theorem par_getDir  (t : RedBlackTree K V M) (i : Nat) (d : Nat) : Sim (t.getDir i d) ((Par.map t : RedBlackTree K' V' M).getDir i d) := by
  unfold getDir; par
end RedBlackTree
macro_rules | `(tactic| par_call) => `(tactic| exact RedBlackTree.par_getDir _ _ _)
attribute [local irreducible] RedBlackTree.getDir

namespace RedBlackTree
variable {K K' V V' : Type} {M : Nat} [Par K K'] [Par V V']
theorem par_getColor  (t : RedBlackTree K V M) (i : Nat) : Sim (t.getColor i) ((Par.map t : RedBlackTree K' V' M).getColor i) := by
  unfold getColor; par
end RedBlackTree
macro_rules | `(tactic| par_call) => `(tactic| exact RedBlackTree.par_getColor _ _)
attribute [local irreducible] RedBlackTree.getColor

namespace RedBlackTree
variable {K K' V V' : Type} {M : Nat} [Par K K'] [Par V V']
theorem par_getParent  (t : RedBlackTree K V M) (i : Nat) : Sim (t.getParent i) ((Par.map t : RedBlackTree K' V' M).getParent i) := by
  unfold getParent; par
end RedBlackTree
macro_rules | `(tactic| par_call) => `(tactic| exact RedBlackTree.par_getParent _ _)
attribute [local irreducible] RedBlackTree.getParent

namespace RedBlackTree
variable {K K' V V' : Type} {M : Nat} [Par K K'] [Par V V']
theorem par_removeAllocatorNode  (t : RedBlackTree K V M) (i : Nat) : Sim (t.removeAllocatorNode i) ((Par.map t : RedBlackTree K' V' M).removeAllocatorNode i) := by
  unfold removeAllocatorNode; par
end RedBlackTree
macro_rules | `(tactic| par_call) => `(tactic| exact RedBlackTree.par_removeAllocatorNode _ _)
attribute [local irreducible] RedBlackTree.removeAllocatorNode

namespace RedBlackTree
variable {K K' V V' : Type} {M : Nat} [Par K K'] [Par V V']
theorem par_connect  (t : RedBlackTree K V M) (p : Nat) (c : Nat) (d : Nat) : Sim (t.connect p c d) ((Par.map t : RedBlackTree K' V' M).connect p c d) := by
  unfold connect; par
end RedBlackTree
macro_rules | `(tactic| par_call) => `(tactic| exact RedBlackTree.par_connect _ _ _ _)
attribute [local irreducible] RedBlackTree.connect

namespace RedBlackTree
variable {K K' V V' : Type} {M : Nat} [Par K K'] [Par V V']
theorem par_childDir  (t : RedBlackTree K V M) (p : Nat) (c : Nat) : Sim (t.childDir p c) ((Par.map t : RedBlackTree K' V' M).childDir p c) := by
  unfold childDir; par
end RedBlackTree
macro_rules | `(tactic| par_call) => `(tactic| exact RedBlackTree.par_childDir _ _ _)
attribute [local irreducible] RedBlackTree.childDir

namespace RedBlackTree
variable {K K' V V' : Type} {M : Nat} [Par K K'] [Par V V']
theorem par_rotateDir  (t : RedBlackTree K V M) (p : Nat) (d : Nat) : Sim (t.rotateDir p d) ((Par.map t : RedBlackTree K' V' M).rotateDir p d) := by
  unfold rotateDir; par
end RedBlackTree
macro_rules | `(tactic| par_call) => `(tactic| exact RedBlackTree.par_rotateDir _ _ _)
attribute [local irreducible] RedBlackTree.rotateDir

namespace RedBlackTree
variable {K K' V V' : Type} {M : Nat} [Par K K'] [Par V V']
theorem par_fixInsertLoop  (t : RedBlackTree K V M) (f : Nat) (i : Nat) : Sim (t.fixInsertLoop f i) ((Par.map t : RedBlackTree K' V' M).fixInsertLoop f i) := by
  induction f generalizing t i with
  | zero => exact Sim.mk_error
  | succ f ih =>
    unfold fixInsertLoop
    repeat' first | exact ih _ _ | par_step
end RedBlackTree
macro_rules | `(tactic| par_call) => `(tactic| exact RedBlackTree.par_fixInsertLoop _ _ _)
attribute [local irreducible] RedBlackTree.fixInsertLoop

namespace RedBlackTree
variable {K K' V V' : Type} {M : Nat} [Par K K'] [Par V V']
theorem par_fixInsert  (t : RedBlackTree K V M) (i : Nat) (lim : Nat) : Sim (t.fixInsert i lim) ((Par.map t : RedBlackTree K' V' M).fixInsert i lim) := by
  unfold fixInsert; par
end RedBlackTree
macro_rules | `(tactic| par_call) => `(tactic| exact RedBlackTree.par_fixInsert _ _ _)
attribute [local irreducible] RedBlackTree.fixInsert

namespace RedBlackTree
variable {K K' V V' : Type} {M : Nat} [Par K K'] [Par V V']
theorem par_insertLoop [Ord K] [Ord K'] [ParOrd K K'] (t : RedBlackTree K V M) (k : K) (v : V) (f : Nat) (i : Nat) (lim : Nat) : Sim (t.insertLoop k v f i lim) ((Par.map t : RedBlackTree K' V' M).insertLoop (Par.map k) (Par.map v) f i lim) := by
  induction f generalizing t i with
  | zero => exact Sim.mk_error
  | succ f ih =>
    unfold insertLoop
    refine Sim.bind (by par_call) fun n => ?_
    dsimp only
    rw [show compare (Par.map k : K') (Par.map n : RBNode K' V').key = compare k n.key from ParOrd.cmp _ _]
    cases compare k n.key <;> dsimp only <;> repeat' first | exact ih _ _ | par_step
end RedBlackTree
macro_rules | `(tactic| par_call) => `(tactic| exact RedBlackTree.par_insertLoop _ _ _ _ _ _)
attribute [local irreducible] RedBlackTree.insertLoop

namespace RedBlackTree
variable {K K' V V' : Type} {M : Nat} [Par K K'] [Par V V']
theorem par_insert [Ord K] [Ord K'] [ParOrd K K'] (t : RedBlackTree K V M) (k : K) (v : V) (lim : Nat) : Sim (t.insert k v lim) ((Par.map t : RedBlackTree K' V' M).insert (Par.map k) (Par.map v) lim) := by
  unfold insert; par
end RedBlackTree
macro_rules | `(tactic| par_call) => `(tactic| exact RedBlackTree.par_insert _ _ _ _)
attribute [local irreducible] RedBlackTree.insert

namespace RedBlackTree
variable {K K' V V' : Type} {M : Nat} [Par K K'] [Par V V']
theorem par_transplant  (t : RedBlackTree K V M) (a : Nat) (b : Nat) : Sim (t.transplant a b) ((Par.map t : RedBlackTree K' V' M).transplant a b) := by
  unfold transplant; par
end RedBlackTree
macro_rules | `(tactic| par_call) => `(tactic| exact RedBlackTree.par_transplant _ _ _)
attribute [local irreducible] RedBlackTree.transplant

namespace RedBlackTree
variable {K K' V V' : Type} {M : Nat} [Par K K'] [Par V V']
theorem par_findMin  (t : RedBlackTree K V M) (f : Nat) (i : Nat) : Sim (t.findMin f i) ((Par.map t : RedBlackTree K' V' M).findMin f i) := by
  induction f generalizing i with
  | zero => exact Sim.mk_error
  | succ f ih =>
    unfold findMin
    repeat' first | exact ih _ | par_step
end RedBlackTree
macro_rules | `(tactic| par_call) => `(tactic| exact RedBlackTree.par_findMin _ _ _)
attribute [local irreducible] RedBlackTree.findMin

namespace RedBlackTree
variable {K K' V V' : Type} {M : Nat} [Par K K'] [Par V V']
theorem par_findMax  (t : RedBlackTree K V M) (f : Nat) (i : Nat) : Sim (t.findMax f i) ((Par.map t : RedBlackTree K' V' M).findMax f i) := by
  induction f generalizing i with
  | zero => exact Sim.mk_error
  | succ f ih =>
    unfold findMax
    repeat' first | exact ih _ | par_step
end RedBlackTree
macro_rules | `(tactic| par_call) => `(tactic| exact RedBlackTree.par_findMax _ _ _)
attribute [local irreducible] RedBlackTree.findMax

namespace RedBlackTree
variable {K K' V V' : Type} {M : Nat} [Par K K'] [Par V V']
theorem par_fixRemoveLoop  (t : RedBlackTree K V M) (f : Nat) (p : Nat) (d : Nat) : Sim (t.fixRemoveLoop f p d) ((Par.map t : RedBlackTree K' V' M).fixRemoveLoop f p d) := by
  induction f generalizing t p d with
  | zero => exact Sim.mk_error
  | succ f ih =>
    unfold fixRemoveLoop
    repeat' first | exact ih _ _ _ | par_step
end RedBlackTree
macro_rules | `(tactic| par_call) => `(tactic| exact RedBlackTree.par_fixRemoveLoop _ _ _ _)
attribute [local irreducible] RedBlackTree.fixRemoveLoop

namespace RedBlackTree
variable {K K' V V' : Type} {M : Nat} [Par K K'] [Par V V']
theorem par_fixRemove  (t : RedBlackTree K V M) (i : Nat) (p : Option (Nat × Nat)) (lim : Nat) : Sim (t.fixRemove i p lim) ((Par.map t : RedBlackTree K' V' M).fixRemove i p lim) := by
  unfold fixRemove; par
end RedBlackTree
macro_rules | `(tactic| par_call) => `(tactic| exact RedBlackTree.par_fixRemove _ _ _ _)
attribute [local irreducible] RedBlackTree.fixRemove

namespace RedBlackTree
variable {K K' V V' : Type} {M : Nat} [Par K K'] [Par V V']
theorem par_removeTwoChildren  (t : RedBlackTree K V M) (i : Nat) (l : Nat) (lim : Nat) : Sim (t.removeTwoChildren i l lim) ((Par.map t : RedBlackTree K' V' M).removeTwoChildren i l lim) := by
  unfold removeTwoChildren; par
end RedBlackTree
macro_rules | `(tactic| par_call) => `(tactic| exact RedBlackTree.par_removeTwoChildren _ _ _ _)
attribute [local irreducible] RedBlackTree.removeTwoChildren

namespace RedBlackTree
variable {K K' V V' : Type} {M : Nat} [Par K K'] [Par V V']
theorem par_removeTreeNode  (t : RedBlackTree K V M) (i : Nat) (lim : Nat) : Sim (t.removeTreeNode i lim) ((Par.map t : RedBlackTree K' V' M).removeTreeNode i lim) := by
  unfold removeTreeNode; par
end RedBlackTree
macro_rules | `(tactic| par_call) => `(tactic| exact RedBlackTree.par_removeTreeNode _ _ _)
attribute [local irreducible] RedBlackTree.removeTreeNode

namespace RedBlackTree
variable {K K' V V' : Type} {M : Nat} [Par K K'] [Par V V']
theorem par_removeLoop [Ord K] [Ord K'] [ParOrd K K'] (t : RedBlackTree K V M) (k : K) (f : Nat) (i : Nat) (lim : Nat) : Sim (t.removeLoop k f i lim) ((Par.map t : RedBlackTree K' V' M).removeLoop (Par.map k) f i lim) := by
  induction f generalizing t i with
  | zero => exact Sim.mk_error
  | succ f ih =>
    unfold removeLoop
    refine Sim.bind (by par_call) fun n => ?_
    dsimp only
    rw [show compare (Par.map k : K') (Par.map n : RBNode K' V').key = compare k n.key from ParOrd.cmp _ _]
    cases compare k n.key <;> dsimp only <;> repeat' first | exact ih _ _ | par_step
end RedBlackTree
macro_rules | `(tactic| par_call) => `(tactic| exact RedBlackTree.par_removeLoop _ _ _ _ _)
attribute [local irreducible] RedBlackTree.removeLoop

namespace RedBlackTree
variable {K K' V V' : Type} {M : Nat} [Par K K'] [Par V V']
theorem par_remove [Ord K] [Ord K'] [ParOrd K K'] (t : RedBlackTree K V M) (k : K) (lim : Nat) : Sim (t.remove k lim) ((Par.map t : RedBlackTree K' V' M).remove (Par.map k) lim) := by
  unfold remove; par
end RedBlackTree
macro_rules | `(tactic| par_call) => `(tactic| exact RedBlackTree.par_remove _ _ _)
attribute [local irreducible] RedBlackTree.remove

namespace RedBlackTree
variable {K K' V V' : Type} {M : Nat} [Par K K'] [Par V V']
theorem par_removeRoot  (t : RedBlackTree K V M) (lim : Nat) : Sim (t.removeRoot lim) ((Par.map t : RedBlackTree K' V' M).removeRoot lim) := by
  unfold removeRoot; par
end RedBlackTree
macro_rules | `(tactic| par_call) => `(tactic| exact RedBlackTree.par_removeRoot _ _)
attribute [local irreducible] RedBlackTree.removeRoot

namespace RedBlackTree
variable {K K' V V' : Type} {M : Nat} [Par K K'] [Par V V']
theorem par_getAddrLoop [Ord K] [Ord K'] [ParOrd K K'] (t : RedBlackTree K V M) (k : K) (f : Nat) (i : Nat) : Sim (t.getAddrLoop k f i) ((Par.map t : RedBlackTree K' V' M).getAddrLoop (Par.map k) f i) := by
  induction f generalizing i with
  | zero => exact Sim.mk_error
  | succ f ih =>
    unfold getAddrLoop
    refine Sim.bind (by par_call) fun n => ?_
    dsimp only
    rw [show compare (Par.map k : K') (Par.map n : RBNode K' V').key = compare k n.key from ParOrd.cmp _ _]
    cases compare k n.key <;> dsimp only <;> repeat' first | exact ih _ | par_step
end RedBlackTree
macro_rules | `(tactic| par_call) => `(tactic| exact RedBlackTree.par_getAddrLoop _ _ _ _)
attribute [local irreducible] RedBlackTree.getAddrLoop

namespace RedBlackTree
variable {K K' V V' : Type} {M : Nat} [Par K K'] [Par V V']
theorem par_getAddr [Ord K] [Ord K'] [ParOrd K K'] (t : RedBlackTree K V M) (k : K) : Sim (t.getAddr k) ((Par.map t : RedBlackTree K' V' M).getAddr (Par.map k)) := by
  unfold getAddr; par
end RedBlackTree
macro_rules | `(tactic| par_call) => `(tactic| exact RedBlackTree.par_getAddr _ _)
attribute [local irreducible] RedBlackTree.getAddr

namespace RedBlackTree
variable {K K' V V' : Type} {M : Nat} [Par K K'] [Par V V']
theorem par_get [Ord K] [Ord K'] [ParOrd K K'] (t : RedBlackTree K V M) (k : K) : Sim (t.get k) ((Par.map t : RedBlackTree K' V' M).get (Par.map k)) := by
  unfold get; par
end RedBlackTree
macro_rules | `(tactic| par_call) => `(tactic| exact RedBlackTree.par_get _ _)
attribute [local irreducible] RedBlackTree.get

namespace RedBlackTree
variable {K K' V V' : Type} {M : Nat} [Par K K'] [Par V V']
theorem par_contains [Ord K] [Ord K'] [ParOrd K K'] (t : RedBlackTree K V M) (k : K) : Sim (t.contains k) ((Par.map t : RedBlackTree K' V' M).contains (Par.map k)) := by
  unfold contains
  refine Sim.bind (by par_call) fun o => Sim.mk_pure ?_
  cases o <;> rfl
end RedBlackTree
macro_rules | `(tactic| par_call) => `(tactic| exact RedBlackTree.par_contains _ _)
attribute [local irreducible] RedBlackTree.contains

namespace RedBlackTree
variable {K K' V V' : Type} {M : Nat} [Par K K'] [Par V V']
theorem par_getMut [Ord K] [Ord K'] [ParOrd K K'] (t : RedBlackTree K V M) (k : K) : Sim (t.getMut k) ((Par.map t : RedBlackTree K' V' M).getMut (Par.map k)) := by
  unfold getMut; par
end RedBlackTree
macro_rules | `(tactic| par_call) => `(tactic| exact RedBlackTree.par_getMut _ _)
attribute [local irreducible] RedBlackTree.getMut

namespace RedBlackTree
variable {K K' V V' : Type} {M : Nat} [Par K K'] [Par V V']
theorem par_index [Ord K] [Ord K'] [ParOrd K K'] (t : RedBlackTree K V M) (k : K) : Sim (t.index k) ((Par.map t : RedBlackTree K' V' M).index (Par.map k)) := by
  unfold index
  refine Sim.bind (by par_call) fun o => Sim.unwrap rfl
end RedBlackTree
macro_rules | `(tactic| par_call) => `(tactic| exact RedBlackTree.par_index _ _)
attribute [local irreducible] RedBlackTree.index

namespace RedBlackTree
variable {K K' V V' : Type} {M : Nat} [Par K K'] [Par V V']
theorem par_indexMut [Ord K] [Ord K'] [ParOrd K K'] (t : RedBlackTree K V M) (k : K) : Sim (t.indexMut k) ((Par.map t : RedBlackTree K' V' M).indexMut (Par.map k)) := by
  unfold indexMut
  refine Sim.bind (by par_call) fun o => ?_
  cases o <;> rfl
end RedBlackTree
macro_rules | `(tactic| par_call) => `(tactic| exact RedBlackTree.par_indexMut _ _)
attribute [local irreducible] RedBlackTree.indexMut

namespace RedBlackTree
variable {K K' V V' : Type} {M : Nat} [Par K K'] [Par V V']
theorem par_getMinIndex  (t : RedBlackTree K V M) : Sim (t.getMinIndex) ((Par.map t : RedBlackTree K' V' M).getMinIndex) := by
  unfold getMinIndex; par
end RedBlackTree
macro_rules | `(tactic| par_call) => `(tactic| exact RedBlackTree.par_getMinIndex _)
attribute [local irreducible] RedBlackTree.getMinIndex

namespace RedBlackTree
variable {K K' V V' : Type} {M : Nat} [Par K K'] [Par V V']
theorem par_getMaxIndex  (t : RedBlackTree K V M) : Sim (t.getMaxIndex) ((Par.map t : RedBlackTree K' V' M).getMaxIndex) := by
  unfold getMaxIndex; par
end RedBlackTree
macro_rules | `(tactic| par_call) => `(tactic| exact RedBlackTree.par_getMaxIndex _)
attribute [local irreducible] RedBlackTree.getMaxIndex

namespace RedBlackTree
variable {K K' V V' : Type} {M : Nat} [Par K K'] [Par V V']
theorem par_getMin  (t : RedBlackTree K V M) : Sim (t.getMin) ((Par.map t : RedBlackTree K' V' M).getMin) := by
  unfold getMin; par
end RedBlackTree
macro_rules | `(tactic| par_call) => `(tactic| exact RedBlackTree.par_getMin _)
attribute [local irreducible] RedBlackTree.getMin

namespace RedBlackTree
variable {K K' V V' : Type} {M : Nat} [Par K K'] [Par V V']
theorem par_getMax  (t : RedBlackTree K V M) : Sim (t.getMax) ((Par.map t : RedBlackTree K' V' M).getMax) := by
  unfold getMax; par
end RedBlackTree
macro_rules | `(tactic| par_call) => `(tactic| exact RedBlackTree.par_getMax _)
attribute [local irreducible] RedBlackTree.getMax

namespace RedBlackTree
variable {K K' V V' : Type} {M : Nat} [Par K K'] [Par V V']
theorem par_redPair  (t : RedBlackTree K V M) (r : Bool) (c : Nat) : Sim (t.redPair r c) ((Par.map t : RedBlackTree K' V' M).redPair r c) := by
  unfold redPair; par
end RedBlackTree
macro_rules | `(tactic| par_call) => `(tactic| exact RedBlackTree.par_redPair _ _ _)
attribute [local irreducible] RedBlackTree.redPair

namespace RedBlackTree
variable {K K' V V' : Type} {M : Nat} [Par K K'] [Par V V']
theorem par_validLoop  (t : RedBlackTree K V M) (f : Nat) (s : List (Nat × Nat)) (l : List Nat) : Sim (t.validLoop f s l) ((Par.map t : RedBlackTree K' V' M).validLoop f s l) := by
  induction f generalizing s l with
  | zero => exact Sim.mk_error
  | succ f ih =>
    cases s with
    | nil => exact Sim.mk_ok rfl
    | cons e s =>
      unfold validLoop
      repeat' first | exact ih _ _ | par_step
end RedBlackTree
macro_rules | `(tactic| par_call) => `(tactic| exact RedBlackTree.par_validLoop _ _ _ _)
attribute [local irreducible] RedBlackTree.validLoop

namespace RedBlackTree
variable {K K' V V' : Type} {M : Nat} [Par K K'] [Par V V']
theorem par_isValid  (t : RedBlackTree K V M) : Sim (t.isValid) ((Par.map t : RedBlackTree K' V' M).isValid) := by
  unfold isValid
  repeat' first | (rename_i o; cases o <;> rfl) | par_step
end RedBlackTree
macro_rules | `(tactic| par_call) => `(tactic| exact RedBlackTree.par_isValid _)
attribute [local irreducible] RedBlackTree.isValid

namespace RedBlackTree
variable {K K' V V' : Type} {M : Nat} [Par K K'] [Par V V']
theorem par_Iter_nextLoop  (t : RedBlackTree K V M) (f : Nat) (it : Iter) : Sim (Iter.nextLoop t f it) (Iter.nextLoop (Par.map t : RedBlackTree K' V' M) f it) := by
  induction f generalizing it with
  | zero => exact Sim.mk_error
  | succ f ih =>
    unfold Iter.nextLoop
    refine Sim.mk_ite Iff.rfl (Sim.mk_pure rfl) ?_
    refine Sim.mk_ite Iff.rfl (by repeat' first | exact ih _ | par_step) ?_
    cases it.fwdStack with
    | nil => exact Sim.mk_pure rfl
    | cons c s => par
end RedBlackTree
macro_rules | `(tactic| par_call) => `(tactic| exact RedBlackTree.par_Iter_nextLoop _ _ _)
attribute [local irreducible] RedBlackTree.Iter.nextLoop

namespace RedBlackTree
variable {K K' V V' : Type} {M : Nat} [Par K K'] [Par V V']
theorem par_Iter_nextBackLoop  (t : RedBlackTree K V M) (f : Nat) (it : Iter) : Sim (Iter.nextBackLoop t f it) (Iter.nextBackLoop (Par.map t : RedBlackTree K' V' M) f it) := by
  induction f generalizing it with
  | zero => exact Sim.mk_error
  | succ f ih =>
    unfold Iter.nextBackLoop
    refine Sim.mk_ite Iff.rfl (Sim.mk_pure rfl) ?_
    refine Sim.mk_ite Iff.rfl (by repeat' first | exact ih _ | par_step) ?_
    cases it.revStack with
    | nil => exact Sim.mk_pure rfl
    | cons c s => par
end RedBlackTree
macro_rules | `(tactic| par_call) => `(tactic| exact RedBlackTree.par_Iter_nextBackLoop _ _ _)
attribute [local irreducible] RedBlackTree.Iter.nextBackLoop

namespace RedBlackTree
variable {K K' V V' : Type} {M : Nat} [Par K K'] [Par V V']
theorem par_Iter_item  (t : RedBlackTree K V M) (p : Iter × Option Nat) : Sim (Iter.item t p) (Iter.item (Par.map t : RedBlackTree K' V' M) p) := by
  obtain ⟨it, o⟩ := p
  cases o <;> unfold Iter.item <;> par
end RedBlackTree
macro_rules | `(tactic| par_call) => `(tactic| exact RedBlackTree.par_Iter_item _ _)
attribute [local irreducible] RedBlackTree.Iter.item

namespace RedBlackTree
variable {K K' V V' : Type} {M : Nat} [Par K K'] [Par V V']
theorem par_Iter_next  (t : RedBlackTree K V M) (it : Iter) : Sim (Iter.next t it) (Iter.next (Par.map t : RedBlackTree K' V' M) it) := by
  unfold Iter.next; par
end RedBlackTree
macro_rules | `(tactic| par_call) => `(tactic| exact RedBlackTree.par_Iter_next _ _)
attribute [local irreducible] RedBlackTree.Iter.next

namespace RedBlackTree
variable {K K' V V' : Type} {M : Nat} [Par K K'] [Par V V']
theorem par_Iter_nextBack  (t : RedBlackTree K V M) (it : Iter) : Sim (Iter.nextBack t it) (Iter.nextBack (Par.map t : RedBlackTree K' V' M) it) := by
  unfold Iter.nextBack; par
end RedBlackTree
macro_rules | `(tactic| par_call) => `(tactic| exact RedBlackTree.par_Iter_nextBack _ _)
attribute [local irreducible] RedBlackTree.Iter.nextBack

namespace RedBlackTree
variable {K K' V V' : Type} {M : Nat} [Par K K'] [Par V V']
theorem par_Iter_nextMut  (t : RedBlackTree K V M) (it : Iter) : Sim (Iter.nextMut t it) (Iter.nextMut (Par.map t : RedBlackTree K' V' M) it) := by
  unfold Iter.nextMut; par
end RedBlackTree
macro_rules | `(tactic| par_call) => `(tactic| exact RedBlackTree.par_Iter_nextMut _ _)
attribute [local irreducible] RedBlackTree.Iter.nextMut

namespace RedBlackTree
variable {K K' V V' : Type} {M : Nat} [Par K K'] [Par V V']
theorem par_Iter_nextBackMut  (t : RedBlackTree K V M) (it : Iter) : Sim (Iter.nextBackMut t it) (Iter.nextBackMut (Par.map t : RedBlackTree K' V' M) it) := by
  unfold Iter.nextBackMut; par
end RedBlackTree
macro_rules | `(tactic| par_call) => `(tactic| exact RedBlackTree.par_Iter_nextBackMut _ _)
attribute [local irreducible] RedBlackTree.Iter.nextBackMut

end Sokoban
