import Verif.Proof.Par

/-
Replacing the keys and values of an AVL tree.
-/
namespace Sokoban

/-- The replacement of keys keeps what the comparisons `<` and `>` yield. -/
class ParCmp (K K' : Type) [LT K] [DecidableLT K] [PartialGt K] [LT K'] [DecidableLT K'] [PartialGt K'] [Par K K'] : Prop where
  lt : ∀ a b : K, (Par.map a : K') < Par.map b ↔ a < b
  gt : ∀ a b : K, PartialGt.gt (Par.map a : K') (Par.map b) ↔ PartialGt.gt a b

namespace AVLTree
variable {K K' V V' : Type} {M : Nat} [Par K K'] [Par V V']

instance : Par (AVLNode K V) (AVLNode K' V') := ⟨fun n => ⟨Par.map n.key, Par.map n.value⟩⟩
instance : Par (AVLTree K V M) (AVLTree K' V' M) := ⟨fun t => ⟨t.root, Par.map t.allocator⟩⟩

theorem par_new (z : AVLNode K V) : (Par.map (new z : AVLTree K V M) : AVLTree K' V' M) = new (Par.map z) :=
  congrArg (AVLTree.mk SENTINEL) (NodeAllocator.par_new z)

end AVLTree
attribute [local irreducible] NodeAllocator.get NodeAllocator.put NodeAllocator.initialise NodeAllocator.addNode
  NodeAllocator.removeNode NodeAllocator.clearRegister NodeAllocator.connect NodeAllocator.setRegister
  NodeAllocator.getRegister NodeAllocator.getValue NodeAllocator.setValue

namespace AVLTree
variable {K K' V V' : Type} {M : Nat} [Par K K'] [Par V V']
theorem par_initialise (t : AVLTree K V M) :
    Sim (t.initialise) ((Par.map t : AVLTree K' V' M).initialise) := by
  unfold initialise; par
end AVLTree
macro_rules | `(tactic| par_call) => `(tactic| exact AVLTree.par_initialise _)
attribute [local irreducible] AVLTree.initialise

namespace AVLTree
variable {K K' V V' : Type} {M : Nat} [Par K K'] [Par V V']
theorem par_getNode (t : AVLTree K V M) (i : Nat) :
    Sim (t.getNode i) ((Par.map t : AVLTree K' V' M).getNode i) := by
  unfold getNode; par
end AVLTree
macro_rules | `(tactic| par_call) => `(tactic| exact AVLTree.par_getNode _ _)
attribute [local irreducible] AVLTree.getNode

namespace AVLTree
variable {K K' V V' : Type} {M : Nat} [Par K K'] [Par V V']
theorem par_setNodeValue (t : AVLTree K V M) (i : Nat) (v : V) :
    Sim (t.setNodeValue i v) ((Par.map t : AVLTree K' V' M).setNodeValue i (Par.map v)) := by
  unfold setNodeValue; par
end AVLTree
macro_rules | `(tactic| par_call) => `(tactic| exact AVLTree.par_setNodeValue _ _ _)
attribute [local irreducible] AVLTree.setNodeValue

namespace AVLTree
variable {K K' V V' : Type} {M : Nat} [Par K K'] [Par V V']
theorem par_setNode (t : AVLTree K V M) (i : Nat) (n : AVLNode K V) :
    Sim (t.setNode i n) ((Par.map t : AVLTree K' V' M).setNode i (Par.map n)) := by
  unfold setNode; par
end AVLTree
macro_rules | `(tactic| par_call) => `(tactic| exact AVLTree.par_setNode _ _ _)
attribute [local irreducible] AVLTree.setNode

namespace AVLTree
variable {K K' V V' : Type} {M : Nat} [Par K K'] [Par V V']
theorem par_getField (t : AVLTree K V M) (i : Nat) (r : Nat) :
    Sim (t.getField i r) ((Par.map t : AVLTree K' V' M).getField i r) := by
  unfold getField; par
end AVLTree
macro_rules | `(tactic| par_call) => `(tactic| exact AVLTree.par_getField _ _ _)
attribute [local irreducible] AVLTree.getField

namespace AVLTree
variable {K K' V V' : Type} {M : Nat} [Par K K'] [Par V V']
theorem par_setHeight (t : AVLTree K V M) (i : Nat) (v : Nat) :
    Sim (t.setHeight i v) ((Par.map t : AVLTree K' V' M).setHeight i v) := by
  unfold setHeight; par
end AVLTree
macro_rules | `(tactic| par_call) => `(tactic| exact AVLTree.par_setHeight _ _ _)
attribute [local irreducible] AVLTree.setHeight

namespace AVLTree
variable {K K' V V' : Type} {M : Nat} [Par K K'] [Par V V']
theorem par_updateHeight (t : AVLTree K V M) (i : Nat) :
    Sim (t.updateHeight i) ((Par.map t : AVLTree K' V' M).updateHeight i) := by
  unfold updateHeight; par
end AVLTree
macro_rules | `(tactic| par_call) => `(tactic| exact AVLTree.par_updateHeight _ _)
attribute [local irreducible] AVLTree.updateHeight

namespace AVLTree
variable {K K' V V' : Type} {M : Nat} [Par K K'] [Par V V']
theorem par_setField (t : AVLTree K V M) (i : Nat) (r : Nat) (v : Nat) :
    Sim (t.setField i r v) ((Par.map t : AVLTree K' V' M).setField i r v) := by
  unfold setField; par
end AVLTree
macro_rules | `(tactic| par_call) => `(tactic| exact AVLTree.par_setField _ _ _ _)
attribute [local irreducible] AVLTree.setField

namespace AVLTree
theorem par_i32 (x : Int) : Sim (i32 x) (i32 x) := by
  unfold i32
  split <;> rfl
theorem par_popPath (l : List Ancestor) : Sim (popPath l) (popPath l) := by
  cases l <;> rfl
theorem par_unwrapNat (o : Option Nat) : Sim (unwrap o) (unwrap o) := by
  cases o <;> rfl
end AVLTree
macro_rules | `(tactic| par_call) => `(tactic| exact AVLTree.par_i32 _)
macro_rules | `(tactic| par_call) => `(tactic| exact AVLTree.par_popPath _)
macro_rules | `(tactic| par_call) => `(tactic| exact AVLTree.par_unwrapNat _)
attribute [local irreducible] AVLTree.i32 AVLTree.popPath unwrap

namespace AVLTree
variable {K K' V V' : Type} {M : Nat} [Par K K'] [Par V V']
theorem par_balanceFactor (t : AVLTree K V M) (l : Nat) (r : Nat) :
    Sim (t.balanceFactor l r) ((Par.map t : AVLTree K' V' M).balanceFactor l r) := by
  unfold balanceFactor; par
end AVLTree
macro_rules | `(tactic| par_call) => `(tactic| exact AVLTree.par_balanceFactor _ _ _)
attribute [local irreducible] AVLTree.balanceFactor

namespace AVLTree
variable {K K' V V' : Type} {M : Nat} [Par K K'] [Par V V']
theorem par_leftRotate (t : AVLTree K V M) (i : Nat) :
    Sim (t.leftRotate i) ((Par.map t : AVLTree K' V' M).leftRotate i) := by
  unfold leftRotate; par
end AVLTree
macro_rules | `(tactic| par_call) => `(tactic| exact AVLTree.par_leftRotate _ _)
attribute [local irreducible] AVLTree.leftRotate

namespace AVLTree
variable {K K' V V' : Type} {M : Nat} [Par K K'] [Par V V']
theorem par_rightRotate (t : AVLTree K V M) (i : Nat) :
    Sim (t.rightRotate i) ((Par.map t : AVLTree K' V' M).rightRotate i) := by
  unfold rightRotate; par
end AVLTree
macro_rules | `(tactic| par_call) => `(tactic| exact AVLTree.par_rightRotate _ _)
attribute [local irreducible] AVLTree.rightRotate

namespace AVLTree
variable {K K' V V' : Type} {M : Nat} [Par K K'] [Par V V']
theorem par_delete (t : AVLTree K V M) (i : Nat) :
    Sim (t.delete i) ((Par.map t : AVLTree K' V' M).delete i) := by
  unfold delete; par
end AVLTree
macro_rules | `(tactic| par_call) => `(tactic| exact AVLTree.par_delete _ _)
attribute [local irreducible] AVLTree.delete

namespace AVLTree
variable {K K' V V' : Type} {M : Nat} [Par K K'] [Par V V']
theorem par_rebalanceNode (t : AVLTree K V M) (i : Nat) :
    Sim (t.rebalanceNode i) ((Par.map t : AVLTree K' V' M).rebalanceNode i) := by
  unfold rebalanceNode; par
end AVLTree
macro_rules | `(tactic| par_call) => `(tactic| exact AVLTree.par_rebalanceNode _ _)
attribute [local irreducible] AVLTree.rebalanceNode

namespace AVLTree
variable {K K' V V' : Type} {M : Nat} [Par K K'] [Par V V']
theorem par_rebalance (t : AVLTree K V M) (l : List Ancestor) :
    Sim (t.rebalance l) ((Par.map t : AVLTree K' V' M).rebalance l) := by
  induction l generalizing t with
  | nil => exact Sim.mk_ok rfl
  | cons e l ih =>
    obtain ⟨p, b, c⟩ := e
    unfold rebalance
    refine Sim.bind (by first | par_call | fail) ?_
    rintro ⟨t, o⟩
    refine Sim.bind ?_ fun t => ih t
    cases o with
    | none => exact Sim.mk_pure rfl
    | some i => cases p <;> par
end AVLTree
macro_rules | `(tactic| par_call) => `(tactic| exact AVLTree.par_rebalance _ _)
attribute [local irreducible] AVLTree.rebalance

namespace AVLTree
variable {K K' V V' : Type} {M : Nat} [Par K K'] [Par V V']
theorem par_insertLoop [LT K] [DecidableLT K] [PartialGt K] [LT K'] [DecidableLT K'] [PartialGt K'] [ParCmp K K'] (t : AVLTree K V M) (k : K) (v : V) (f : Nat) (i : Nat) (p : List Ancestor) :
    Sim (t.insertLoop k v f i p) ((Par.map t : AVLTree K' V' M).insertLoop (Par.map k) (Par.map v) f i p) := by
  induction f generalizing t i p with
  | zero => exact Sim.mk_error
  | succ f ih =>
    unfold insertLoop
    refine Sim.bind (by first | par_call | fail) fun n => ?_
    dsimp only
    refine Sim.mk_ite (ParCmp.lt k n.key) (by repeat' first | exact ih _ _ _ | par_step) ?_
    exact Sim.mk_ite (ParCmp.gt k n.key) (by repeat' first | exact ih _ _ _ | par_step) (by par)
end AVLTree
macro_rules | `(tactic| par_call) => `(tactic| exact AVLTree.par_insertLoop _ _ _ _ _ _)
attribute [local irreducible] AVLTree.insertLoop

namespace AVLTree
variable {K K' V V' : Type} {M : Nat} [Par K K'] [Par V V']
theorem par_insert [LT K] [DecidableLT K] [PartialGt K] [LT K'] [DecidableLT K'] [PartialGt K'] [ParCmp K K'] (t : AVLTree K V M) (k : K) (v : V) (lim : Nat) :
    Sim (t.insert k v lim) ((Par.map t : AVLTree K' V' M).insert (Par.map k) (Par.map v) lim) := by
  unfold insert; par
end AVLTree
macro_rules | `(tactic| par_call) => `(tactic| exact AVLTree.par_insert _ _ _ _)
attribute [local irreducible] AVLTree.insert

namespace AVLTree
variable {K K' V V' : Type} {M : Nat} [Par K K'] [Par V V']
theorem par_removePath [LT K] [DecidableLT K] [PartialGt K] [LT K'] [DecidableLT K'] [PartialGt K'] [ParCmp K K'] (t : AVLTree K V M) (k : K) (f : Nat) (i : Nat) (p : List Ancestor) :
    Sim (t.removePath k f i p) ((Par.map t : AVLTree K' V' M).removePath (Par.map k) f i p) := by
  induction f generalizing i p with
  | zero => exact Sim.mk_error
  | succ f ih =>
    unfold removePath
    refine Sim.mk_ite Iff.rfl (Sim.mk_pure rfl) ?_
    refine Sim.bind (by first | par_call | fail) fun n => ?_
    dsimp only
    refine Sim.mk_ite (ParCmp.lt k n.key) (by repeat' first | exact ih _ _ | par_step) ?_
    exact Sim.mk_ite (ParCmp.gt k n.key) (by repeat' first | exact ih _ _ | par_step) (by par)
end AVLTree
macro_rules | `(tactic| par_call) => `(tactic| exact AVLTree.par_removePath _ _ _ _ _)
attribute [local irreducible] AVLTree.removePath

namespace AVLTree
variable {K K' V V' : Type} {M : Nat} [Par K K'] [Par V V']
theorem par_leftmostLoop (t : AVLTree K V M) (f : Nat) (i : Nat) (j : Nat) (p : List Ancestor) :
    Sim (t.leftmostLoop f i j p) ((Par.map t : AVLTree K' V' M).leftmostLoop f i j p) := by
  induction f generalizing i j p with
  | zero => exact Sim.mk_error
  | succ f ih =>
    unfold leftmostLoop
    repeat' first | exact ih _ _ _ | par_step
end AVLTree
macro_rules | `(tactic| par_call) => `(tactic| exact AVLTree.par_leftmostLoop _ _ _ _ _)
attribute [local irreducible] AVLTree.leftmostLoop

namespace AVLTree
variable {K K' V V' : Type} {M : Nat} [Par K K'] [Par V V']
theorem par_removeTwo (t : AVLTree K V M) (l : Nat) (r : Nat) (p : List Ancestor) (lim : Nat) :
    Sim (t.removeTwo l r p lim) ((Par.map t : AVLTree K' V' M).removeTwo l r p lim) := by
  unfold removeTwo
  refine Sim.bind (by first | par_call | fail) ?_
  rintro ⟨lm, lmp, ip⟩
  refine Sim.bind (by par) fun t => ?_
  refine Sim.bind (by first | par_call | fail) fun t => ?_
  refine Sim.bind (by par) fun t => ?_
  refine Sim.bind (by first | par_call | fail) ?_
  rintro ⟨⟨p, b, c⟩, l⟩
  refine Sim.bind ?_ fun t => Sim.mk_pure rfl
  cases p <;> par
end AVLTree
macro_rules | `(tactic| par_call) => `(tactic| exact AVLTree.par_removeTwo _ _ _ _ _)
attribute [local irreducible] AVLTree.removeTwo

namespace AVLTree
variable {K K' V V' : Type} {M : Nat} [Par K K'] [Par V V']
theorem par_removeOne (t : AVLTree K V M) (l : Nat) (r : Nat) (p : List Ancestor) :
    Sim (t.removeOne l r p) ((Par.map t : AVLTree K' V' M).removeOne l r p) := by
  unfold removeOne
  refine Sim.bind (by first | par_call | fail) ?_
  rintro ⟨⟨p, b, c⟩, l⟩
  cases p <;> par
end AVLTree
macro_rules | `(tactic| par_call) => `(tactic| exact AVLTree.par_removeOne _ _ _ _)
attribute [local irreducible] AVLTree.removeOne

namespace AVLTree
variable {K K' V V' : Type} {M : Nat} [Par K K'] [Par V V']
theorem par_removeNode (t : AVLTree K V M) (i : Nat) (p : List Ancestor) (lim : Nat) :
    Sim (t.removeNode i p lim) ((Par.map t : AVLTree K' V' M).removeNode i p lim) := by
  unfold removeNode
  refine Sim.bind (by first | par_call | fail) fun n => ?_
  refine Sim.bind (by first | par_call | fail) fun l => ?_
  refine Sim.bind (by first | par_call | fail) fun r => ?_
  refine Sim.bind (by par) ?_
  rintro ⟨t, l, r⟩
  dsimp only
  by_cases hr : i = t.root
  · rw [if_pos hr, if_pos (show i = (Par.map (t, l, r) : AVLTree K' V' M × List Ancestor × Nat).1.root from hr)]; par
  · rw [if_neg hr, if_neg (show ¬ i = (Par.map (t, l, r) : AVLTree K' V' M × List Ancestor × Nat).1.root from hr)]; par
end AVLTree
macro_rules | `(tactic| par_call) => `(tactic| exact AVLTree.par_removeNode _ _ _ _)
attribute [local irreducible] AVLTree.removeNode

namespace AVLTree
variable {K K' V V' : Type} {M : Nat} [Par K K'] [Par V V']
theorem par_remove [LT K] [DecidableLT K] [PartialGt K] [LT K'] [DecidableLT K'] [PartialGt K'] [ParCmp K K'] (t : AVLTree K V M) (k : K) (lim : Nat) :
    Sim (t.remove k lim) ((Par.map t : AVLTree K' V' M).remove (Par.map k) lim) := by
  unfold remove; par
end AVLTree
macro_rules | `(tactic| par_call) => `(tactic| exact AVLTree.par_remove _ _ _)
attribute [local irreducible] AVLTree.remove

namespace AVLTree
variable {K K' V V' : Type} {M : Nat} [Par K K'] [Par V V']
theorem par_searchLoop [LT K] [DecidableLT K] [PartialGt K] [LT K'] [DecidableLT K'] [PartialGt K'] [ParCmp K K'] (t : AVLTree K V M) (k : K) (f : Nat) (i : Nat) :
    Sim (t.searchLoop k f i) ((Par.map t : AVLTree K' V' M).searchLoop (Par.map k) f i) := by
  induction f generalizing i with
  | zero => exact Sim.mk_error
  | succ f ih =>
    unfold searchLoop
    refine Sim.bind (by first | par_call | fail) fun n => ?_
    dsimp only
    refine Sim.mk_ite (ParCmp.lt k n.key) (by repeat' first | exact ih _ | par_step) ?_
    exact Sim.mk_ite (ParCmp.gt k n.key) (by repeat' first | exact ih _ | par_step) (by par)
end AVLTree
macro_rules | `(tactic| par_call) => `(tactic| exact AVLTree.par_searchLoop _ _ _ _)
attribute [local irreducible] AVLTree.searchLoop

namespace AVLTree
variable {K K' V V' : Type} {M : Nat} [Par K K'] [Par V V']
theorem par_getAddr [LT K] [DecidableLT K] [PartialGt K] [LT K'] [DecidableLT K'] [PartialGt K'] [ParCmp K K'] (t : AVLTree K V M) (k : K) :
    Sim (t.getAddr k) ((Par.map t : AVLTree K' V' M).getAddr (Par.map k)) := by
  unfold getAddr; par
end AVLTree
macro_rules | `(tactic| par_call) => `(tactic| exact AVLTree.par_getAddr _ _)
attribute [local irreducible] AVLTree.getAddr

namespace AVLTree
variable {K K' V V' : Type} {M : Nat} [Par K K'] [Par V V']
theorem par_get [LT K] [DecidableLT K] [PartialGt K] [LT K'] [DecidableLT K'] [PartialGt K'] [ParCmp K K'] (t : AVLTree K V M) (k : K) :
    Sim (t.get k) ((Par.map t : AVLTree K' V' M).get (Par.map k)) := by
  unfold get; par
end AVLTree
macro_rules | `(tactic| par_call) => `(tactic| exact AVLTree.par_get _ _)
attribute [local irreducible] AVLTree.get

namespace AVLTree
variable {K K' V V' : Type} {M : Nat} [Par K K'] [Par V V']
theorem par_getMut [LT K] [DecidableLT K] [PartialGt K] [LT K'] [DecidableLT K'] [PartialGt K'] [ParCmp K K'] (t : AVLTree K V M) (k : K) :
    Sim (t.getMut k) ((Par.map t : AVLTree K' V' M).getMut (Par.map k)) := by
  unfold getMut; par
end AVLTree
macro_rules | `(tactic| par_call) => `(tactic| exact AVLTree.par_getMut _ _)
attribute [local irreducible] AVLTree.getMut

namespace AVLTree
variable {K K' V V' : Type} {M : Nat} [Par K K'] [Par V V']
theorem par_contains [LT K] [DecidableLT K] [PartialGt K] [LT K'] [DecidableLT K'] [PartialGt K'] [ParCmp K K'] (t : AVLTree K V M) (k : K) :
    Sim (t.contains k) ((Par.map t : AVLTree K' V' M).contains (Par.map k)) := by
  unfold contains
  refine Sim.bind (by first | par_call | fail) fun o => Sim.mk_pure ?_
  cases o <;> rfl
end AVLTree
macro_rules | `(tactic| par_call) => `(tactic| exact AVLTree.par_contains _ _)
attribute [local irreducible] AVLTree.contains

namespace AVLTree
variable {K K' V V' : Type} {M : Nat} [Par K K'] [Par V V']
theorem par_index [LT K] [DecidableLT K] [PartialGt K] [LT K'] [DecidableLT K'] [PartialGt K'] [ParCmp K K'] (t : AVLTree K V M) (k : K) :
    Sim (t.index k) ((Par.map t : AVLTree K' V' M).index (Par.map k)) := by
  unfold index
  refine Sim.bind (by first | par_call | fail) fun o => Sim.unwrap rfl
end AVLTree
macro_rules | `(tactic| par_call) => `(tactic| exact AVLTree.par_index _ _)
attribute [local irreducible] AVLTree.index

namespace AVLTree
variable {K K' V V' : Type} {M : Nat} [Par K K'] [Par V V']
theorem par_indexMut [LT K] [DecidableLT K] [PartialGt K] [LT K'] [DecidableLT K'] [PartialGt K'] [ParCmp K K'] (t : AVLTree K V M) (k : K) :
    Sim (t.indexMut k) ((Par.map t : AVLTree K' V' M).indexMut (Par.map k)) := by
  unfold indexMut; par
end AVLTree
macro_rules | `(tactic| par_call) => `(tactic| exact AVLTree.par_indexMut _ _)
attribute [local irreducible] AVLTree.indexMut

namespace AVLTree
variable {K K' V V' : Type} {M : Nat} [Par K K'] [Par V V']
theorem par_minLoop (t : AVLTree K V M) (f : Nat) (i : Nat) :
    Sim (t.minLoop f i) ((Par.map t : AVLTree K' V' M).minLoop f i) := by
  induction f generalizing i with
  | zero => exact Sim.mk_error
  | succ f ih =>
    unfold minLoop
    repeat' first | exact ih _ | par_step
end AVLTree
macro_rules | `(tactic| par_call) => `(tactic| exact AVLTree.par_minLoop _ _ _)
attribute [local irreducible] AVLTree.minLoop

namespace AVLTree
variable {K K' V V' : Type} {M : Nat} [Par K K'] [Par V V']
theorem par_maxLoop (t : AVLTree K V M) (f : Nat) (i : Nat) :
    Sim (t.maxLoop f i) ((Par.map t : AVLTree K' V' M).maxLoop f i) := by
  induction f generalizing i with
  | zero => exact Sim.mk_error
  | succ f ih =>
    unfold maxLoop
    repeat' first | exact ih _ | par_step
end AVLTree
macro_rules | `(tactic| par_call) => `(tactic| exact AVLTree.par_maxLoop _ _ _)
attribute [local irreducible] AVLTree.maxLoop

namespace AVLTree
variable {K K' V V' : Type} {M : Nat} [Par K K'] [Par V V']
theorem par_getMinIndex (t : AVLTree K V M) :
    Sim (t.getMinIndex) ((Par.map t : AVLTree K' V' M).getMinIndex) := by
  unfold getMinIndex; par
end AVLTree
macro_rules | `(tactic| par_call) => `(tactic| exact AVLTree.par_getMinIndex _)
attribute [local irreducible] AVLTree.getMinIndex

namespace AVLTree
variable {K K' V V' : Type} {M : Nat} [Par K K'] [Par V V']
theorem par_getMaxIndex (t : AVLTree K V M) :
    Sim (t.getMaxIndex) ((Par.map t : AVLTree K' V' M).getMaxIndex) := by
  unfold getMaxIndex; par
end AVLTree
macro_rules | `(tactic| par_call) => `(tactic| exact AVLTree.par_getMaxIndex _)
attribute [local irreducible] AVLTree.getMaxIndex

namespace AVLTree
variable {K K' V V' : Type} {M : Nat} [Par K K'] [Par V V']
theorem par_getMin (t : AVLTree K V M) :
    Sim (t.getMin) ((Par.map t : AVLTree K' V' M).getMin) := by
  unfold getMin; par
end AVLTree
macro_rules | `(tactic| par_call) => `(tactic| exact AVLTree.par_getMin _)
attribute [local irreducible] AVLTree.getMin

namespace AVLTree
variable {K K' V V' : Type} {M : Nat} [Par K K'] [Par V V']
theorem par_getMax (t : AVLTree K V M) :
    Sim (t.getMax) ((Par.map t : AVLTree K' V' M).getMax) := by
  unfold getMax; par
end AVLTree
macro_rules | `(tactic| par_call) => `(tactic| exact AVLTree.par_getMax _)
attribute [local irreducible] AVLTree.getMax

namespace AVLTree
variable {K K' V V' : Type} {M : Nat} [Par K K'] [Par V V']
theorem par_findMin (t : AVLTree K V M) :
    Sim (t.findMin) ((Par.map t : AVLTree K' V' M).findMin) := by
  unfold findMin; par
end AVLTree
macro_rules | `(tactic| par_call) => `(tactic| exact AVLTree.par_findMin _)
attribute [local irreducible] AVLTree.findMin

namespace AVLTree
variable {K K' V V' : Type} {M : Nat} [Par K K'] [Par V V']
theorem par_findMax (t : AVLTree K V M) :
    Sim (t.findMax) ((Par.map t : AVLTree K' V' M).findMax) := by
  unfold findMax; par
end AVLTree
macro_rules | `(tactic| par_call) => `(tactic| exact AVLTree.par_findMax _)
attribute [local irreducible] AVLTree.findMax

namespace AVLTree
variable {K K' V V' : Type} {M : Nat} [Par K K'] [Par V V']
theorem par_Iter_nextLoop (t : AVLTree K V M) (f : Nat) (it : Iter) :
    Sim (Iter.nextLoop t f it) (Iter.nextLoop (Par.map t : AVLTree K' V' M) f it) := by
  induction f generalizing it with
  | zero => exact Sim.mk_error
  | succ f ih =>
    unfold Iter.nextLoop
    refine Sim.mk_ite Iff.rfl (Sim.mk_pure rfl) ?_
    refine Sim.mk_ite Iff.rfl (by repeat' first | exact ih _ | par_step) ?_
    cases it.fwdStack with
    | nil => exact Sim.mk_pure rfl
    | cons c s => par
end AVLTree
macro_rules | `(tactic| par_call) => `(tactic| exact AVLTree.par_Iter_nextLoop _ _ _)
attribute [local irreducible] AVLTree.Iter.nextLoop

namespace AVLTree
variable {K K' V V' : Type} {M : Nat} [Par K K'] [Par V V']
theorem par_Iter_nextBackLoop (t : AVLTree K V M) (f : Nat) (it : Iter) :
    Sim (Iter.nextBackLoop t f it) (Iter.nextBackLoop (Par.map t : AVLTree K' V' M) f it) := by
  induction f generalizing it with
  | zero => exact Sim.mk_error
  | succ f ih =>
    unfold Iter.nextBackLoop
    refine Sim.mk_ite Iff.rfl (Sim.mk_pure rfl) ?_
    refine Sim.mk_ite Iff.rfl (by repeat' first | exact ih _ | par_step) ?_
    cases it.revStack with
    | nil => exact Sim.mk_pure rfl
    | cons c s => par
end AVLTree
macro_rules | `(tactic| par_call) => `(tactic| exact AVLTree.par_Iter_nextBackLoop _ _ _)
attribute [local irreducible] AVLTree.Iter.nextBackLoop

namespace AVLTree
variable {K K' V V' : Type} {M : Nat} [Par K K'] [Par V V']
theorem par_Iter_item (t : AVLTree K V M) (p : Iter × Option Nat) :
    Sim (Iter.item t p) (Iter.item (Par.map t : AVLTree K' V' M) p) := by
  obtain ⟨it, o⟩ := p
  cases o <;> unfold Iter.item <;> par
end AVLTree
macro_rules | `(tactic| par_call) => `(tactic| exact AVLTree.par_Iter_item _ _)
attribute [local irreducible] AVLTree.Iter.item

namespace AVLTree
variable {K K' V V' : Type} {M : Nat} [Par K K'] [Par V V']
theorem par_Iter_next (t : AVLTree K V M) (it : Iter) :
    Sim (Iter.next t it) (Iter.next (Par.map t : AVLTree K' V' M) it) := by
  unfold Iter.next; par
end AVLTree
macro_rules | `(tactic| par_call) => `(tactic| exact AVLTree.par_Iter_next _ _)
attribute [local irreducible] AVLTree.Iter.next

namespace AVLTree
variable {K K' V V' : Type} {M : Nat} [Par K K'] [Par V V']
theorem par_Iter_nextBack (t : AVLTree K V M) (it : Iter) :
    Sim (Iter.nextBack t it) (Iter.nextBack (Par.map t : AVLTree K' V' M) it) := by
  unfold Iter.nextBack; par
end AVLTree
macro_rules | `(tactic| par_call) => `(tactic| exact AVLTree.par_Iter_nextBack _ _)
attribute [local irreducible] AVLTree.Iter.nextBack

namespace AVLTree
variable {K K' V V' : Type} {M : Nat} [Par K K'] [Par V V']
theorem par_Iter_nextMut (t : AVLTree K V M) (it : Iter) :
    Sim (Iter.nextMut t it) (Iter.nextMut (Par.map t : AVLTree K' V' M) it) := by
  unfold Iter.nextMut; par
end AVLTree
macro_rules | `(tactic| par_call) => `(tactic| exact AVLTree.par_Iter_nextMut _ _)
attribute [local irreducible] AVLTree.Iter.nextMut

namespace AVLTree
variable {K K' V V' : Type} {M : Nat} [Par K K'] [Par V V']
theorem par_Iter_nextBackMut (t : AVLTree K V M) (it : Iter) :
    Sim (Iter.nextBackMut t it) (Iter.nextBackMut (Par.map t : AVLTree K' V' M) it) := by
  unfold Iter.nextBackMut; par
end AVLTree
macro_rules | `(tactic| par_call) => `(tactic| exact AVLTree.par_Iter_nextBackMut _ _)
attribute [local irreducible] AVLTree.Iter.nextBackMut

end Sokoban
