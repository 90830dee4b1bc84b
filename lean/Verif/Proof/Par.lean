import Verif.Model.RedBlack
import Verif.Model.AVL
import Verif.Model.HashTable
import Verif.Model.Critbit
import Verif.Model.Deque
import Verif.Proof.Run

/-
Replacing all keys and values in the memory of a structure, and what the functions do afterwards: a small logic for
"the function on the replaced arguments does the same and yields the replaced result", with a tactic that walks through
the code of a function.
-/
namespace Sokoban

/-- A replacement of the things of one type by those of another. -/
class Par (α β : Type) where
  map : α → β

section
variable {α α' β β' : Type}

instance : Par Nat Nat := ⟨fun x => x⟩
instance : Par Bool Bool := ⟨fun x => x⟩
instance : Par Unit Unit := ⟨fun x => x⟩
instance : Par Int Int := ⟨fun x => x⟩
instance (priority := high) : Par (Option Nat) (Option Nat) := ⟨fun x => x⟩
instance (priority := high) : Par (Option (Nat × Nat)) (Option (Nat × Nat)) := ⟨fun x => x⟩
instance (priority := high) : Par (List Nat) (List Nat) := ⟨fun x => x⟩
instance (priority := high) : Par (Option (List Nat)) (Option (List Nat)) := ⟨fun x => x⟩
instance (priority := high) : Par (List AVLTree.Ancestor) (List AVLTree.Ancestor) := ⟨fun x => x⟩
instance (priority := high) : Par (Option (Nat × Nat × Bool)) (Option (Nat × Nat × Bool)) := ⟨fun x => x⟩
instance : Par (BitVec 128) (BitVec 128) := ⟨fun x => x⟩
instance : Par CritbitNode CritbitNode := ⟨fun x => x⟩
instance (priority := high) : Par (Option CritbitNode) (Option CritbitNode) := ⟨fun x => x⟩
instance (priority := high) {N M : Nat} : Par (NodeAllocator CritbitNode N M) (NodeAllocator CritbitNode N M) := ⟨fun x => x⟩
instance : Par Deque.Iter Deque.Iter := ⟨fun x => x⟩
instance : Par HashTable.Iter HashTable.Iter := ⟨fun x => x⟩
instance : Par RedBlackTree.Iter RedBlackTree.Iter := ⟨fun x => x⟩
instance : Par AVLTree.Iter AVLTree.Iter := ⟨fun x => x⟩
instance : Par Critbit.Iter Critbit.Iter := ⟨fun x => x⟩
instance [Par α α'] [Par β β'] : Par (α × β) (α' × β') := ⟨fun p => (Par.map p.1, Par.map p.2)⟩
instance [Par α α'] : Par (Option α) (Option α') := ⟨Option.map Par.map⟩
instance [Par α α'] : Par (List α) (List α') := ⟨List.map Par.map⟩

/-- The second call does the same as the first, up to the replacement. -/
def Sim [Par α β] (x : R α) (y : R β) : Prop := y = Except.map Par.map x

namespace Sim
variable [Par α α'] [Par β β']

theorem mk_ok {a : α} {a' : α'} (h : a' = Par.map a) : Sim (.ok a) (.ok a') := by
  show _ = Except.ok _; rw [h]
theorem mk_pure {a : α} {a' : α'} (h : a' = Par.map a) : Sim (pure a : R α) (pure a' : R α') := mk_ok h
theorem mk_error {p : Panic} : Sim (.error p : R α) (.error p : R α') := rfl
theorem mk_throw {p : Panic} : Sim (throw p : R α) (throw p : R α') := rfl
theorem throw_bind {γ δ : Type} {p : Panic} {f : γ → R α} {f' : δ → R α'} :
    Sim ((throw p : R γ) >>= f) ((throw p : R δ) >>= f') := rfl

theorem bind {x : R α} {x' : R α'} {f : α → R β} {f' : α' → R β'} (h : Sim x x')
    (k : ∀ a, Sim (f a) (f' (Par.map a))) : Sim (x >>= f) (x' >>= f') := by
  have : x' = _ := h
  subst this
  cases x with
  | error p => rfl
  | ok a => exact k a

theorem mk_ite {c : Prop} [Decidable c] {c' : Prop} [Decidable c'] {x y : R α} {x' y' : R α'} (e : c' ↔ c) (h : Sim x x')
    (h' : Sim y y') : Sim (if c then x else y) (if c' then x' else y') := by
  by_cases hc : c
  · rw [if_pos hc, if_pos (e.2 hc)]; exact h
  · rw [if_neg hc, if_neg fun h => hc (e.1 h)]; exact h'

theorem unwrap {o : Option α} {o' : Option α'} (h : o' = Par.map o) : Sim (Sokoban.unwrap o) (Sokoban.unwrap o') := by
  subst h
  cases o <;> rfl

theorem rassert {b b' : Bool} (h : b' = b) : Sim (Sokoban.rassert b) (Sokoban.rassert b') := by
  subst h
  unfold Sokoban.rassert
  split <;> rfl

end Sim
end

/-- Shows that a call does the same by a lemma about the function called; extended below. -/
syntax "par_call" : tactic
macro_rules | `(tactic| par_call) => `(tactic| assumption)
macro_rules | `(tactic| par_call) => `(tactic| exact Sim.rassert rfl)

/-- One step through the code of two functions. -/
macro "par_step" : tactic => `(tactic| first
  | exact Sim.mk_throw
  | exact Sim.throw_bind
  | exact Sim.mk_error
  | par_call
  | exact Sim.mk_pure rfl
  | exact Sim.mk_ok rfl
  | (refine Sim.mk_ite (by exact Iff.rfl) ?_ ?_)
  | (refine Sim.bind ?_ ?_; rotate_left; intro _)
  | dsimp only)
macro "par" : tactic => `(tactic| repeat' par_step)

namespace Node
variable {T T' : Type} {M N : Nat} [Par T T']

instance : Par (Node T N) (Node T' N) := ⟨fun n => ⟨n.registers, Par.map n.value⟩⟩

theorem par_getRegister (n : Node T N) (r : Nat) : Sim (n.getRegister r) ((Par.map n : Node T' N).getRegister r) := by
  unfold getRegister
  split <;> rfl

theorem par_setRegister (n : Node T N) (r v : Nat) : Sim (n.setRegister r v) ((Par.map n : Node T' N).setRegister r v) := by
  unfold setRegister
  split <;> rfl

end Node
macro_rules | `(tactic| par_call) => `(tactic| exact Node.par_getRegister _ _)
macro_rules | `(tactic| par_call) => `(tactic| exact Node.par_setRegister _ _ _)

namespace NodeAllocator
variable {T T' : Type} {M N : Nat} [Par T T']

instance : Par (NodeAllocator T M N) (NodeAllocator T' M N) :=
  ⟨fun a => ⟨a.size, a.bumpIndex, a.freeListHead, a.nodes.map Par.map⟩⟩

theorem par_get (a : NodeAllocator T M N) (i : Nat) : Sim (a.get i) ((Par.map a : NodeAllocator T' M N).get i) := by
  unfold NodeAllocator.get
  split
  · refine Sim.mk_ok ?_
    show (a.nodes.map _)[_] = _
    rw [Vector.getElem_map]
  · rfl

theorem par_put (a : NodeAllocator T M N) (i : Nat) (n : Node T N) :
    Sim (a.put i n) ((Par.map a : NodeAllocator T' M N).put i (Par.map n)) := by
  unfold NodeAllocator.put
  split
  · refine Sim.mk_ok ?_
    show ({ size := _, bumpIndex := _, freeListHead := _, nodes := _ } : NodeAllocator T' M N) =
      { size := _, bumpIndex := _, freeListHead := _, nodes := _ }
    congr 1
    show (a.nodes.map _).set _ _ = (a.nodes.set _ _).map _
    rw [Vector.map_set]
  · rfl

end NodeAllocator
macro_rules | `(tactic| par_call) => `(tactic| exact NodeAllocator.par_get _ _)
macro_rules | `(tactic| par_call) => `(tactic| exact NodeAllocator.par_put _ _ _)

namespace NodeAllocator
variable {T T' : Type} {M N : Nat} [Par T T'] (a : NodeAllocator T M N)

theorem par_new (z : T) : (Par.map (new z : NodeAllocator T M N) : NodeAllocator T' M N) = new (Par.map z) := by
  show ({ size := _, bumpIndex := _, freeListHead := _, nodes := _ } : NodeAllocator T' M N) =
      { size := _, bumpIndex := _, freeListHead := _, nodes := _ }
  congr 1
  exact Vector.map_replicate

theorem par_zeroed (z : T) : (Par.map (zeroed z : NodeAllocator T M N) : NodeAllocator T' M N) = zeroed (Par.map z) := by
  show ({ size := _, bumpIndex := _, freeListHead := _, nodes := _ } : NodeAllocator T' M N) =
      { size := _, bumpIndex := _, freeListHead := _, nodes := _ }
  congr 1
  exact Vector.map_replicate

theorem par_initialise : Sim a.initialise ((Par.map a : NodeAllocator T' M N).initialise) := by
  unfold initialise; par

theorem par_addNode (v : T) : Sim (a.addNode v) ((Par.map a : NodeAllocator T' M N).addNode (Par.map v)) := by
  unfold addNode; par

theorem par_removeNode (i : Nat) : Sim (a.removeNode i) ((Par.map a : NodeAllocator T' M N).removeNode i) := by
  unfold removeNode; par

theorem par_clearRegister (i r : Nat) : Sim (a.clearRegister i r) ((Par.map a : NodeAllocator T' M N).clearRegister i r) := by
  unfold clearRegister; par

theorem par_connect (i j r s : Nat) : Sim (a.connect i j r s) ((Par.map a : NodeAllocator T' M N).connect i j r s) := by
  unfold connect; par

theorem par_setRegister (i v r : Nat) : Sim (a.setRegister i v r) ((Par.map a : NodeAllocator T' M N).setRegister i v r) := by
  unfold setRegister; par

theorem par_getRegister (i r : Nat) : Sim (a.getRegister i r) ((Par.map a : NodeAllocator T' M N).getRegister i r) := by
  unfold getRegister; par

theorem par_getValue (i : Nat) : Sim (a.getValue i) ((Par.map a : NodeAllocator T' M N).getValue i) := by
  unfold getValue; par

theorem par_setValue (i : Nat) (v : T) : Sim (a.setValue i v) ((Par.map a : NodeAllocator T' M N).setValue i (Par.map v)) := by
  unfold setValue; par

end NodeAllocator
macro_rules | `(tactic| par_call) => `(tactic| exact NodeAllocator.par_initialise _)
macro_rules | `(tactic| par_call) => `(tactic| exact NodeAllocator.par_addNode _ _)
macro_rules | `(tactic| par_call) => `(tactic| exact NodeAllocator.par_removeNode _ _)
macro_rules | `(tactic| par_call) => `(tactic| exact NodeAllocator.par_clearRegister _ _ _)
macro_rules | `(tactic| par_call) => `(tactic| exact NodeAllocator.par_connect _ _ _ _ _)
macro_rules | `(tactic| par_call) => `(tactic| exact NodeAllocator.par_setRegister _ _ _ _)
macro_rules | `(tactic| par_call) => `(tactic| exact NodeAllocator.par_getRegister _ _ _)
macro_rules | `(tactic| par_call) => `(tactic| exact NodeAllocator.par_getValue _ _)
macro_rules | `(tactic| par_call) => `(tactic| exact NodeAllocator.par_setValue _ _ _)

end Sokoban
