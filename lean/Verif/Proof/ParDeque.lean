import Verif.Proof.Par

/-
Replacing the elements of a deque.
-/
namespace Sokoban

namespace Deque
variable {T T' : Type} {M : Nat} [Par T T']

instance : Par (Deque T M) (Deque T' M) := ⟨fun d => ⟨d.sequenceNumber, d.head, d.tail, Par.map d.allocator⟩⟩

theorem par_new (z : T) : (Par.map (new z : Deque T M) : Deque T' M) = new (Par.map z) :=
  congrArg (Deque.mk 0 SENTINEL SENTINEL) (NodeAllocator.par_new z)

end Deque
attribute [local irreducible] NodeAllocator.get NodeAllocator.put NodeAllocator.initialise NodeAllocator.addNode
  NodeAllocator.removeNode NodeAllocator.clearRegister NodeAllocator.connect NodeAllocator.setRegister
  NodeAllocator.getRegister NodeAllocator.getValue NodeAllocator.setValue

namespace Deque
variable {T T' : Type} {M : Nat} [Par T T']
theorem par_initialise (d : Deque T M) :
    Sim (d.initialise) ((Par.map d : Deque T' M).initialise) := by
  unfold initialise; par
end Deque
macro_rules | `(tactic| par_call) => `(tactic| exact Deque.par_initialise _)
attribute [local irreducible] Deque.initialise

namespace Deque
variable {T T' : Type} {M : Nat} [Par T T']
theorem par_getNode (d : Deque T M) (i : Nat) :
    Sim (d.getNode i) ((Par.map d : Deque T' M).getNode i) := by
  unfold getNode; par
end Deque
macro_rules | `(tactic| par_call) => `(tactic| exact Deque.par_getNode _ _)
attribute [local irreducible] Deque.getNode

namespace Deque
variable {T T' : Type} {M : Nat} [Par T T']
theorem par_front (d : Deque T M) :
    Sim (d.front) ((Par.map d : Deque T' M).front) := by
  unfold front; par
end Deque
macro_rules | `(tactic| par_call) => `(tactic| exact Deque.par_front _)
attribute [local irreducible] Deque.front

namespace Deque
variable {T T' : Type} {M : Nat} [Par T T']
theorem par_back (d : Deque T M) :
    Sim (d.back) ((Par.map d : Deque T' M).back) := by
  unfold back; par
end Deque
macro_rules | `(tactic| par_call) => `(tactic| exact Deque.par_back _)
attribute [local irreducible] Deque.back

namespace Deque
variable {T T' : Type} {M : Nat} [Par T T']
theorem par_getNext (d : Deque T M) (i : Nat) :
    Sim (d.getNext i) ((Par.map d : Deque T' M).getNext i) := by
  unfold getNext; par
end Deque
macro_rules | `(tactic| par_call) => `(tactic| exact Deque.par_getNext _ _)
attribute [local irreducible] Deque.getNext

namespace Deque
variable {T T' : Type} {M : Nat} [Par T T']
theorem par_getPrev (d : Deque T M) (i : Nat) :
    Sim (d.getPrev i) ((Par.map d : Deque T' M).getPrev i) := by
  unfold getPrev; par
end Deque
macro_rules | `(tactic| par_call) => `(tactic| exact Deque.par_getPrev _ _)
attribute [local irreducible] Deque.getPrev

namespace Deque
variable {T T' : Type} {M : Nat} [Par T T']
theorem par_bumpSeq (d : Deque T M) :
    Sim (d.bumpSeq) ((Par.map d : Deque T' M).bumpSeq) := by
  unfold bumpSeq; par
end Deque
macro_rules | `(tactic| par_call) => `(tactic| exact Deque.par_bumpSeq _)
attribute [local irreducible] Deque.bumpSeq

namespace Deque
variable {T T' : Type} {M : Nat} [Par T T']
theorem par_pushBack (d : Deque T M) (v : T) :
    Sim (d.pushBack v) ((Par.map d : Deque T' M).pushBack (Par.map v)) := by
  unfold pushBack
  refine Sim.bind (by first | par_call | fail) ?_
  rintro ⟨a, i⟩
  dsimp only
  by_cases hd : d.head = SENTINEL
  · rw [if_pos hd, if_pos (show (Par.map d : Deque T' M).head = SENTINEL from hd)]; par
  · rw [if_neg hd, if_neg (show ¬ (Par.map d : Deque T' M).head = SENTINEL from hd)]; par
end Deque
macro_rules | `(tactic| par_call) => `(tactic| exact Deque.par_pushBack _ _)
attribute [local irreducible] Deque.pushBack

namespace Deque
variable {T T' : Type} {M : Nat} [Par T T']
theorem par_pushFront (d : Deque T M) (v : T) :
    Sim (d.pushFront v) ((Par.map d : Deque T' M).pushFront (Par.map v)) := by
  unfold pushFront
  refine Sim.bind (by first | par_call | fail) ?_
  rintro ⟨a, i⟩
  dsimp only
  by_cases hd : d.tail = SENTINEL
  · rw [if_pos hd, if_pos (show (Par.map d : Deque T' M).tail = SENTINEL from hd)]; par
  · rw [if_neg hd, if_neg (show ¬ (Par.map d : Deque T' M).tail = SENTINEL from hd)]; par
end Deque
macro_rules | `(tactic| par_call) => `(tactic| exact Deque.par_pushFront _ _)
attribute [local irreducible] Deque.pushFront

namespace Deque
variable {T T' : Type} {M : Nat} [Par T T']
theorem par_remove (d : Deque T M) (i : Nat) :
    Sim (d.remove' i) ((Par.map d : Deque T' M).remove' i) := by
  unfold remove'; par
end Deque
macro_rules | `(tactic| par_call) => `(tactic| exact Deque.par_remove _ _)
attribute [local irreducible] Deque.remove'

namespace Deque
variable {T T' : Type} {M : Nat} [Par T T']
theorem par_popFront (d : Deque T M) :
    Sim (d.popFront) ((Par.map d : Deque T' M).popFront) := by
  unfold popFront; par
end Deque
macro_rules | `(tactic| par_call) => `(tactic| exact Deque.par_popFront _)
attribute [local irreducible] Deque.popFront

namespace Deque
variable {T T' : Type} {M : Nat} [Par T T']
theorem par_popBack (d : Deque T M) :
    Sim (d.popBack) ((Par.map d : Deque T' M).popBack) := by
  unfold popBack; par
end Deque
macro_rules | `(tactic| par_call) => `(tactic| exact Deque.par_popBack _)
attribute [local irreducible] Deque.popBack

namespace Deque
variable {T T' : Type} {M : Nat} [Par T T']
theorem par_Iter_next (d : Deque T M) (it : Iter) :
    Sim (Iter.next d it) (Iter.next (Par.map d : Deque T' M) it) := by
  unfold Iter.next
  par
end Deque
macro_rules | `(tactic| par_call) => `(tactic| exact Deque.par_Iter_next _ _)
attribute [local irreducible] Deque.Iter.next

namespace Deque
variable {T T' : Type} {M : Nat} [Par T T']
theorem par_Iter_nextBack (d : Deque T M) (it : Iter) :
    Sim (Iter.nextBack d it) (Iter.nextBack (Par.map d : Deque T' M) it) := by
  unfold Iter.nextBack
  par
end Deque
macro_rules | `(tactic| par_call) => `(tactic| exact Deque.par_Iter_nextBack _ _)
attribute [local irreducible] Deque.Iter.nextBack

namespace Deque
variable {T T' : Type} {M : Nat} [Par T T']
theorem par_Iter_nextMut (d : Deque T M) (it : Iter) :
    Sim (Iter.nextMut d it) (Iter.nextMut (Par.map d : Deque T' M) it) := by
  unfold Iter.nextMut
  par
end Deque
macro_rules | `(tactic| par_call) => `(tactic| exact Deque.par_Iter_nextMut _ _)
attribute [local irreducible] Deque.Iter.nextMut

namespace Deque
variable {T T' : Type} {M : Nat} [Par T T']
theorem par_Iter_nextBackMut (d : Deque T M) (it : Iter) :
    Sim (Iter.nextBackMut d it) (Iter.nextBackMut (Par.map d : Deque T' M) it) := by
  unfold Iter.nextBackMut
  par
end Deque
macro_rules | `(tactic| par_call) => `(tactic| exact Deque.par_Iter_nextBackMut _ _)
attribute [local irreducible] Deque.Iter.nextBackMut

namespace Deque
variable {T T' : Type} {M : Nat} [Par T T']
theorem par_writeSlot (d : Deque T M) (i : Nat) (v : T) :
    Sim (d.writeSlot i v) ((Par.map d : Deque T' M).writeSlot i (Par.map v)) := by
  unfold writeSlot; par
end Deque
macro_rules | `(tactic| par_call) => `(tactic| exact Deque.par_writeSlot _ _ _)
attribute [local irreducible] Deque.writeSlot

end Sokoban
