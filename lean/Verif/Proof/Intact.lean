import Verif.Proof.Known
import Verif.Proof.Alloc

/-
Slots which are in use although a structure does not reach them.
-/
namespace Sokoban
open NodeAllocator

/-- the slots in use elsewhere are as they were -/
def Known.Intact (kn : Known) {T : Type} {M N : Nat} (a : NodeAllocator T M N) : Prop :=
  ∀ i ∈ kn.lost, (∀ r, a.reg i r = kn.reg i r) ∧ (a.val? i).map (Sigma.mk T) = kn.val i

theorem Known.Intact.of {kn : Known} {T : Type} {M N : Nat} {a a' : NodeAllocator T M N} (h : kn.Intact a)
    (hr : ∀ i ∈ kn.lost, ∀ r, a'.reg i r = a.reg i r) (hv : ∀ i ∈ kn.lost, a'.val? i = a.val? i) : kn.Intact a' :=
  fun i hi => ⟨fun r => by rw [hr i hi]; exact (h i hi).1 r, by rw [hv i hi]; exact (h i hi).2⟩

end Sokoban
