import Verif.Proof.Post

/-
No function of the critbit tree leaves the Rust types.
-/
namespace Sokoban

instance : Rng CritbitNode := ⟨fun n => n.prefixLen < 2 ^ 64⟩
namespace Critbit
variable {V : Type} {numNodes maxSize : Nat} {t : Critbit V numNodes maxSize}
instance : Rng (Critbit V numNodes maxSize) := ⟨InRange⟩
theorem ok_mk {r : Nat} {a : NodeAllocator CritbitNode numNodes 4} {l : NodeAllocator V maxSize 4} (hr : Rng.ok r)
    (ha : Rng.ok a) (hl : Rng.ok l) :
    Rng.ok ({ root := r, nodeAllocator := a, leaves := l } : Critbit V numNodes maxSize) := ⟨hr, ha, hl⟩
theorem ok_root (h : Rng.ok t) : Rng.ok t.root := h.root
theorem ok_nodeAllocator (h : Rng.ok t) : Rng.ok t.nodeAllocator := h.nodeAllocator
theorem ok_leaves (h : Rng.ok t) : Rng.ok t.leaves := h.leaves
theorem leadingZeros_lt {x : BitVec 128} : leadingZeros x < 2 ^ 64 := by
  have : leadingZeros x ≤ (List.range 128).length := List.findIdx_le_length
  simp at this
  omega
theorem ok_node {k : BitVec 128} : Rng.ok (CritbitNode.mk k 128) := by show 128 < _; decide
theorem ok_node' {k x : BitVec 128} : Rng.ok (CritbitNode.mk k (leadingZeros x)) := leadingZeros_lt
end Critbit
macro_rules | `(tactic| rng_core) => `(tactic| exact Critbit.ok_node)
macro_rules | `(tactic| rng_core) => `(tactic| exact Critbit.ok_node')
macro_rules | `(tactic| rng_core) => `(tactic| ((with_reducible refine Critbit.ok_mk ?_ ?_ ?_) <;> rng))
macro_rules | `(tactic| rng_core) => `(tactic| ((with_reducible refine Critbit.ok_root ?_); rng))
macro_rules | `(tactic| rng_core) => `(tactic| ((with_reducible refine Critbit.ok_nodeAllocator ?_); rng))
macro_rules | `(tactic| rng_core) => `(tactic| ((with_reducible refine Critbit.ok_leaves ?_); rng))

namespace Critbit
variable {V : Type} {numNodes maxSize : Nat} {t : Critbit V numNodes maxSize}
theorem safe_initialise  (h : Rng.ok t) : Safe (t.initialise) := by
  unfold initialise; safe
end Critbit
macro_rules | `(tactic| safe_call) => `(tactic| ((with_reducible refine Critbit.safe_initialise ?_); rng))

namespace Critbit
variable {V : Type} {numNodes maxSize : Nat} {t : Critbit V numNodes maxSize}
theorem safe_newFromSlice  (h : Rng.ok t) : Safe (t.newFromSlice) := by
  unfold newFromSlice; safe
end Critbit
macro_rules | `(tactic| safe_call) => `(tactic| ((with_reducible refine Critbit.safe_newFromSlice ?_); rng))

namespace Critbit
variable {V : Type} {numNodes maxSize : Nat} {t : Critbit V numNodes maxSize}
theorem safe_getLeaf {i : Nat} (h : Rng.ok t) : Safe (t.getLeaf i) := by
  unfold getLeaf; safe
end Critbit
macro_rules | `(tactic| safe_call) => `(tactic| ((with_reducible refine Critbit.safe_getLeaf ?_); rng))

namespace Critbit
variable {V : Type} {numNodes maxSize : Nat} {t : Critbit V numNodes maxSize}
theorem safe_replaceLeaf {i : Nat} {v : V} (h : Rng.ok t) : Safe (t.replaceLeaf i v) := by
  unfold replaceLeaf; safe
end Critbit
macro_rules | `(tactic| safe_call) => `(tactic| ((with_reducible refine Critbit.safe_replaceLeaf ?_); rng))

namespace Critbit
variable {V : Type} {numNodes maxSize : Nat} {t : Critbit V numNodes maxSize}
theorem safe_getLeafIndex {i : Nat} (h : Rng.ok t) : Safe (t.getLeafIndex i) := by
  unfold getLeafIndex; safe
end Critbit
macro_rules | `(tactic| safe_call) => `(tactic| ((with_reducible refine Critbit.safe_getLeafIndex ?_); rng))

namespace Critbit
variable {V : Type} {numNodes maxSize : Nat} {t : Critbit V numNodes maxSize}
theorem safe_getNode {i : Nat} (h : Rng.ok t) : Safe (t.getNode i) := by
  unfold getNode; safe
end Critbit
macro_rules | `(tactic| safe_call) => `(tactic| ((with_reducible refine Critbit.safe_getNode ?_); rng))

namespace Critbit
variable {V : Type} {numNodes maxSize : Nat} {t : Critbit V numNodes maxSize}
theorem safe_getLeft {i : Nat} (h : Rng.ok t) : Safe (t.getLeft i) := by
  unfold getLeft; safe
end Critbit
macro_rules | `(tactic| safe_call) => `(tactic| ((with_reducible refine Critbit.safe_getLeft ?_); rng))

namespace Critbit
variable {V : Type} {numNodes maxSize : Nat} {t : Critbit V numNodes maxSize}
theorem safe_getRight {i : Nat} (h : Rng.ok t) : Safe (t.getRight i) := by
  unfold getRight; safe
end Critbit
macro_rules | `(tactic| safe_call) => `(tactic| ((with_reducible refine Critbit.safe_getRight ?_); rng))

namespace Critbit
variable {V : Type} {numNodes maxSize : Nat} {t : Critbit V numNodes maxSize}
theorem safe_getParent {i : Nat} (h : Rng.ok t) : Safe (t.getParent i) := by
  unfold getParent; safe
end Critbit
macro_rules | `(tactic| safe_call) => `(tactic| ((with_reducible refine Critbit.safe_getParent ?_); rng))

namespace Critbit
variable {V : Type} {numNodes maxSize : Nat} {t : Critbit V numNodes maxSize}
theorem safe_addLeaf {k : BitVec 128} {v : V} (h : Rng.ok t) : Safe (t.addLeaf k v) := by
  unfold addLeaf; safe
end Critbit
macro_rules | `(tactic| safe_call) => `(tactic| ((with_reducible refine Critbit.safe_addLeaf ?_); rng))

namespace Critbit
variable {V : Type} {numNodes maxSize : Nat} {t : Critbit V numNodes maxSize}
theorem safe_getChild {p i : Nat} {k : BitVec 128} (h : Rng.ok t) : Safe (t.getChild p i k) := by
  unfold getChild
  refine Safe.bind (α := BitVec 128) (fun _ _ => trivial) (fun _ _ => ?_)
  safe
end Critbit
macro_rules | `(tactic| safe_call) => `(tactic| ((with_reducible refine Critbit.safe_getChild ?_); rng))

namespace Critbit
variable {V : Type} {numNodes maxSize : Nat} {t : Critbit V numNodes maxSize}
theorem safe_duplicate {i : Nat} (h : Rng.ok t) : Safe (t.duplicate i) := by
  unfold duplicate; safe
end Critbit
macro_rules | `(tactic| safe_call) => `(tactic| ((with_reducible refine Critbit.safe_duplicate ?_); rng))

namespace Critbit
variable {V : Type} {numNodes maxSize : Nat} {t : Critbit V numNodes maxSize}
theorem safe_replaceNode {i j l : Nat} {n : CritbitNode} (h : Rng.ok t) (hi : Rng.ok i) (hj : Rng.ok j) (hl : Rng.ok l) (hn : Rng.ok n) : Safe (t.replaceNode i n j l) := by
  unfold replaceNode; safe
end Critbit
macro_rules | `(tactic| safe_call) => `(tactic| ((with_reducible refine Critbit.safe_replaceNode ?_ ?_ ?_ ?_ ?_) <;> rng))

namespace Critbit
variable {V : Type} {numNodes maxSize : Nat} {t : Critbit V numNodes maxSize}
theorem safe_migrateLeaf {i j : Nat} (h : Rng.ok t) : Safe (t.migrateLeaf i j) := by
  unfold migrateLeaf; safe
end Critbit
macro_rules | `(tactic| safe_call) => `(tactic| ((with_reducible refine Critbit.safe_migrateLeaf ?_); rng))

namespace Critbit
variable {V : Type} {numNodes maxSize : Nat} {t : Critbit V numNodes maxSize}
theorem safe_migrate {i j : Nat} (h : Rng.ok t) (hi : Rng.ok i) (hj : Rng.ok j) : Safe (t.migrate i j) := by
  unfold migrate; safe
end Critbit
macro_rules | `(tactic| safe_call) => `(tactic| ((with_reducible refine Critbit.safe_migrate ?_ ?_ ?_) <;> rng))

namespace Critbit
variable {V : Type} {numNodes maxSize : Nat} {t : Critbit V numNodes maxSize}
theorem safe_removeLeaf {i : Nat} (h : Rng.ok t) (hi : Rng.ok i) : Safe (t.removeLeaf i) := by
  unfold removeLeaf; safe
end Critbit
macro_rules | `(tactic| safe_call) => `(tactic| ((with_reducible refine Critbit.safe_removeLeaf ?_ ?_) <;> rng))

namespace Critbit
variable {V : Type} {numNodes maxSize : Nat} {t : Critbit V numNodes maxSize}
theorem safe_insertSplit {k x : BitVec 128} {v : V} {i : Nat} (h : Rng.ok t) (hi : Rng.ok i) : Safe (t.insertSplit k v i (leadingZeros x)) := by
  unfold insertSplit
  refine Safe.bind (α := BitVec 128) (fun _ _ => trivial) (fun _ _ => ?_)
  safe
end Critbit
macro_rules | `(tactic| safe_call) => `(tactic| ((with_reducible refine Critbit.safe_insertSplit ?_ ?_) <;> rng))

namespace Critbit
variable {V : Type} {numNodes maxSize : Nat} {t : Critbit V numNodes maxSize}
theorem safe_insertLoop {k : BitVec 128} {v : V} {fuel i : Nat} (h : Rng.ok t) (hi : Rng.ok i) : Safe (t.insertLoop k v fuel i) := by
  induction fuel generalizing i with
  | zero => exact Safe.mk_error
  | succ fuel ih =>
    unfold insertLoop
    repeat' first | (exact ih (by rng)) | safe_step
end Critbit
macro_rules | `(tactic| safe_call) => `(tactic| ((with_reducible refine Critbit.safe_insertLoop ?_ ?_) <;> rng))

namespace Critbit
variable {V : Type} {numNodes maxSize : Nat} {t : Critbit V numNodes maxSize}
theorem safe_insert {k : BitVec 128} {v : V} (h : Rng.ok t) : Safe (t.insert k v) := by
  unfold insert; safe
end Critbit
macro_rules | `(tactic| safe_call) => `(tactic| ((with_reducible refine Critbit.safe_insert ?_); rng))

namespace Critbit
variable {V : Type} {numNodes maxSize : Nat} {t : Critbit V numNodes maxSize}
theorem safe_removeLoop {k : BitVec 128} {fuel i j : Nat} {d : Bool} (h : Rng.ok t) (hi : Rng.ok i) (hj : Rng.ok j) : Safe (t.removeLoop k fuel i j d) := by
  induction fuel generalizing i j d with
  | zero => exact Safe.mk_error
  | succ fuel ih =>
    unfold removeLoop
    repeat' first | (exact ih (by rng) (by rng)) | safe_step
end Critbit
macro_rules | `(tactic| safe_call) => `(tactic| ((with_reducible refine Critbit.safe_removeLoop ?_ ?_ ?_) <;> rng))

namespace Critbit
variable {V : Type} {numNodes maxSize : Nat} {t : Critbit V numNodes maxSize}
theorem safe_removeAt {i j : Nat} {d : Bool} (h : Rng.ok t) (hi : Rng.ok i) (hj : Rng.ok j) : Safe (t.removeAt i j d) := by
  unfold removeAt; safe
end Critbit
macro_rules | `(tactic| safe_call) => `(tactic| ((with_reducible refine Critbit.safe_removeAt ?_ ?_ ?_) <;> rng))

namespace Critbit
variable {V : Type} {numNodes maxSize : Nat} {t : Critbit V numNodes maxSize}
theorem safe_remove {k : BitVec 128} (h : Rng.ok t) : Safe (t.remove k) := by
  unfold remove
  dsimp only
  refine Safe.mk_ite (fun _ => by safe) (fun _ => Safe.bind Safe.bool (fun _ _ => ?_))
  refine Safe.mk_ite (fun _ => ?_) (fun _ => by safe)
  refine Safe.bind (by safe_call) (fun n hn => ?_)
  refine Safe.bind2 (by safe_call) (fun c d hc hd => ?_)
  refine Safe.bind (by safe_call) (fun r hr => ?_)
  rcases r with _ | ⟨p, c', d'⟩
  · safe
  · have hp : Rng.ok p := (hr _ rfl).1
    have hc' : Rng.ok c' := (hr _ rfl).2.1
    safe
end Critbit
macro_rules | `(tactic| safe_call) => `(tactic| ((with_reducible refine Critbit.safe_remove ?_); rng))

end Sokoban
