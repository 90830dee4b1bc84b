import Verif.Proof.Post

/-
No function of the red-black tree leaves the Rust types.
-/
namespace Sokoban

namespace RedBlackTree
variable {K V : Type} {maxSize : Nat} {t : RedBlackTree K V maxSize}
instance : Rng (RedBlackTree K V maxSize) := ⟨InRange⟩
theorem ok_mk {r : Nat} {a : NodeAllocator (RBNode K V) maxSize 4} (hr : Rng.ok r) (ha : Rng.ok a) :
    Rng.ok ({ root := r, allocator := a } : RedBlackTree K V maxSize) := ⟨hr, ha⟩
theorem ok_root (h : Rng.ok t) : Rng.ok t.root := h.root
theorem ok_allocator (h : Rng.ok t) : Rng.ok t.allocator := h.allocator
end RedBlackTree
macro_rules | `(tactic| rng_core) => `(tactic| ((with_reducible refine RedBlackTree.ok_mk ?_ ?_) <;> rng))
macro_rules | `(tactic| rng_core) => `(tactic| ((with_reducible refine RedBlackTree.ok_root ?_); rng))
macro_rules | `(tactic| rng_core) => `(tactic| ((with_reducible refine RedBlackTree.ok_allocator ?_); rng))

namespace RedBlackTree
variable {K V : Type} {maxSize : Nat} {t : RedBlackTree K V maxSize}
theorem safe_initialise  (h : Rng.ok t)  : Safe (t.initialise) := by
  unfold initialise; safe
end RedBlackTree
macro_rules | `(tactic| safe_call) => `(tactic| ((with_reducible refine RedBlackTree.safe_initialise ?_); rng))

namespace RedBlackTree
variable {K V : Type} {maxSize : Nat} {t : RedBlackTree K V maxSize}
theorem safe_setNodeValue {i : Nat} {v : V} (h : Rng.ok t)  : Safe (t.setNodeValue i v) := by
  unfold setNodeValue; safe
end RedBlackTree
macro_rules | `(tactic| safe_call) => `(tactic| ((with_reducible refine RedBlackTree.safe_setNodeValue ?_); rng))

namespace RedBlackTree
variable {K V : Type} {maxSize : Nat} {t : RedBlackTree K V maxSize}
theorem safe_colorRed {i : Nat} (h : Rng.ok t)  : Safe (t.colorRed i) := by
  unfold colorRed; safe
end RedBlackTree
macro_rules | `(tactic| safe_call) => `(tactic| ((with_reducible refine RedBlackTree.safe_colorRed ?_); rng))

namespace RedBlackTree
variable {K V : Type} {maxSize : Nat} {t : RedBlackTree K V maxSize}
theorem safe_colorBlack {i : Nat} (h : Rng.ok t)  : Safe (t.colorBlack i) := by
  unfold colorBlack; safe
end RedBlackTree
macro_rules | `(tactic| safe_call) => `(tactic| ((with_reducible refine RedBlackTree.safe_colorBlack ?_); rng))

namespace RedBlackTree
variable {K V : Type} {maxSize : Nat} {t : RedBlackTree K V maxSize}
theorem safe_colorNode {i c : Nat} (h : Rng.ok t) (hc : Rng.ok c) : Safe (t.colorNode i c) := by
  unfold colorNode; safe
end RedBlackTree
macro_rules | `(tactic| safe_call) => `(tactic| ((with_reducible refine RedBlackTree.safe_colorNode ?_ ?_) <;> rng))

namespace RedBlackTree
variable {K V : Type} {maxSize : Nat} {t : RedBlackTree K V maxSize}
theorem safe_getLeft {i : Nat} (h : Rng.ok t)  : Safe (t.getLeft i) := by
  unfold getLeft; safe
end RedBlackTree
macro_rules | `(tactic| safe_call) => `(tactic| ((with_reducible refine RedBlackTree.safe_getLeft ?_); rng))

namespace RedBlackTree
variable {K V : Type} {maxSize : Nat} {t : RedBlackTree K V maxSize}
theorem safe_getRight {i : Nat} (h : Rng.ok t)  : Safe (t.getRight i) := by
  unfold getRight; safe
end RedBlackTree
macro_rules | `(tactic| safe_call) => `(tactic| ((with_reducible refine RedBlackTree.safe_getRight ?_); rng))

namespace RedBlackTree
variable {K V : Type} {maxSize : Nat} {t : RedBlackTree K V maxSize}
theorem safe_getColor {i : Nat} (h : Rng.ok t)  : Safe (t.getColor i) := by
  unfold getColor; safe
end RedBlackTree
macro_rules | `(tactic| safe_call) => `(tactic| ((with_reducible refine RedBlackTree.safe_getColor ?_); rng))

namespace RedBlackTree
variable {K V : Type} {maxSize : Nat} {t : RedBlackTree K V maxSize}
theorem safe_getParent {i : Nat} (h : Rng.ok t)  : Safe (t.getParent i) := by
  unfold getParent; safe
end RedBlackTree
macro_rules | `(tactic| safe_call) => `(tactic| ((with_reducible refine RedBlackTree.safe_getParent ?_); rng))

namespace RedBlackTree
variable {K V : Type} {maxSize : Nat} {t : RedBlackTree K V maxSize}
theorem safe_getChild {i d : Nat} (h : Rng.ok t)  : Safe (t.getChild i d) := by
  unfold getChild; safe
end RedBlackTree
macro_rules | `(tactic| safe_call) => `(tactic| ((with_reducible refine RedBlackTree.safe_getChild ?_); rng))

namespace RedBlackTree
variable {K V : Type} {maxSize : Nat} {t : RedBlackTree K V maxSize}
theorem safe_getDir {i d : Nat} (h : Rng.ok t)  : Safe (t.getDir i d) := by
  unfold getDir; safe
end RedBlackTree
macro_rules | `(tactic| safe_call) => `(tactic| ((with_reducible refine RedBlackTree.safe_getDir ?_); rng))

namespace RedBlackTree
variable {K V : Type} {maxSize : Nat} {t : RedBlackTree K V maxSize}
theorem safe_removeAllocatorNode {i : Nat} (h : Rng.ok t) (hi : Rng.ok i) : Safe (t.removeAllocatorNode i) := by
  unfold removeAllocatorNode; safe
end RedBlackTree
macro_rules | `(tactic| safe_call) => `(tactic| ((with_reducible refine RedBlackTree.safe_removeAllocatorNode ?_ ?_) <;> rng))

namespace RedBlackTree
variable {K V : Type} {maxSize : Nat} {t : RedBlackTree K V maxSize}
theorem safe_connect {i j d : Nat} (h : Rng.ok t) (hi : Rng.ok i) (hj : Rng.ok j) : Safe (t.connect i j d) := by
  unfold connect; safe
end RedBlackTree
macro_rules | `(tactic| safe_call) => `(tactic| ((with_reducible refine RedBlackTree.safe_connect ?_ ?_ ?_) <;> rng))

namespace RedBlackTree
variable {K V : Type} {maxSize : Nat} {t : RedBlackTree K V maxSize}
theorem safe_childDir {i j : Nat} (h : Rng.ok t)  : Safe (t.childDir i j) := by
  unfold childDir; safe
end RedBlackTree
macro_rules | `(tactic| safe_call) => `(tactic| ((with_reducible refine RedBlackTree.safe_childDir ?_); rng))

namespace RedBlackTree
variable {K V : Type} {maxSize : Nat} {t : RedBlackTree K V maxSize}
theorem safe_rotateDir {i d : Nat} (h : Rng.ok t) (hi : Rng.ok i) : Safe (t.rotateDir i d) := by
  unfold rotateDir; safe
end RedBlackTree
macro_rules | `(tactic| safe_call) => `(tactic| ((with_reducible refine RedBlackTree.safe_rotateDir ?_ ?_) <;> rng))

namespace RedBlackTree
variable {K V : Type} {maxSize : Nat} {t : RedBlackTree K V maxSize}
theorem safe_fixInsertLoop {fuel i : Nat} (h : Rng.ok t) (hi : Rng.ok i) : Safe (t.fixInsertLoop fuel i) := by
  induction fuel generalizing t i with
  | zero => exact Safe.mk_error
  | succ fuel ih =>
    unfold fixInsertLoop
    repeat' first | (exact ih (by rng) (by rng)) | safe_step
end RedBlackTree
macro_rules | `(tactic| safe_call) => `(tactic| ((with_reducible refine RedBlackTree.safe_fixInsertLoop ?_ ?_) <;> rng))

namespace RedBlackTree
variable {K V : Type} {maxSize : Nat} {t : RedBlackTree K V maxSize}
theorem safe_fixInsert {i : Nat} (h : Rng.ok t) (hi : Rng.ok i) : Safe (t.fixInsert i) := by
  unfold fixInsert; safe
end RedBlackTree
macro_rules | `(tactic| safe_call) => `(tactic| ((with_reducible refine RedBlackTree.safe_fixInsert ?_ ?_) <;> rng))

namespace RedBlackTree
variable {K V : Type} {maxSize : Nat} {t : RedBlackTree K V maxSize}
theorem safe_insertLoop [Ord K] {k : K} {v : V} {fuel i : Nat} (h : Rng.ok t) (hi : Rng.ok i) : Safe (t.insertLoop k v fuel i) := by
  induction fuel generalizing i with
  | zero => exact Safe.mk_error
  | succ fuel ih =>
    unfold insertLoop
    repeat' first | (exact ih (by rng)) | safe_step
end RedBlackTree
macro_rules | `(tactic| safe_call) => `(tactic| ((with_reducible refine RedBlackTree.safe_insertLoop ?_ ?_) <;> rng))

namespace RedBlackTree
variable {K V : Type} {maxSize : Nat} {t : RedBlackTree K V maxSize}
theorem safe_insert [Ord K] {k : K} {v : V} (h : Rng.ok t)  : Safe (t.insert k v) := by
  unfold insert; safe
end RedBlackTree
macro_rules | `(tactic| safe_call) => `(tactic| ((with_reducible refine RedBlackTree.safe_insert ?_); rng))

namespace RedBlackTree
variable {K V : Type} {maxSize : Nat} {t : RedBlackTree K V maxSize}
theorem safe_transplant {i j : Nat} (h : Rng.ok t) (hj : Rng.ok j) : Safe (t.transplant i j) := by
  unfold transplant; safe
end RedBlackTree
macro_rules | `(tactic| safe_call) => `(tactic| ((with_reducible refine RedBlackTree.safe_transplant ?_ ?_) <;> rng))

namespace RedBlackTree
variable {K V : Type} {maxSize : Nat} {t : RedBlackTree K V maxSize}
theorem safe_findMin {fuel i : Nat} (h : Rng.ok t) (hi : Rng.ok i) : Safe (t.findMin fuel i) := by
  induction fuel generalizing i with
  | zero => exact Safe.mk_error
  | succ fuel ih =>
    unfold findMin
    repeat' first | (exact ih (by rng)) | safe_step
end RedBlackTree
macro_rules | `(tactic| safe_call) => `(tactic| ((with_reducible refine RedBlackTree.safe_findMin ?_ ?_) <;> rng))

namespace RedBlackTree
variable {K V : Type} {maxSize : Nat} {t : RedBlackTree K V maxSize}
theorem safe_findMax {fuel i : Nat} (h : Rng.ok t) (hi : Rng.ok i) : Safe (t.findMax fuel i) := by
  induction fuel generalizing i with
  | zero => exact Safe.mk_error
  | succ fuel ih =>
    unfold findMax
    repeat' first | (exact ih (by rng)) | safe_step
end RedBlackTree
macro_rules | `(tactic| safe_call) => `(tactic| ((with_reducible refine RedBlackTree.safe_findMax ?_ ?_) <;> rng))

namespace RedBlackTree
variable {K V : Type} {maxSize : Nat} {t : RedBlackTree K V maxSize}
theorem safe_fixRemoveLoop {fuel i d : Nat} (h : Rng.ok t) (hi : Rng.ok i) : Safe (t.fixRemoveLoop fuel i d) := by
  induction fuel generalizing t i d with
  | zero => exact Safe.mk_error
  | succ fuel ih =>
    unfold fixRemoveLoop
    repeat' first | (exact ih (by rng) (by rng)) | safe_step
end RedBlackTree
macro_rules | `(tactic| safe_call) => `(tactic| ((with_reducible refine RedBlackTree.safe_fixRemoveLoop ?_ ?_) <;> rng))

namespace RedBlackTree
variable {K V : Type} {maxSize : Nat} {t : RedBlackTree K V maxSize}
theorem safe_fixRemove {i : Nat} {o : Option (Nat × Nat)} (h : Rng.ok t) (ho : Rng.ok o) : Safe (t.fixRemove i o) := by
  unfold fixRemove
  rcases o with _ | ⟨p, d⟩
  · safe
  · have hp := (ho _ rfl).1
    safe
end RedBlackTree
macro_rules | `(tactic| safe_call) => `(tactic| ((with_reducible refine RedBlackTree.safe_fixRemove ?_ ?_) <;> rng))

namespace RedBlackTree
variable {K V : Type} {maxSize : Nat} {t : RedBlackTree K V maxSize}
theorem safe_removeTwoChildren {i j : Nat} (h : Rng.ok t) (hj : Rng.ok j) : Safe (t.removeTwoChildren i j) := by
  unfold removeTwoChildren; safe
end RedBlackTree
macro_rules | `(tactic| safe_call) => `(tactic| ((with_reducible refine RedBlackTree.safe_removeTwoChildren ?_ ?_) <;> rng))

namespace RedBlackTree
variable {K V : Type} {maxSize : Nat} {t : RedBlackTree K V maxSize}
theorem safe_removeTreeNode {i : Nat} (h : Rng.ok t) (hi : Rng.ok i) : Safe (t.removeTreeNode i) := by
  unfold removeTreeNode; safe
end RedBlackTree
macro_rules | `(tactic| safe_call) => `(tactic| ((with_reducible refine RedBlackTree.safe_removeTreeNode ?_ ?_) <;> rng))

namespace RedBlackTree
variable {K V : Type} {maxSize : Nat} {t : RedBlackTree K V maxSize}
theorem safe_removeLoop [Ord K] {k : K} {fuel i : Nat} (h : Rng.ok t) (hi : Rng.ok i) : Safe (t.removeLoop k fuel i) := by
  induction fuel generalizing i with
  | zero => exact Safe.mk_error
  | succ fuel ih =>
    unfold removeLoop
    repeat' first | (exact ih (by rng)) | safe_step
end RedBlackTree
macro_rules | `(tactic| safe_call) => `(tactic| ((with_reducible refine RedBlackTree.safe_removeLoop ?_ ?_) <;> rng))

namespace RedBlackTree
variable {K V : Type} {maxSize : Nat} {t : RedBlackTree K V maxSize}
theorem safe_remove [Ord K] {k : K} (h : Rng.ok t)  : Safe (t.remove k) := by
  unfold remove; safe
end RedBlackTree
macro_rules | `(tactic| safe_call) => `(tactic| ((with_reducible refine RedBlackTree.safe_remove ?_); rng))

namespace RedBlackTree
variable {K V : Type} {maxSize : Nat} {t : RedBlackTree K V maxSize}
theorem safe_removeRoot  (h : Rng.ok t)  : Safe (t.removeRoot) := by
  unfold removeRoot; safe
end RedBlackTree
macro_rules | `(tactic| safe_call) => `(tactic| ((with_reducible refine RedBlackTree.safe_removeRoot ?_); rng))

end Sokoban
