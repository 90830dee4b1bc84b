import Verif.Proof.Post

/-
No function of the AVL tree leaves the Rust types.
-/
namespace Sokoban

namespace AVLTree
variable {K V : Type} {maxSize : Nat} {t : AVLTree K V maxSize}
instance : Rng (AVLTree K V maxSize) := ⟨InRange⟩
theorem ok_mk {r : Nat} {a : NodeAllocator (AVLNode K V) maxSize 4} (hr : Rng.ok r) (ha : Rng.ok a) :
    Rng.ok ({ root := r, allocator := a } : AVLTree K V maxSize) := ⟨hr, ha⟩
theorem ok_root (h : Rng.ok t) : Rng.ok t.root := h.root
theorem ok_allocator (h : Rng.ok t) : Rng.ok t.allocator := h.allocator
theorem safe_balanceFactor {i j : Nat} : Safe (t.balanceFactor i j) := fun _ _ => trivial
theorem safe_getNode {i : Nat} : Safe (t.getNode i) := fun _ _ => trivial
theorem safe_unwrap {o : Option Nat} (h : Rng.ok o) : Safe (unwrap o) := by
  cases o with
  | none => exact Safe.mk_error
  | some x => exact Safe.mk_ok (h _ rfl)
end AVLTree
macro_rules | `(tactic| safe_call) => `(tactic| exact AVLTree.safe_balanceFactor)
macro_rules | `(tactic| safe_call) => `(tactic| exact AVLTree.safe_getNode)
macro_rules | `(tactic| rng_core) => `(tactic| ((with_reducible refine AVLTree.ok_mk ?_ ?_) <;> rng))
macro_rules | `(tactic| rng_core) => `(tactic| ((with_reducible refine AVLTree.ok_root ?_); rng))
macro_rules | `(tactic| rng_core) => `(tactic| ((with_reducible refine AVLTree.ok_allocator ?_); rng))
macro_rules | `(tactic| safe_call) => `(tactic| ((with_reducible refine AVLTree.safe_unwrap ?_); rng))

namespace AVLTree
variable {K V : Type} {maxSize : Nat} {t : AVLTree K V maxSize}
theorem safe_initialise  (h : Rng.ok t) : Safe (t.initialise) := by
  unfold initialise; safe
end AVLTree
macro_rules | `(tactic| safe_call) => `(tactic| ((with_reducible refine AVLTree.safe_initialise ?_); rng))

namespace AVLTree
variable {K V : Type} {maxSize : Nat} {t : AVLTree K V maxSize}
theorem safe_setNodeValue {i : Nat} {v : V} (h : Rng.ok t) : Safe (t.setNodeValue i v) := by
  unfold setNodeValue; safe
end AVLTree
macro_rules | `(tactic| safe_call) => `(tactic| ((with_reducible refine AVLTree.safe_setNodeValue ?_); rng))

namespace AVLTree
variable {K V : Type} {maxSize : Nat} {t : AVLTree K V maxSize}
theorem safe_getField {i j : Nat} (h : Rng.ok t) : Safe (t.getField i j) := by
  unfold getField; safe
end AVLTree
macro_rules | `(tactic| safe_call) => `(tactic| ((with_reducible refine AVLTree.safe_getField ?_); rng))

namespace AVLTree
variable {K V : Type} {maxSize : Nat} {t : AVLTree K V maxSize}
theorem safe_setHeight {i j : Nat} (h : Rng.ok t) (hj : Rng.ok j) : Safe (t.setHeight i j) := by
  unfold setHeight; safe
end AVLTree
macro_rules | `(tactic| safe_call) => `(tactic| ((with_reducible refine AVLTree.safe_setHeight ?_ ?_) <;> rng))

namespace AVLTree
variable {K V : Type} {maxSize : Nat} {t : AVLTree K V maxSize}
theorem safe_updateHeight {i : Nat} (h : Rng.ok t) : Safe (t.updateHeight i) := by
  unfold updateHeight
  refine Safe.bind (by safe) (fun l hl => Safe.bind (by safe) (fun r hr => Safe.bind (α := Nat) ?_ (fun x hx => by safe)))
  refine Safe.mk_ite (fun _ => by safe) (fun _ => ?_)
  refine Safe.bind (by safe) (fun lh hlh => Safe.bind (by safe) (fun rh hrh => ?_))
  refine Safe.mk_ite (fun _ => Safe.throw_bind) (fun hlt => Safe.mk_pure ?_)
  exact Rng.lt (by omega)
end AVLTree
macro_rules | `(tactic| safe_call) => `(tactic| ((with_reducible refine AVLTree.safe_updateHeight ?_); rng))

namespace AVLTree
variable {K V : Type} {maxSize : Nat} {t : AVLTree K V maxSize}
theorem safe_setField {i r j : Nat} (h : Rng.ok t) (hj : Rng.ok j) : Safe (t.setField i r j) := by
  unfold setField; safe
end AVLTree
macro_rules | `(tactic| safe_call) => `(tactic| ((with_reducible refine AVLTree.safe_setField ?_ ?_) <;> rng))

namespace AVLTree
variable {K V : Type} {maxSize : Nat} {t : AVLTree K V maxSize}
theorem safe_leftRotate {i : Nat} (h : Rng.ok t) (hi : Rng.ok i) : Safe (t.leftRotate i) := by
  unfold leftRotate; safe
end AVLTree
macro_rules | `(tactic| safe_call) => `(tactic| ((with_reducible refine AVLTree.safe_leftRotate ?_ ?_) <;> rng))

namespace AVLTree
variable {K V : Type} {maxSize : Nat} {t : AVLTree K V maxSize}
theorem safe_rightRotate {i : Nat} (h : Rng.ok t) (hi : Rng.ok i) : Safe (t.rightRotate i) := by
  unfold rightRotate; safe
end AVLTree
macro_rules | `(tactic| safe_call) => `(tactic| ((with_reducible refine AVLTree.safe_rightRotate ?_ ?_) <;> rng))

namespace AVLTree
variable {K V : Type} {maxSize : Nat} {t : AVLTree K V maxSize}
theorem safe_delete {i : Nat} (h : Rng.ok t) (hi : Rng.ok i) : Safe (t.delete i) := by
  unfold delete; safe
end AVLTree
macro_rules | `(tactic| safe_call) => `(tactic| ((with_reducible refine AVLTree.safe_delete ?_ ?_) <;> rng))

namespace AVLTree
variable {K V : Type} {maxSize : Nat} {t : AVLTree K V maxSize}
theorem safe_rebalanceNode {i : Nat} (h : Rng.ok t) (hi : Rng.ok i) : Safe (t.rebalanceNode i) := by
  unfold rebalanceNode; safe
end AVLTree
macro_rules | `(tactic| safe_call) => `(tactic| ((with_reducible refine AVLTree.safe_rebalanceNode ?_ ?_) <;> rng))

namespace AVLTree
variable {K V : Type} {maxSize : Nat} {t : AVLTree K V maxSize}
theorem safe_rebalance {path : List Ancestor} (h : Rng.ok t) (hpath : Rng.ok path) : Safe (t.rebalance path) := by
  induction path generalizing t with
  | nil => exact Safe.mk_ok h
  | cons e path ih =>
    obtain ⟨parent, branch, child⟩ := e
    have he := hpath _ (List.mem_cons_self ..)
    have hp : Rng.ok parent := he.1
    have hb : Rng.ok branch := he.2.1
    have hc : Rng.ok child := he.2.2
    have hl : Rng.ok path := fun x hx => hpath x (List.mem_cons_of_mem _ hx)
    unfold rebalance
    refine Safe.bind2 (by safe) (fun t1 index ht hi => ?_)
    refine Safe.bind (α := AVLTree K V maxSize) ?_ (fun t2 ht2 => ih ht2 hl)
    cases index with
    | none => safe
    | some index =>
      have hi' : Rng.ok index := hi _ rfl
      cases parent with
      | none => safe
      | some parent => safe
end AVLTree
macro_rules | `(tactic| safe_call) => `(tactic| ((with_reducible refine AVLTree.safe_rebalance ?_ ?_) <;> rng))

namespace AVLTree
variable {K V : Type} {maxSize : Nat} {t : AVLTree K V maxSize}
theorem safe_insertLoop [LT K] [DecidableLT K] [PartialGt K] {k : K} {v : V} {fuel i : Nat} {path : List Ancestor} (h : Rng.ok t) (hi : Rng.ok i) (hpath : Rng.ok path) : Safe (t.insertLoop k v fuel i path) := by
  induction fuel generalizing i path with
  | zero => exact Safe.mk_error
  | succ fuel ih =>
    unfold insertLoop
    repeat' first | (exact ih (by rng) (by rng)) | safe_step
end AVLTree
macro_rules | `(tactic| safe_call) => `(tactic| ((with_reducible refine AVLTree.safe_insertLoop ?_ ?_ ?_) <;> rng))

namespace AVLTree
variable {K V : Type} {maxSize : Nat} {t : AVLTree K V maxSize}
theorem safe_insert [LT K] [DecidableLT K] [PartialGt K] {k : K} {v : V} (h : Rng.ok t) : Safe (t.insert k v) := by
  unfold insert; safe
end AVLTree
macro_rules | `(tactic| safe_call) => `(tactic| ((with_reducible refine AVLTree.safe_insert ?_); rng))

namespace AVLTree
variable {K V : Type} {maxSize : Nat} {t : AVLTree K V maxSize}
theorem safe_removePath [LT K] [DecidableLT K] [PartialGt K] {k : K} {fuel i : Nat} {path : List Ancestor} (h : Rng.ok t) (hi : Rng.ok i) (hpath : Rng.ok path) : Safe (t.removePath k fuel i path) := by
  induction fuel generalizing i path with
  | zero => exact Safe.mk_error
  | succ fuel ih =>
    unfold removePath
    repeat' first | (exact ih (by rng) (by rng)) | safe_step
end AVLTree
macro_rules | `(tactic| safe_call) => `(tactic| ((with_reducible refine AVLTree.safe_removePath ?_ ?_ ?_) <;> rng))

namespace AVLTree
variable {K V : Type} {maxSize : Nat} {t : AVLTree K V maxSize}
theorem safe_leftmostLoop {fuel i j : Nat} {path : List Ancestor} (h : Rng.ok t) (hi : Rng.ok i) (hj : Rng.ok j) (hpath : Rng.ok path) : Safe (t.leftmostLoop fuel i j path) := by
  induction fuel generalizing i j path with
  | zero => exact Safe.mk_error
  | succ fuel ih =>
    unfold leftmostLoop
    repeat' first | (exact ih (by rng) (by rng) (by rng)) | safe_step
end AVLTree
macro_rules | `(tactic| safe_call) => `(tactic| ((with_reducible refine AVLTree.safe_leftmostLoop ?_ ?_ ?_ ?_) <;> rng))

namespace AVLTree
theorem safe_popPath {path : List Ancestor} (h : Rng.ok path) : Safe (popPath path) := by
  cases path with
  | nil => exact Safe.mk_error
  | cons e path => exact Safe.mk_ok ⟨h _ (List.mem_cons_self ..), fun x hx => h x (List.mem_cons_of_mem _ hx)⟩
end AVLTree

namespace AVLTree
variable {K V : Type} {maxSize : Nat} {t : AVLTree K V maxSize}
theorem safe_removeTwo {i j : Nat} {path : List Ancestor} (h : Rng.ok t) (hi : Rng.ok i) (hj : Rng.ok j) (hpath : Rng.ok path) : Safe (t.removeTwo i j path) := by
  unfold removeTwo
  refine Safe.bind3 (by safe) (fun leftmost lp inner h1 h2 h3 => ?_)
  dsimp only
  refine Safe.bind (α := AVLTree K V maxSize) (by safe) (fun t1 ht1 => ?_)
  refine Safe.bind (by safe) (fun t2 ht2 => ?_)
  refine Safe.bind (α := AVLTree K V maxSize) (by safe) (fun t3 ht3 => ?_)
  refine Safe.bind (α := Ancestor × List Ancestor) (safe_popPath hpath) (fun e he => ?_)
  obtain ⟨⟨parent, branch, c⟩, path'⟩ := e
  have hb : Rng.ok branch := he.1.2.1
  have hl : Rng.ok path' := he.2
  dsimp only
  refine Safe.bind (α := AVLTree K V maxSize) ?_ (fun t4 ht4 => ?_)
  · cases parent with
    | none => safe
    | some parent => safe
  · have hp : Rng.ok parent := he.1.1
    refine Safe.mk_pure ?_
    rng
end AVLTree
macro_rules | `(tactic| safe_call) => `(tactic| ((with_reducible refine AVLTree.safe_removeTwo ?_ ?_ ?_ ?_) <;> rng))

namespace AVLTree
variable {K V : Type} {maxSize : Nat} {t : AVLTree K V maxSize}
theorem safe_removeOne {i j : Nat} {path : List Ancestor} (h : Rng.ok t) (hi : Rng.ok i) (hj : Rng.ok j) (hpath : Rng.ok path) : Safe (t.removeOne i j path) := by
  unfold removeOne
  dsimp only
  refine Safe.bind (α := Ancestor × List Ancestor) (safe_popPath hpath) (fun e he => ?_)
  obtain ⟨⟨parent, branch, c⟩, path'⟩ := e
  have hb : Rng.ok branch := he.1.2.1
  have hl : Rng.ok path' := he.2
  dsimp only
  cases parent with
  | none => safe
  | some parent =>
    have hp : Rng.ok parent := he.1.1 _ rfl
    dsimp only
    safe
end AVLTree
macro_rules | `(tactic| safe_call) => `(tactic| ((with_reducible refine AVLTree.safe_removeOne ?_ ?_ ?_ ?_) <;> rng))

namespace AVLTree
variable {K V : Type} {maxSize : Nat} {t : AVLTree K V maxSize}
theorem safe_removeNode {i : Nat} {path : List Ancestor} (h : Rng.ok t) (hi : Rng.ok i) (hpath : Rng.ok path) : Safe (t.removeNode i path) := by
  unfold removeNode
  refine Safe.bind safe_getNode (fun n _ => ?_)
  refine Safe.bind (by safe) (fun l hl => Safe.bind (by safe) (fun r hr => ?_))
  refine Safe.bind3 (by safe) (fun t1 p1 rep ht1 hp1 hrep => ?_)
  dsimp only
  split <;> safe
end AVLTree
macro_rules | `(tactic| safe_call) => `(tactic| ((with_reducible refine AVLTree.safe_removeNode ?_ ?_ ?_) <;> rng))

namespace AVLTree
variable {K V : Type} {maxSize : Nat} {t : AVLTree K V maxSize}
theorem safe_remove [LT K] [DecidableLT K] [PartialGt K] {k : K} (h : Rng.ok t) : Safe (t.remove k) := by
  unfold remove; safe
end AVLTree
macro_rules | `(tactic| safe_call) => `(tactic| ((with_reducible refine AVLTree.safe_remove ?_); rng))

end Sokoban
