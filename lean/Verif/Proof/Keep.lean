import Verif.Proof.Alloc
import Verif.Model.Deque
import Verif.Model.HashTable
import Verif.Model.RedBlack
import Verif.Model.AVL
import Verif.Model.Critbit

/-
A small logic for "whatever a call returns, the values of the slots (the bump index, ...) are still the same", with
tactics that walk through the code of a function (as in Proof/Post.lean).
-/
namespace Sokoban

/-- A property of allocators that does not depend on registers. -/
structure Frame (T : Type) where
  P : ∀ {M r : Nat}, NodeAllocator T M r → Prop
  put : ∀ {M r : Nat} {a b : NodeAllocator T M r} {i : Nat} {n m : Node T r}, P a → a.get i = .ok n → m.value = n.value →
    a.put i m = .ok b → P b

/-- The property does not depend on the size and the head of the free list. -/
class Frame.Header {T : Type} (f : Frame T) : Prop where
  header : ∀ {M r : Nat} {a : NodeAllocator T M r} {s h : Nat}, f.P a → f.P ⟨s, a.bumpIndex, h, a.nodes⟩

/-- The slots of a state satisfy `f`; for other types nothing. -/
class Kept {T : Type} (f : Frame T) (α : Type) where
  ok : α → Prop

namespace Kept
variable {T α β : Type} {f : Frame T}
instance (priority := low) any : Kept f α := ⟨fun _ => True⟩
instance [Kept f α] [Kept f β] : Kept f (α × β) := ⟨fun p => ok f p.1 ∧ ok f p.2⟩
instance [Kept f α] : Kept f (Option α) := ⟨fun o => ∀ x ∈ o, ok f x⟩
instance {M r : Nat} : Kept f (NodeAllocator T M r) := ⟨fun a => f.P a⟩
instance {M : Nat} : Kept f (Deque T M) := ⟨fun d => ok f d.allocator⟩
instance {K V : Type} {f : Frame (HashNode K V)} {B M : Nat} : Kept f (HashTable K V B M) := ⟨fun h => ok f h.allocator⟩
instance {K V : Type} {f : Frame (RBNode K V)} {M : Nat} : Kept f (RedBlackTree K V M) := ⟨fun t => ok f t.allocator⟩
instance {K V : Type} {f : Frame (AVLNode K V)} {M : Nat} : Kept f (AVLTree K V M) := ⟨fun t => ok f t.allocator⟩
instance {N M : Nat} : Kept f (Critbit T N M) := ⟨fun t => ok f t.leaves⟩

theorem pair [Kept f α] [Kept f β] {a : α} {b : β} (h : ok f a) (h' : ok f b) : ok f (a, b) := ⟨h, h'⟩
theorem none [Kept f α] : ok f (Option.none : Option α) := by intro x h; cases h
theorem some [Kept f α] {a : α} (h : ok f a) : ok f (Option.some a) := by intro x hx; cases hx; exact h
theorem ite [Kept f α] {c : Prop} [Decidable c] {a b : α} (h : ok f a) (h' : ok f b) : ok f (if c then a else b) := by
  split
  · exact h
  · exact h'
end Kept

/-- If the call returns normally then the slots of the result satisfy `f`. -/
def Keep {T α : Type} (f : Frame T) [Kept f α] (x : R α) : Prop := ∀ a, x = .ok a → Kept.ok f a

namespace Keep
variable {T α β γ δ ε : Type} {f : Frame T} [Kept f α] [Kept f β] [Kept f γ] [Kept f δ] [Kept f ε] {x y : R α}

theorem mk_ok {a : α} (h : Kept.ok f a) : Keep f (.ok a) := by
  intro b e; cases e; exact h
theorem mk_pure {a : α} (h : Kept.ok f a) : Keep f (pure a : R α) := mk_ok h
theorem mk_error {p : Panic} : Keep f (.error p : R α) := by
  intro b e; cases e
theorem mk_throw {p : Panic} : Keep f (throw p : R α) := mk_error
theorem throw_bind {ζ : Type} {p : Panic} {g : ζ → R α} : Keep f ((throw p : R ζ) >>= g) := mk_error
theorem bind {g : α → R β} (h : Keep f x) (k : ∀ a, Kept.ok f a → Keep f (g a)) : Keep f (x >>= g) := by
  intro b e
  cases x with
  | error p => cases e
  | ok a => exact k a (h a rfl) b e
theorem bind2 {x : R (α × γ)} {g : α × γ → R β} (h : Keep f x)
    (k : ∀ a b, Kept.ok f a → Kept.ok f b → Keep f (g (a, b))) : Keep f (x >>= g) :=
  bind h (fun p hp => k p.1 p.2 hp.1 hp.2)
theorem bind3 {x : R (α × γ × δ)} {g : α × γ × δ → R β} (h : Keep f x)
    (k : ∀ a b c, Kept.ok f a → Kept.ok f b → Kept.ok f c → Keep f (g (a, b, c))) : Keep f (x >>= g) :=
  bind h (fun p hp => k p.1 p.2.1 p.2.2 hp.1 hp.2.1 hp.2.2)
theorem bind4 {x : R (α × γ × δ × ε)} {g : α × γ × δ × ε → R β} (h : Keep f x)
    (k : ∀ a b c d, Kept.ok f a → Kept.ok f b → Kept.ok f c → Kept.ok f d → Keep f (g (a, b, c, d))) : Keep f (x >>= g) :=
  bind h (fun p hp => k p.1 p.2.1 p.2.2.1 p.2.2.2 hp.1 hp.2.1 hp.2.2.1 hp.2.2.2)
theorem mk_ite {c : Prop} [Decidable c] (h : c → Keep f x) (h' : ¬ c → Keep f y) : Keep f (if c then x else y) := by
  split
  · exact h ‹_›
  · exact h' ‹_›
theorem mk_dite {c : Prop} [Decidable c] {x : c → R α} {y : ¬ c → R α} (h : ∀ hc, Keep f (x hc))
    (h' : ∀ hc, Keep f (y hc)) : Keep f (if hc : c then x hc else y hc) := by
  split
  · exact h _
  · exact h' _
/-- types of which nothing is required -/
class Triv {T : Type} (f : Frame T) (α : Type) [Kept f α] : Prop where
  all : ∀ a : α, Kept.ok f a
instance (priority := low) {ζ : Type} : @Triv T f ζ Kept.any := @Triv.mk T f ζ Kept.any (fun _ => trivial)
instance [Triv f α] [Triv f β] : Triv f (α × β) := ⟨fun p => ⟨Triv.all p.1, Triv.all p.2⟩⟩
instance [Triv f α] : Triv f (Option α) := ⟨fun _ x _ => Triv.all x⟩
theorem triv [Triv f α] : Keep f x := fun a _ => Triv.all a

end Keep

/-- Shows that a state has the values; extended below. -/
syntax "kept_core" : tactic
macro "kept" : tactic => `(tactic| first | assumption | kept_core)
/-- Shows that a call keeps the values by a lemma about the function called; extended below. -/
syntax "keep_call" : tactic

macro_rules | `(tactic| kept_core) => `(tactic| fail)
macro_rules | `(tactic| kept_core) => `(tactic| exact trivial)
macro_rules | `(tactic| kept_core) => `(tactic| ((with_reducible refine Kept.ite ?_ ?_) <;> kept))
macro_rules | `(tactic| kept_core) => `(tactic| ((with_reducible refine Kept.some ?_); kept))
macro_rules | `(tactic| kept_core) => `(tactic| exact Kept.none)
macro_rules | `(tactic| kept_core) => `(tactic| ((with_reducible refine Kept.pair ?_ ?_) <;> kept))
macro_rules | `(tactic| keep_call) => `(tactic| exact Keep.triv)
macro_rules | `(tactic| keep_call) => `(tactic| assumption)

/-- One step through the code of a function. -/
macro "keep_step" : tactic => `(tactic| first
  | exact Keep.mk_throw
  | exact Keep.throw_bind
  | exact Keep.mk_error
  | keep_call
  | (refine Keep.mk_pure ?_; kept)
  | (refine Keep.mk_ok ?_; kept)
  | (refine Keep.bind4 ?_ ?_; rotate_left; intro _ _ _ _ _ _ _ _; dsimp only)
  | (refine Keep.bind3 ?_ ?_; rotate_left; intro _ _ _ _ _ _; dsimp only)
  | (refine Keep.bind2 ?_ ?_; rotate_left; intro _ _ _ _; dsimp only)
  | (refine Keep.bind ?_ ?_; rotate_left; intro _ _)
  | (refine Keep.mk_ite ?_ ?_ <;> intro _)
  | (refine Keep.mk_dite ?_ ?_ <;> intro _)
  | split
  | dsimp only)

/-- Walk through the code of a function. -/
macro "keep" : tactic => `(tactic| repeat' keep_step)

namespace NodeAllocator
variable {T : Type} {M r : Nat} {f : Frame T} {a : NodeAllocator T M r}

/-- putting back a node with the value it had -/
theorem keep_put {i : Nat} {n m : Node T r} (h : Kept.ok f a) (hn : a.get i = .ok n) (hv : m.value = n.value) :
    Keep f (a.put i m) := fun _ e => f.put h hn hv e

theorem keep_putReg {i q v : Nat} (h : Kept.ok f a) :
    Keep f (do a.put i (← (← a.get i).setRegister q v) : R (NodeAllocator T M r)) := by
  intro b e
  cases hg : a.get i with
  | error p => rw [hg] at e; cases e
  | ok n =>
    rw [hg] at e
    change (n.setRegister q v >>= fun m => a.put i m) = _ at e
    unfold Node.setRegister at e
    split at e
    · refine keep_put h hg ?_ b e; rfl
    · cases e

theorem keep_setRegister {i v q : Nat} (h : Kept.ok f a) : Keep f (a.setRegister i v q) := by
  unfold setRegister
  exact Keep.mk_ite (fun _ => keep_putReg h) (fun _ => Keep.mk_pure h)

theorem keep_clearRegister {i q : Nat} (h : Kept.ok f a) : Keep f (a.clearRegister i q) := by
  unfold clearRegister
  exact Keep.mk_ite (fun _ => keep_putReg h) (fun _ => Keep.mk_pure h)

theorem keep_connect {i j q q' : Nat} (h : Kept.ok f a) : Keep f (a.connect i j q q') := by
  unfold connect
  refine Keep.bind (Keep.mk_ite (fun _ => keep_putReg h) (fun _ => Keep.mk_pure h)) fun b hb => ?_
  exact Keep.mk_ite (fun _ => keep_putReg hb) (fun _ => Keep.mk_pure hb)

theorem keep_disconnect {i j q q' : Nat} (h : Kept.ok f a) : Keep f (a.disconnect i j q q') := by
  unfold disconnect
  refine Keep.bind (Keep.mk_ite (fun _ => keep_clearRegister h) (fun _ => Keep.mk_pure h)) fun b hb => ?_
  exact Keep.mk_ite (fun _ => keep_clearRegister hb) (fun _ => Keep.mk_pure hb)

/-- the free list pointer and the size do not matter -/
theorem kept_mk [f.Header] {s h : Nat} (ha : Kept.ok f a) : Kept.ok f (⟨s, a.bumpIndex, h, a.nodes⟩ : NodeAllocator T M r) :=
  Frame.Header.header ha

theorem keep_removeNode [f.Header] {i : Nat} (h : Kept.ok f a) : Keep f (a.removeNode i) := by
  intro b e
  unfold removeNode at e
  split at e
  · cases e; exact ⟨h, nofun⟩
  · cases hg : a.get i with
    | error p => rw [hg] at e; cases e
    | ok n =>
      rw [hg] at e
      simp only [except_bind_ok] at e
      unfold Node.setFreeListRegister Node.setRegister at e
      split at e
      · simp only [except_bind_ok] at e
        cases hp : a.put i { n with registers := n.registers.set 0 a.freeListHead } with
        | error p => rw [hp] at e; cases e
        | ok c =>
          rw [hp] at e
          simp only [except_bind_ok] at e
          have hc : Kept.ok f c := by refine keep_put h hg ?_ c hp; rfl
          split at e
          · cases e
          · cases hg2 : ({ c with size := c.size - 1, freeListHead := i } : NodeAllocator T M r).get i with
            | error p => rw [hg2] at e; cases e
            | ok m =>
              rw [hg2] at e
              cases e
              exact ⟨Frame.Header.header hc, fun _ _ => trivial⟩
      · cases e

end NodeAllocator

/-- The slots have the values `f`. -/
def Frame.vals {T : Type} (f : Nat → Option T) : Frame T where
  P a := ∀ i, a.val? i = f i
  put {M r a b i n m} h hn hv e j := by
    rw [← h j]
    unfold NodeAllocator.put at e
    unfold NodeAllocator.get at hn
    split at e
    · rename_i hc
      cases e
      rw [dif_pos hc] at hn
      cases hn
      unfold NodeAllocator.val?
      split
      · simp only [Vector.getElem_set]
        split
        · rename_i h1 h2
          simp only [Option.some.injEq]
          rw [hv]; congr 2
        · rfl
      · rfl
    · cases e

instance {T : Type} (f : Nat → Option T) : (Frame.vals f).Header := ⟨fun h => h⟩

/-- The bump index is `b`. -/
def Frame.bump (T : Type) (b : Nat) : Frame T where
  P a := a.bumpIndex = b
  put {M r a c i n m} h _ _ e := by
    unfold NodeAllocator.put at e
    split at e
    · cases e; exact h
    · cases e

instance {T : Type} (b : Nat) : (Frame.bump T b).Header := ⟨fun h => h⟩

/-- The size is `s`, the bump index is `b` and the slots have the values `f`. -/
def Frame.like {T : Type} (s b : Nat) (f : Nat → Option T) : Frame T where
  P a := a.size = s ∧ a.bumpIndex = b ∧ (Frame.vals f).P a
  put {M r a c i n m} h hn hv e := by
    refine ⟨?_, ?_, (Frame.vals f).put h.2.2 hn hv e⟩
    all_goals
      unfold NodeAllocator.put at e
      split at e
      · cases e; first | exact h.1 | exact h.2.1
      · cases e

namespace NodeAllocator
variable {T : Type} {M r : Nat} {f : Nat → Option T} {a : NodeAllocator T M r}

/-- what `put` leaves -/
theorem vals_put {i : Nat} {n : Node T r} {b : NodeAllocator T M r} (h : a.put i n = .ok b) :
    (1 ≤ i ∧ i ≤ M) ∧ ∀ j, b.val? j = if j = i then some n.value else a.val? j := by
  unfold put at h
  split at h
  · rename_i hc
    cases h
    refine ⟨by omega, fun j => ?_⟩
    unfold val?
    split
    · simp only [Vector.getElem_set]
      by_cases hj : j = i
      · subst hj; simp
      · rw [if_neg (by omega), if_neg hj]
    · rename_i h1
      rw [if_neg (by omega)]
  · cases h

theorem vals_setValue {i : Nat} {v : T} {b : NodeAllocator T M r} (h : a.setValue i v = .ok b) :
    (1 ≤ i ∧ i ≤ M) ∧ ∀ j, b.val? j = if j = i then some v else a.val? j := by
  unfold setValue at h
  cases hg : a.get i with
  | error p => rw [hg] at h; cases h
  | ok n => rw [hg] at h; exact vals_put h

theorem vals_addNode {i : Nat} {v : T} {b : NodeAllocator T M r} (h : a.addNode v = .ok (b, i)) :
    i = a.freeListHead ∧ (1 ≤ i ∧ i ≤ M) ∧ ∀ j, b.val? j = if j = i then some v else a.val? j := by
  have h0 : Kept.ok (Frame.vals a.val?) a := fun _ => rfl
  -- the second part, from an allocator with the values of `a`
  have tail : ∀ c : NodeAllocator T M r, Kept.ok (Frame.vals a.val?) c →
      (do let n ← c.get a.freeListHead
          let d ← c.put a.freeListHead (n.setValue v)
          if d.size + 1 ≥ 2 ^ 64 then throw .overflow
          return ({ d with size := d.size + 1 }, a.freeListHead) : R (NodeAllocator T M r × Nat))
        = .ok (b, i) →
      i = a.freeListHead ∧ (1 ≤ i ∧ i ≤ M) ∧ ∀ j, b.val? j = if j = i then some v else a.val? j := by
    intro c hc h
    cases hg : c.get a.freeListHead with
    | error p => rw [hg] at h; cases h
    | ok n =>
      rw [hg] at h
      simp only [except_bind_ok] at h
      cases hp : c.put a.freeListHead (n.setValue v) with
      | error p => rw [hp] at h; cases h
      | ok d =>
        rw [hp] at h
        simp only [except_bind_ok] at h
        split at h
        · cases h
        · cases h
          obtain ⟨h1, h2⟩ := vals_put hp
          refine ⟨rfl, h1, fun j => (h2 j).trans ?_⟩
          rw [hc j]; rfl
  unfold addNode at h
  by_cases hb : a.freeListHead = a.bumpIndex
  · simp only [if_pos hb] at h
    split at h
    · cases h
    · split at h
      · cases h
      · exact tail { a with bumpIndex := a.bumpIndex + 1, freeListHead := a.bumpIndex + 1 } h0 h
  · simp only [if_neg hb] at h
    cases hg : a.get a.freeListHead with
    | error p => rw [hg] at h; cases h
    | ok n =>
      rw [hg] at h
      simp only [except_bind_ok] at h
      cases hn : n.getFreeListRegister with
      | error p => rw [hn] at h; cases h
      | ok nx =>
        rw [hn] at h
        simp only [except_bind_ok] at h
        unfold Node.setFreeListRegister Node.setRegister at h
        split at h
        · simp only [except_bind_ok] at h
          cases hp : ({ a with freeListHead := nx }).put a.freeListHead
              { n with registers := n.registers.set 0 SENTINEL } with
          | error p => rw [hp] at h; cases h
          | ok c =>
            rw [hp] at h
            refine tail c ?_ h
            refine keep_put (a := { a with freeListHead := nx }) (n := n) h0 hg ?_ c hp; rfl
        · cases h

end NodeAllocator

macro_rules | `(tactic| keep_call) => `(tactic| ((with_reducible refine NodeAllocator.keep_setRegister ?_); kept))
macro_rules | `(tactic| keep_call) => `(tactic| ((with_reducible refine NodeAllocator.keep_clearRegister ?_); kept))
macro_rules | `(tactic| keep_call) => `(tactic| ((with_reducible refine NodeAllocator.keep_connect ?_); kept))
macro_rules | `(tactic| keep_call) => `(tactic| ((with_reducible refine NodeAllocator.keep_disconnect ?_); kept))
macro_rules | `(tactic| keep_call) => `(tactic| ((with_reducible refine NodeAllocator.keep_removeNode ?_); kept))

namespace RedBlackTree
variable {K V : Type} {M : Nat} {f : Frame (RBNode K V)} {t : RedBlackTree K V M}
theorem kept_alloc (h : Kept.ok f t) : Kept.ok f t.allocator := h
theorem kept_mk {r : Nat} {a : NodeAllocator (RBNode K V) M 4} (h : Kept.ok f a) :
    Kept.ok f ({ root := r, allocator := a } : RedBlackTree K V M) := h
end RedBlackTree
macro_rules | `(tactic| kept_core) => `(tactic| ((with_reducible refine RedBlackTree.kept_alloc ?_); kept))
macro_rules | `(tactic| kept_core) => `(tactic| ((with_reducible refine RedBlackTree.kept_mk ?_); kept))

namespace RedBlackTree
variable {K V : Type} {M : Nat} {f : Frame (RBNode K V)} {t : RedBlackTree K V M}
theorem keep_colorRed {i : Nat} (h : Kept.ok f t) : Keep f (t.colorRed i) := by
  unfold colorRed; keep
end RedBlackTree
macro_rules | `(tactic| keep_call) => `(tactic| ((with_reducible refine RedBlackTree.keep_colorRed ?_); kept))

namespace RedBlackTree
variable {K V : Type} {M : Nat} {f : Frame (RBNode K V)} {t : RedBlackTree K V M}
theorem keep_colorBlack {i : Nat} (h : Kept.ok f t) : Keep f (t.colorBlack i) := by
  unfold colorBlack; keep
end RedBlackTree
macro_rules | `(tactic| keep_call) => `(tactic| ((with_reducible refine RedBlackTree.keep_colorBlack ?_); kept))

namespace RedBlackTree
variable {K V : Type} {M : Nat} {f : Frame (RBNode K V)} {t : RedBlackTree K V M}
theorem keep_colorNode {i c : Nat} (h : Kept.ok f t) : Keep f (t.colorNode i c) := by
  unfold colorNode; keep
end RedBlackTree
macro_rules | `(tactic| keep_call) => `(tactic| ((with_reducible refine RedBlackTree.keep_colorNode ?_); kept))

namespace RedBlackTree
variable {K V : Type} {M : Nat} {f : Frame (RBNode K V)} {t : RedBlackTree K V M}
theorem keep_removeAllocatorNode [f.Header] {i : Nat} (h : Kept.ok f t) : Keep f (t.removeAllocatorNode i) := by
  unfold removeAllocatorNode; keep
end RedBlackTree
macro_rules | `(tactic| keep_call) => `(tactic| ((with_reducible refine RedBlackTree.keep_removeAllocatorNode ?_); kept))

namespace RedBlackTree
variable {K V : Type} {M : Nat} {f : Frame (RBNode K V)} {t : RedBlackTree K V M}
theorem keep_connect {i j d : Nat} (h : Kept.ok f t) : Keep f (t.connect i j d) := by
  unfold connect; keep
end RedBlackTree
macro_rules | `(tactic| keep_call) => `(tactic| ((with_reducible refine RedBlackTree.keep_connect ?_); kept))

namespace RedBlackTree
variable {K V : Type} {M : Nat} {f : Frame (RBNode K V)} {t : RedBlackTree K V M}
theorem keep_rotateDir {i d : Nat} (h : Kept.ok f t) : Keep f (t.rotateDir i d) := by
  unfold rotateDir; keep
end RedBlackTree
macro_rules | `(tactic| keep_call) => `(tactic| ((with_reducible refine RedBlackTree.keep_rotateDir ?_); kept))

namespace RedBlackTree
variable {K V : Type} {M : Nat} {f : Frame (RBNode K V)} {t : RedBlackTree K V M}
theorem keep_fixInsertLoop {fuel i : Nat} (h : Kept.ok f t) : Keep f (t.fixInsertLoop fuel i) := by
  induction fuel generalizing t i with
  | zero => exact Keep.mk_error
  | succ fuel ih =>
    unfold fixInsertLoop
    repeat' first | (exact ih (by kept)) | (exact ih) | keep_step
end RedBlackTree
macro_rules | `(tactic| keep_call) => `(tactic| ((with_reducible refine RedBlackTree.keep_fixInsertLoop ?_); kept))

namespace RedBlackTree
variable {K V : Type} {M : Nat} {f : Frame (RBNode K V)} {t : RedBlackTree K V M}
theorem keep_fixInsert {i : Nat} (h : Kept.ok f t) : Keep f (t.fixInsert i) := by
  unfold fixInsert; keep
end RedBlackTree
macro_rules | `(tactic| keep_call) => `(tactic| ((with_reducible refine RedBlackTree.keep_fixInsert ?_); kept))

namespace RedBlackTree
variable {K V : Type} {M : Nat} {f : Frame (RBNode K V)} {t : RedBlackTree K V M}
theorem keep_transplant {i j : Nat} (h : Kept.ok f t) : Keep f (t.transplant i j) := by
  unfold transplant; keep
end RedBlackTree
macro_rules | `(tactic| keep_call) => `(tactic| ((with_reducible refine RedBlackTree.keep_transplant ?_); kept))

namespace RedBlackTree
variable {K V : Type} {M : Nat} {f : Frame (RBNode K V)} {t : RedBlackTree K V M}
theorem keep_fixRemoveLoop {fuel i d : Nat} (h : Kept.ok f t) : Keep f (t.fixRemoveLoop fuel i d) := by
  induction fuel generalizing t i d with
  | zero => exact Keep.mk_error
  | succ fuel ih =>
    unfold fixRemoveLoop
    repeat' first | (exact ih (by kept)) | (exact ih) | keep_step
end RedBlackTree
macro_rules | `(tactic| keep_call) => `(tactic| ((with_reducible refine RedBlackTree.keep_fixRemoveLoop ?_); kept))

namespace RedBlackTree
variable {K V : Type} {M : Nat} {f : Frame (RBNode K V)} {t : RedBlackTree K V M}
theorem keep_fixRemove {i : Nat} {o : Option (Nat × Nat)} (h : Kept.ok f t) : Keep f (t.fixRemove i o) := by
  unfold fixRemove; keep
end RedBlackTree
macro_rules | `(tactic| keep_call) => `(tactic| ((with_reducible refine RedBlackTree.keep_fixRemove ?_); kept))

namespace RedBlackTree
variable {K V : Type} {M : Nat} {f : Frame (RBNode K V)} {t : RedBlackTree K V M}
theorem keep_removeTwoChildren {i l : Nat} (h : Kept.ok f t) : Keep f (t.removeTwoChildren i l) := by
  unfold removeTwoChildren; keep
end RedBlackTree
macro_rules | `(tactic| keep_call) => `(tactic| ((with_reducible refine RedBlackTree.keep_removeTwoChildren ?_); kept))

namespace RedBlackTree
variable {K V : Type} {M : Nat} {f : Frame (RBNode K V)} {t : RedBlackTree K V M}
theorem keep_removeTreeNode [f.Header] {i : Nat} (h : Kept.ok f t) : Keep f (t.removeTreeNode i) := by
  unfold removeTreeNode; keep
end RedBlackTree
macro_rules | `(tactic| keep_call) => `(tactic| ((with_reducible refine RedBlackTree.keep_removeTreeNode ?_); kept))

namespace RedBlackTree
variable {K V : Type} {M : Nat} {f : Frame (RBNode K V)} {t : RedBlackTree K V M}
theorem keep_removeLoop [f.Header] [Ord K] {k : K} {fuel i : Nat} (h : Kept.ok f t) : Keep f (t.removeLoop k fuel i) := by
  induction fuel generalizing i with
  | zero => exact Keep.mk_error
  | succ fuel ih =>
    unfold removeLoop
    repeat' first | (exact ih (by kept)) | (exact ih) | keep_step
end RedBlackTree
macro_rules | `(tactic| keep_call) => `(tactic| ((with_reducible refine RedBlackTree.keep_removeLoop ?_); kept))

namespace RedBlackTree
variable {K V : Type} {M : Nat} {f : Frame (RBNode K V)} {t : RedBlackTree K V M}
theorem keep_remove [f.Header] [Ord K] {k : K} (h : Kept.ok f t) : Keep f (t.remove k) := by
  unfold remove; keep
end RedBlackTree
macro_rules | `(tactic| keep_call) => `(tactic| ((with_reducible refine RedBlackTree.keep_remove ?_); kept))

namespace RedBlackTree
variable {K V : Type} {M : Nat} {f : Frame (RBNode K V)} {t : RedBlackTree K V M}
theorem keep_removeRoot [f.Header]  (h : Kept.ok f t) : Keep f (t.removeRoot) := by
  unfold removeRoot; keep
end RedBlackTree
macro_rules | `(tactic| keep_call) => `(tactic| ((with_reducible refine RedBlackTree.keep_removeRoot ?_); kept))

namespace AVLTree
variable {K V : Type} {M : Nat} {f : Frame (AVLNode K V)} {t : AVLTree K V M}
theorem kept_alloc (h : Kept.ok f t) : Kept.ok f t.allocator := h
theorem kept_mk {r : Nat} {a : NodeAllocator (AVLNode K V) M 4} (h : Kept.ok f a) :
    Kept.ok f ({ root := r, allocator := a } : AVLTree K V M) := h
end AVLTree
macro_rules | `(tactic| kept_core) => `(tactic| ((with_reducible refine AVLTree.kept_alloc ?_); kept))
macro_rules | `(tactic| kept_core) => `(tactic| ((with_reducible refine AVLTree.kept_mk ?_); kept))

namespace AVLTree
variable {K V : Type} {M : Nat} {f : Frame (AVLNode K V)} {t : AVLTree K V M}
theorem keep_setHeight {i v : Nat} (h : Kept.ok f t) : Keep f (t.setHeight i v) := by
  unfold setHeight; keep
end AVLTree
macro_rules | `(tactic| keep_call) => `(tactic| ((with_reducible refine AVLTree.keep_setHeight ?_); kept))

namespace AVLTree
variable {K V : Type} {M : Nat} {f : Frame (AVLNode K V)} {t : AVLTree K V M}
theorem keep_updateHeight {i : Nat} (h : Kept.ok f t) : Keep f (t.updateHeight i) := by
  unfold updateHeight; keep
end AVLTree
macro_rules | `(tactic| keep_call) => `(tactic| ((with_reducible refine AVLTree.keep_updateHeight ?_); kept))

namespace AVLTree
variable {K V : Type} {M : Nat} {f : Frame (AVLNode K V)} {t : AVLTree K V M}
theorem keep_setField {i r v : Nat} (h : Kept.ok f t) : Keep f (t.setField i r v) := by
  unfold setField; keep
end AVLTree
macro_rules | `(tactic| keep_call) => `(tactic| ((with_reducible refine AVLTree.keep_setField ?_); kept))

namespace AVLTree
variable {K V : Type} {M : Nat} {f : Frame (AVLNode K V)} {t : AVLTree K V M}
theorem keep_leftRotate {i : Nat} (h : Kept.ok f t) : Keep f (t.leftRotate i) := by
  unfold leftRotate; keep
end AVLTree
macro_rules | `(tactic| keep_call) => `(tactic| ((with_reducible refine AVLTree.keep_leftRotate ?_); kept))

namespace AVLTree
variable {K V : Type} {M : Nat} {f : Frame (AVLNode K V)} {t : AVLTree K V M}
theorem keep_rightRotate {i : Nat} (h : Kept.ok f t) : Keep f (t.rightRotate i) := by
  unfold rightRotate; keep
end AVLTree
macro_rules | `(tactic| keep_call) => `(tactic| ((with_reducible refine AVLTree.keep_rightRotate ?_); kept))

namespace AVLTree
variable {K V : Type} {M : Nat} {f : Frame (AVLNode K V)} {t : AVLTree K V M}
theorem keep_delete [f.Header] {i : Nat} (h : Kept.ok f t) : Keep f (t.delete i) := by
  unfold delete; keep
end AVLTree
macro_rules | `(tactic| keep_call) => `(tactic| ((with_reducible refine AVLTree.keep_delete ?_); kept))

namespace AVLTree
variable {K V : Type} {M : Nat} {f : Frame (AVLNode K V)} {t : AVLTree K V M}
theorem keep_rebalanceNode {i : Nat} (h : Kept.ok f t) : Keep f (t.rebalanceNode i) := by
  unfold rebalanceNode; keep
end AVLTree
macro_rules | `(tactic| keep_call) => `(tactic| ((with_reducible refine AVLTree.keep_rebalanceNode ?_); kept))

namespace AVLTree
variable {K V : Type} {M : Nat} {f : Frame (AVLNode K V)} {t : AVLTree K V M}
theorem keep_rebalance {p : List Ancestor} (h : Kept.ok f t) : Keep f (t.rebalance p) := by
  induction p generalizing t with
  | nil => exact Keep.mk_ok h
  | cons e p ih =>
    obtain ⟨e1, e2, e3⟩ := e
    unfold rebalance
    repeat' first | (exact ih (by kept)) | keep_step
end AVLTree
macro_rules | `(tactic| keep_call) => `(tactic| ((with_reducible refine AVLTree.keep_rebalance ?_); kept))

namespace AVLTree
variable {K V : Type} {M : Nat} {f : Frame (AVLNode K V)} {t : AVLTree K V M}
theorem keep_removeTwo {l r : Nat} {p : List Ancestor} (h : Kept.ok f t) : Keep f (t.removeTwo l r p) := by
  unfold removeTwo; keep
end AVLTree
macro_rules | `(tactic| keep_call) => `(tactic| ((with_reducible refine AVLTree.keep_removeTwo ?_); kept))

namespace AVLTree
variable {K V : Type} {M : Nat} {f : Frame (AVLNode K V)} {t : AVLTree K V M}
theorem keep_removeOne {l r : Nat} {p : List Ancestor} (h : Kept.ok f t) : Keep f (t.removeOne l r p) := by
  unfold removeOne; keep
end AVLTree
macro_rules | `(tactic| keep_call) => `(tactic| ((with_reducible refine AVLTree.keep_removeOne ?_); kept))

namespace AVLTree
variable {K V : Type} {M : Nat} {f : Frame (AVLNode K V)} {t : AVLTree K V M}
theorem keep_removeNode [f.Header] {i : Nat} {p : List Ancestor} (h : Kept.ok f t) : Keep f (t.removeNode i p) := by
  unfold removeNode
  refine Keep.bind Keep.triv (fun _ _ => Keep.bind Keep.triv (fun l _ => Keep.bind Keep.triv (fun r _ => ?_)))
  refine Keep.bind (α := AVLTree K V M × List Ancestor × Nat) ?_ (fun p hp => ?_)
  · exact Keep.mk_ite (fun _ => keep_removeTwo h) (fun _ => keep_removeOne h)
  · obtain ⟨t', p', j⟩ := p
    have h' : Kept.ok f t' := hp.1
    have h2 : Kept.ok f (if i = t'.root then { t' with root := j } else t') := Kept.ite h' h'
    dsimp only
    refine Keep.bind (keep_delete h2) (fun t2 h3 => Keep.bind (keep_rebalance h3) (fun t3 h4 => ?_))
    exact Keep.mk_pure ⟨h4, Keep.Triv.all (f := f) _⟩
end AVLTree
macro_rules | `(tactic| keep_call) => `(tactic| ((with_reducible refine AVLTree.keep_removeNode ?_); kept))

namespace AVLTree
variable {K V : Type} {M : Nat} {f : Frame (AVLNode K V)} {t : AVLTree K V M}
theorem keep_remove [f.Header] [LT K] [DecidableLT K] [PartialGt K] {k : K} (h : Kept.ok f t) : Keep f (t.remove k) := by
  unfold remove; keep
end AVLTree
macro_rules | `(tactic| keep_call) => `(tactic| ((with_reducible refine AVLTree.keep_remove ?_); kept))

namespace Deque
variable {T : Type} {M : Nat} {f : Frame T} {t : Deque T M}
theorem kept_alloc (h : Kept.ok f t) : Kept.ok f t.allocator := h
theorem kept_mk {q h' tl : Nat} {a : NodeAllocator T M 2} (h : Kept.ok f a) :
    Kept.ok f ({ sequenceNumber := q, head := h', tail := tl, allocator := a } : Deque T M) := h
end Deque
macro_rules | `(tactic| kept_core) => `(tactic| ((with_reducible refine Deque.kept_alloc ?_); kept))
macro_rules | `(tactic| kept_core) => `(tactic| ((with_reducible refine Deque.kept_mk ?_); kept))

namespace Deque
variable {T : Type} {M : Nat} {f : Frame T} {t : Deque T M}
theorem keep_bumpSeq  (h : Kept.ok f t) : Keep f (t.bumpSeq) := by
  unfold bumpSeq; keep
end Deque
macro_rules | `(tactic| keep_call) => `(tactic| ((with_reducible refine Deque.keep_bumpSeq ?_); kept))

namespace Deque
variable {T : Type} {M : Nat} {f : Frame T} {t : Deque T M}
theorem keep_remove' [f.Header] {i : Nat} (h : Kept.ok f t) : Keep f (t.remove' i) := by
  unfold remove'; keep
end Deque
macro_rules | `(tactic| keep_call) => `(tactic| ((with_reducible refine Deque.keep_remove' ?_); kept))

namespace Deque
variable {T : Type} {M : Nat} {f : Frame T} {t : Deque T M}
theorem keep_popFront [f.Header]  (h : Kept.ok f t) : Keep f (t.popFront) := by
  unfold popFront; keep
end Deque
macro_rules | `(tactic| keep_call) => `(tactic| ((with_reducible refine Deque.keep_popFront ?_); kept))

namespace Deque
variable {T : Type} {M : Nat} {f : Frame T} {t : Deque T M}
theorem keep_popBack [f.Header]  (h : Kept.ok f t) : Keep f (t.popBack) := by
  unfold popBack; keep
end Deque
macro_rules | `(tactic| keep_call) => `(tactic| ((with_reducible refine Deque.keep_popBack ?_); kept))

namespace HashTable
variable {K V : Type} {B M : Nat} {f : Frame (HashNode K V)} {t : HashTable K V B M}
theorem kept_alloc (h : Kept.ok f t) : Kept.ok f t.allocator := h
theorem kept_mk {b : Vector Nat B} {a : NodeAllocator (HashNode K V) M 4} (h : Kept.ok f a) :
    Kept.ok f ({ buckets := b, allocator := a } : HashTable K V B M) := h
end HashTable
macro_rules | `(tactic| kept_core) => `(tactic| ((with_reducible refine HashTable.kept_alloc ?_); kept))
macro_rules | `(tactic| kept_core) => `(tactic| ((with_reducible refine HashTable.kept_mk ?_); kept))

namespace HashTable
variable {K V : Type} {B M : Nat} {f : Frame (HashNode K V)} {t : HashTable K V B M}
theorem keep_setBucket {b i : Nat} (h : Kept.ok f t) : Keep f (t.setBucket b i) := by
  unfold setBucket; keep
end HashTable
macro_rules | `(tactic| keep_call) => `(tactic| ((with_reducible refine HashTable.keep_setBucket ?_); kept))

namespace HashTable
variable {K V : Type} [BEq K] {B M : Nat} {f : Frame (HashNode K V)} {t : HashTable K V B M} {hash : K → Nat} {k : K}
theorem keep_getMut (h : Kept.ok f t) : Keep f (t.getMut hash k) := by
  unfold getMut; keep
theorem keep_remove [f.Header] (h : Kept.ok f t) : Keep f (t.remove hash k) := by
  unfold remove; keep
end HashTable

namespace Critbit
variable {V : Type} {N M : Nat} {f : Frame V} {t : Critbit V N M}
theorem kept_alloc (h : Kept.ok f t) : Kept.ok f t.leaves := h
theorem kept_mk {r : Nat} {a : NodeAllocator CritbitNode N 4} {l : NodeAllocator V M 4} (h : Kept.ok f l) :
    Kept.ok f ({ root := r, nodeAllocator := a, leaves := l } : Critbit V N M) := h
end Critbit
macro_rules | `(tactic| kept_core) => `(tactic| ((with_reducible refine Critbit.kept_alloc ?_); kept))
macro_rules | `(tactic| kept_core) => `(tactic| ((with_reducible refine Critbit.kept_mk ?_); kept))

namespace Critbit
variable {V : Type} {N M : Nat} {f : Frame V} {t : Critbit V N M}
theorem keep_duplicate {i : Nat} (h : Kept.ok f t) : Keep f (t.duplicate i) := by
  unfold duplicate; keep
end Critbit
macro_rules | `(tactic| keep_call) => `(tactic| ((with_reducible refine Critbit.keep_duplicate ?_); kept))

namespace Critbit
variable {V : Type} {N M : Nat} {f : Frame V} {t : Critbit V N M}
theorem keep_replaceNode {i l r : Nat} {c : CritbitNode} (h : Kept.ok f t) : Keep f (t.replaceNode i c l r) := by
  unfold replaceNode; keep
end Critbit
macro_rules | `(tactic| keep_call) => `(tactic| ((with_reducible refine Critbit.keep_replaceNode ?_); kept))

namespace Critbit
variable {V : Type} {N M : Nat} {f : Frame V} {t : Critbit V N M}
theorem keep_migrateLeaf {i j : Nat} (h : Kept.ok f t) : Keep f (t.migrateLeaf i j) := by
  unfold migrateLeaf; keep
end Critbit
macro_rules | `(tactic| keep_call) => `(tactic| ((with_reducible refine Critbit.keep_migrateLeaf ?_); kept))

namespace Critbit
variable {V : Type} {N M : Nat} {f : Frame V} {t : Critbit V N M}
theorem keep_migrate [f.Header] {i j : Nat} (h : Kept.ok f t) : Keep f (t.migrate i j) := by
  unfold migrate; keep
end Critbit
macro_rules | `(tactic| keep_call) => `(tactic| ((with_reducible refine Critbit.keep_migrate ?_); kept))

namespace Critbit
variable {V : Type} {N M : Nat} {f : Frame V} {t : Critbit V N M}
theorem keep_removeLeaf [f.Header] {i : Nat} (h : Kept.ok f t) : Keep f (t.removeLeaf i) := by
  unfold removeLeaf; keep
end Critbit
macro_rules | `(tactic| keep_call) => `(tactic| ((with_reducible refine Critbit.keep_removeLeaf ?_); kept))

namespace Critbit
variable {V : Type} {N M : Nat} {f : Frame V} {t : Critbit V N M}
theorem keep_removeAt [f.Header] {i j : Nat} {b : Bool} (h : Kept.ok f t) : Keep f (t.removeAt i j b) := by
  unfold removeAt; keep
end Critbit
macro_rules | `(tactic| keep_call) => `(tactic| ((with_reducible refine Critbit.keep_removeAt ?_); kept))

namespace Critbit
variable {V : Type} {N M : Nat} {f : Frame V} {t : Critbit V N M}
theorem keep_remove [f.Header] {k : BitVec 128} (h : Kept.ok f t) : Keep f (t.remove k) := by
  unfold remove; keep
end Critbit
macro_rules | `(tactic| keep_call) => `(tactic| ((with_reducible refine Critbit.keep_remove ?_); kept))
end Sokoban
