import Verif.Spec.Words

/-
A small logic for "whatever a call returns is within the Rust types", with tactics that walk through
the code of a function.
-/
namespace Sokoban

/-- What it means for a value of the model to be within the Rust types. -/
class Rng (α : Type) where
  ok : α → Prop

/-- Keys, values, flags: nothing to say. -/
instance (priority := low) Rng.any {α : Type} : Rng α := ⟨fun _ => True⟩
/-- Words that get stored are `u32`. -/
instance : Rng Nat := ⟨fun n => n < 2 ^ 32⟩
instance {α β : Type} [Rng α] [Rng β] : Rng (α × β) := ⟨fun p => Rng.ok p.1 ∧ Rng.ok p.2⟩
instance {α : Type} [Rng α] : Rng (Option α) := ⟨fun o => ∀ x ∈ o, Rng.ok x⟩
instance {α : Type} [Rng α] : Rng (List α) := ⟨fun l => ∀ x ∈ l, Rng.ok x⟩

/-- If the call returns normally then its result is within the Rust types. -/
def Safe {α : Type} [Rng α] (x : R α) : Prop := ∀ a, x = .ok a → Rng.ok a

namespace Safe
variable {α β γ δ : Type} [Rng α] [Rng β] [Rng γ] [Rng δ] {x y : R α}

theorem mk_ok {a : α} (h : Rng.ok a) : Safe (.ok a) := by
  intro b e; cases e; exact h

theorem mk_pure {a : α} (h : Rng.ok a) : Safe (pure a : R α) := mk_ok h

theorem mk_error {p : Panic} : Safe (.error p : R α) := by
  intro b e; cases e

theorem mk_throw {p : Panic} : Safe (throw p : R α) := mk_error

theorem throw_bind {γ : Type} {p : Panic} {f : γ → R α} : Safe ((throw p : R γ) >>= f) := mk_error

theorem bind {f : α → R β} (h : Safe x) (k : ∀ a, Rng.ok a → Safe (f a)) : Safe (x >>= f) := by
  intro b e
  cases x with
  | error p => cases e
  | ok a => exact k a (h a rfl) b e

theorem bind2 {x : R (α × γ)} {f : α × γ → R β} (h : Safe x)
    (k : ∀ a b, Rng.ok a → Rng.ok b → Safe (f (a, b))) : Safe (x >>= f) :=
  bind h (fun p hp => k p.1 p.2 hp.1 hp.2)

theorem bind3 {x : R (α × γ × δ)} {f : α × γ × δ → R β} (h : Safe x)
    (k : ∀ a b c, Rng.ok a → Rng.ok b → Rng.ok c → Safe (f (a, b, c))) : Safe (x >>= f) :=
  bind h (fun p hp => k p.1 p.2.1 p.2.2 hp.1 hp.2.1 hp.2.2)

theorem bind4 {ε : Type} [Rng ε] {x : R (α × γ × δ × ε)} {f : α × γ × δ × ε → R β} (h : Safe x)
    (k : ∀ a b c d, Rng.ok a → Rng.ok b → Rng.ok c → Rng.ok d → Safe (f (a, b, c, d))) : Safe (x >>= f) :=
  bind h (fun p hp => k p.1 p.2.1 p.2.2.1 p.2.2.2 hp.1 hp.2.1 hp.2.2.1 hp.2.2.2)

theorem mk_ite {c : Prop} [Decidable c] (h : c → Safe x) (h' : ¬ c → Safe y) : Safe (if c then x else y) := by
  split
  · exact h ‹_›
  · exact h' ‹_›

theorem mk_dite {c : Prop} [Decidable c] {x : c → R α} {y : ¬ c → R α} (h : ∀ hc, Safe (x hc))
    (h' : ∀ hc, Safe (y hc)) : Safe (if hc : c then x hc else y hc) := by
  split
  · exact h _
  · exact h' _

theorem unit {x : R Unit} : Safe x := fun _ _ => trivial
theorem bool {x : R Bool} : Safe x := fun _ _ => trivial

end Safe

namespace Rng
variable {α β : Type} [Rng α] [Rng β]

theorem pair {a : α} {b : β} (h : ok a) (h' : ok b) : ok (a, b) := ⟨h, h'⟩
theorem none : ok (Option.none : Option α) := by intro x h; cases h
theorem some {a : α} (h : ok a) : ok (Option.some a) := by intro x hx; cases hx; exact h
theorem nil : ok ([] : List α) := by intro x h; cases h
theorem cons {a : α} {l : List α} (h : ok a) (h' : ok l) : ok (a :: l) := by
  intro x hx
  rcases List.mem_cons.1 hx with rfl | hx
  · exact h
  · exact h' _ hx
theorem append {l l' : List α} (h : ok l) (h' : ok l') : ok (l ++ l') := by
  intro x hx
  rcases List.mem_append.1 hx with hx | hx
  · exact h _ hx
  · exact h' _ hx
theorem tail {l : List α} (h : ok l) : ok l.tail := fun x hx => h x (List.mem_of_mem_tail hx)
theorem ite {c : Prop} [Decidable c] {a b : α} (h : ok a) (h' : ok b) : ok (if c then a else b) := by
  split
  · exact h
  · exact h'
theorem lt {n : Nat} (h : n < 2 ^ 32) : ok n := h

end Rng

/-- Shows that a value is within the Rust types; extended below. -/
syntax "rng_core" : tactic
macro "rng" : tactic => `(tactic| first | assumption | rng_core)
/-- Shows that a call is safe by a lemma about the function called; extended below. -/
syntax "safe_call" : tactic

macro_rules | `(tactic| rng_core) => `(tactic| fail)
macro_rules | `(tactic| rng_core) => `(tactic| exact trivial)
macro_rules | `(tactic| rng_core) => `(tactic| exact Rng.lt (by decide))
macro_rules | `(tactic| rng_core) => `(tactic| ((with_reducible refine Rng.ite ?_ ?_) <;> rng))
macro_rules | `(tactic| rng_core) => `(tactic| ((with_reducible refine Rng.tail ?_); rng))
macro_rules | `(tactic| rng_core) => `(tactic| ((with_reducible refine Rng.append ?_ ?_) <;> rng))
macro_rules | `(tactic| rng_core) => `(tactic| ((with_reducible refine Rng.cons ?_ ?_) <;> rng))
macro_rules | `(tactic| rng_core) => `(tactic| exact Rng.nil)
macro_rules | `(tactic| rng_core) => `(tactic| ((with_reducible refine Rng.some ?_); rng))
macro_rules | `(tactic| rng_core) => `(tactic| exact Rng.none)
macro_rules | `(tactic| rng_core) => `(tactic| ((with_reducible refine Rng.pair ?_ ?_) <;> rng))

macro_rules | `(tactic| safe_call) => `(tactic| exact Safe.bool)
macro_rules | `(tactic| safe_call) => `(tactic| exact Safe.unit)
macro_rules | `(tactic| safe_call) => `(tactic| assumption)

/-- One step through the code of a function. -/
macro "safe_step" : tactic => `(tactic| first
  | exact Safe.mk_throw
  | exact Safe.throw_bind
  | exact Safe.mk_error
  | safe_call
  | (refine Safe.mk_pure ?_; rng)
  | (refine Safe.mk_ok ?_; rng)
  | (refine Safe.bind4 ?_ ?_; rotate_left; intro _ _ _ _ _ _ _ _; dsimp only)
  | (refine Safe.bind3 ?_ ?_; rotate_left; intro _ _ _ _ _ _; dsimp only)
  | (refine Safe.bind2 ?_ ?_; rotate_left; intro _ _ _ _; dsimp only)
  | (refine Safe.bind ?_ ?_; rotate_left; intro _ _)
  | (refine Safe.mk_ite ?_ ?_ <;> intro _)
  | (refine Safe.mk_dite ?_ ?_ <;> intro _)
  | split
  | dsimp only)

/-- Walk through the code of a function. -/
macro "safe" : tactic => `(tactic| repeat' safe_step)

namespace Node
variable {T : Type} {numRegs : Nat} [Rng T]

instance : Rng (Node T numRegs) := ⟨fun n => (∀ (r : Nat) (h : r < numRegs), n.registers[r] < 2 ^ 32) ∧ Rng.ok n.value⟩

theorem safe_getRegister {n : Node T numRegs} {r : Nat} (h : Rng.ok n) : Safe (n.getRegister r) := by
  unfold getRegister
  refine Safe.mk_dite (fun hc => Safe.mk_ok (h.1 r hc)) (fun _ => Safe.mk_error)

theorem safe_setRegister {n : Node T numRegs} {r v : Nat} (h : Rng.ok n) (hv : Rng.ok v) : Safe (n.setRegister r v) := by
  unfold setRegister
  refine Safe.mk_dite (fun hc => Safe.mk_ok ⟨fun r' h' => ?_, h.2⟩) (fun _ => Safe.mk_error)
  show (n.registers.set r v)[r'] < _
  rw [Vector.getElem_set]
  split
  · exact hv
  · exact h.1 r' h'

theorem ok_setValue {n : Node T numRegs} {v : T} (h : Rng.ok n) (hv : Rng.ok v) : Rng.ok (n.setValue v) := ⟨h.1, hv⟩
theorem ok_value {n : Node T numRegs} (h : Rng.ok n) : Rng.ok n.value := h.2

end Node

macro_rules | `(tactic| safe_call) => `(tactic| ((with_reducible refine Node.safe_getRegister ?_); rng))
macro_rules | `(tactic| safe_call) => `(tactic| ((with_reducible refine Node.safe_setRegister ?_ ?_) <;> rng))
macro_rules | `(tactic| safe_call) => `(tactic| (unfold Node.getFreeListRegister; refine Node.safe_getRegister ?_; rng))
macro_rules | `(tactic| safe_call) => `(tactic| (unfold Node.setFreeListRegister; refine Node.safe_setRegister ?_ ?_ <;> rng))
macro_rules | `(tactic| rng_core) => `(tactic| ((with_reducible refine Node.ok_setValue ?_ ?_) <;> rng))
macro_rules | `(tactic| rng_core) => `(tactic| ((with_reducible refine Node.ok_value ?_); rng))

namespace NodeAllocator
variable {T : Type} {maxSize numRegs : Nat} [Rng T] {a : NodeAllocator T maxSize numRegs}

instance : Rng (NodeAllocator T maxSize numRegs) := ⟨fun a => a.InRange Rng.ok⟩

theorem safe_get {i : Nat} (h : Rng.ok a) : Safe (a.get i) := by
  unfold get
  exact Safe.mk_dite (fun hc => Safe.mk_ok (h.nodes _ hc.2)) (fun _ => Safe.mk_error)

theorem safe_put {i : Nat} {n : Node T numRegs} (h : Rng.ok a) (hn : Rng.ok n) : Safe (a.put i n) := by
  unfold put
  refine Safe.mk_dite (fun hc => Safe.mk_ok ⟨h.size, h.bumpIndex, h.freeListHead, fun j hj => ?_⟩) (fun _ => Safe.mk_error)
  show Node.InRange _ (a.nodes.set (i - 1) n hc.2)[j]
  rw [Vector.getElem_set]
  split
  · exact hn
  · exact h.nodes j hj

theorem ok_setHead {i : Nat} (h : Rng.ok a) (hi : Rng.ok i) : Rng.ok { a with freeListHead := i } :=
  ⟨h.size, h.bumpIndex, hi, h.nodes⟩
theorem ok_setSize {i : Nat} (h : Rng.ok a) (hi : i < 2 ^ 64) : Rng.ok { a with size := i } :=
  ⟨hi, h.bumpIndex, h.freeListHead, h.nodes⟩
theorem ok_head (h : Rng.ok a) : Rng.ok a.freeListHead := h.freeListHead
theorem ok_bump (h : Rng.ok a) : Rng.ok a.bumpIndex := h.bumpIndex

end NodeAllocator

macro_rules | `(tactic| safe_call) => `(tactic| ((with_reducible refine NodeAllocator.safe_get ?_); rng))
macro_rules | `(tactic| safe_call) => `(tactic| ((with_reducible refine NodeAllocator.safe_put ?_ ?_) <;> rng))
macro_rules | `(tactic| rng_core) => `(tactic| ((with_reducible refine NodeAllocator.ok_setHead ?_ ?_) <;> rng))
macro_rules | `(tactic| rng_core) => `(tactic| ((with_reducible refine NodeAllocator.ok_head ?_); rng))
macro_rules | `(tactic| rng_core) => `(tactic| ((with_reducible refine NodeAllocator.ok_bump ?_); rng))

namespace NodeAllocator
variable {T : Type} {maxSize numRegs : Nat} [Rng T] {a : NodeAllocator T maxSize numRegs}

theorem ok_new {z : T} (hz : Rng.ok z) : Rng.ok (new z : NodeAllocator T maxSize numRegs) :=
  ⟨show 0 < _ by decide, show 1 < _ by decide, show 1 < _ by decide,
    fun i hi => ⟨fun r hr => by simp [new, SENTINEL], by simpa [new] using hz⟩⟩

theorem ok_zeroed {z : T} (hz : Rng.ok z) : Rng.ok (zeroed z : NodeAllocator T maxSize numRegs) :=
  ⟨show 0 < _ by decide, show 0 < _ by decide, show 0 < _ by decide,
    fun i hi => ⟨fun r hr => by simp [zeroed, SENTINEL], by simpa [zeroed] using hz⟩⟩

theorem safe_initialise (h : Rng.ok a) : Safe a.initialise := by
  unfold initialise
  refine Safe.bind Safe.unit (fun _ _ => Safe.mk_ite (fun _ => Safe.mk_pure ?_) (fun _ => Safe.mk_throw))
  exact ⟨h.size, by show 1 < _; decide, by show 1 < _; decide, h.nodes⟩

theorem safe_addNode {v : T} (h : Rng.ok a) (hv : Rng.ok v) : Safe (a.addNode v) := by
  unfold addNode
  refine Safe.bind (α := NodeAllocator T maxSize numRegs) ?_ ?_
  · refine Safe.mk_ite (fun _ => ?_) (fun _ => by safe)
    dsimp only
    refine Safe.mk_ite (fun _ => Safe.throw_bind) (fun _ => ?_)
    refine Safe.mk_ite (fun _ => Safe.throw_bind) (fun hlt => ?_)
    refine Safe.mk_pure ⟨h.size, ?_, ?_, h.nodes⟩ <;> simp only <;> omega
  · intro a' ha'
    refine Safe.bind (safe_get ha') (fun n hn => ?_)
    refine Safe.bind (safe_put ha' (Node.ok_setValue hn hv)) (fun a'' h'' => ?_)
    refine Safe.mk_ite (fun _ => Safe.throw_bind) (fun hlt => ?_)
    refine Safe.mk_pure (Rng.pair (ok_setSize h'' (by omega)) h.freeListHead)

theorem safe_removeNode {i : Nat} (h : Rng.ok a) (hi : Rng.ok i) : Safe (a.removeNode i) := by
  unfold removeNode
  refine Safe.mk_ite (fun _ => by safe) (fun _ => ?_)
  refine Safe.bind (safe_get h) (fun n hn => ?_)
  refine Safe.bind (by safe_call) (fun n hn => ?_)
  refine Safe.bind (safe_put h hn) (fun a ha => ?_)
  dsimp only
  refine Safe.mk_ite (fun _ => Safe.throw_bind) (fun _ => ?_)
  have h2 : Rng.ok { a with size := a.size - 1, freeListHead := i } :=
    ⟨by have := ha.size; show a.size - 1 < _; omega, ha.bumpIndex, hi, ha.nodes⟩
  refine Safe.bind (safe_get h2) (fun n hn => Safe.mk_pure (Rng.pair h2 (Rng.some hn.2)))

theorem safe_clearRegister {i r : Nat} (h : Rng.ok a) : Safe (a.clearRegister i r) := by
  unfold clearRegister; safe

theorem safe_setRegister {i v r : Nat} (h : Rng.ok a) (hv : Rng.ok v) : Safe (a.setRegister i v r) := by
  unfold setRegister; safe

theorem safe_getRegister {i r : Nat} (h : Rng.ok a) : Safe (a.getRegister i r) := by
  unfold getRegister; safe

theorem safe_getValue {i : Nat} (h : Rng.ok a) : Safe (a.getValue i) := by
  unfold getValue; safe

theorem safe_setValue {i : Nat} {v : T} (h : Rng.ok a) (hv : Rng.ok v) : Safe (a.setValue i v) := by
  unfold setValue; safe

theorem safe_connect {i j r r' : Nat} (h : Rng.ok a) (hi : Rng.ok i) (hj : Rng.ok j) : Safe (a.connect i j r r') := by
  unfold connect; safe

end NodeAllocator

macro_rules | `(tactic| safe_call) => `(tactic| ((with_reducible refine NodeAllocator.safe_initialise ?_); rng))
macro_rules | `(tactic| safe_call) => `(tactic| ((with_reducible refine NodeAllocator.safe_addNode ?_ ?_) <;> rng))
macro_rules | `(tactic| safe_call) => `(tactic| ((with_reducible refine NodeAllocator.safe_removeNode ?_ ?_) <;> rng))
macro_rules | `(tactic| safe_call) => `(tactic| ((with_reducible refine NodeAllocator.safe_clearRegister ?_); rng))
macro_rules | `(tactic| safe_call) => `(tactic| ((with_reducible refine NodeAllocator.safe_setRegister ?_ ?_) <;> rng))
macro_rules | `(tactic| safe_call) => `(tactic| ((with_reducible refine NodeAllocator.safe_getRegister ?_); rng))
macro_rules | `(tactic| safe_call) => `(tactic| ((with_reducible refine NodeAllocator.safe_getValue ?_); rng))
macro_rules | `(tactic| safe_call) => `(tactic| ((with_reducible refine NodeAllocator.safe_setValue ?_ ?_) <;> rng))
macro_rules | `(tactic| safe_call) => `(tactic| ((with_reducible refine NodeAllocator.safe_connect ?_ ?_ ?_) <;> rng))

namespace NodeAllocator
variable {T : Type} {maxSize numRegs : Nat} [Rng T] {a : NodeAllocator T maxSize numRegs}

theorem safe_disconnect {i j r r' : Nat} (h : Rng.ok a) : Safe (a.disconnect i j r r') := by
  unfold disconnect; safe

end NodeAllocator

macro_rules | `(tactic| safe_call) => `(tactic| ((with_reducible refine NodeAllocator.safe_disconnect ?_); rng))
end Sokoban
