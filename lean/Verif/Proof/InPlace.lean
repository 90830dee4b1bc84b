import Verif.Spec.InPlace
import Verif.Proof.DequeHist

/-
The in-place methods return what the other model files say; what a panic leaves behind.
-/
namespace Sokoban.InPlace
variable {σ τ α β : Type}

/-- Result and state of a call that returned; of a call that panicked, the panic. -/
def forget : EStateM.Result Panic σ α → R (σ × α)
  | .ok x s => .ok (s, x)
  | .error p _ => .error p

/-- A method seen as a function on states, as in the other model files. -/
def func (m : U σ α) (s : σ) : R (σ × α) := forget (m s)

@[simp] theorem func_bind (m : U σ α) (k : α → U σ β) (s : σ) :
    func (m >>= k) s = (func m s >>= fun p => func (k p.2) p.1) := by
  simp only [func, bind, EStateM.bind, Except.bind]
  cases m s <;> rfl
@[simp] theorem func_pure (x : α) (s : σ) : func (pure x : U σ α) s = .ok (s, x) := rfl
@[simp] theorem func_get (s : σ) : func (get : U σ σ) s = .ok (s, s) := rfl
@[simp] theorem func_modify (f : σ → σ) (s : σ) : func (modify f : U σ Unit) s = .ok (f s, ()) := rfl
@[simp] theorem func_throw (p : Panic) (s : σ) : func (throw p : U σ α) s = .error p := rfl
@[simp] theorem func_look (f : σ → R α) (s : σ) : func (look f) s = (f s >>= fun x => .ok (s, x)) := by
  unfold func look; cases f s <;> rfl
@[simp] theorem func_store (f : σ → R σ) (s : σ) : func (store f) s = (f s >>= fun s' => .ok (s', ())) := by
  unfold func store; cases f s <;> rfl
@[simp] theorem func_atomic (f : σ → R (σ × α)) (s : σ) : func (atomic f) s = f s := by
  unfold func atomic
  cases f s <;> rfl
@[simp] theorem func_onField (r : σ → τ) (w : σ → τ → σ) (m : U τ α) (s : σ) :
    func (onField r w m) s = (func m (r s) >>= fun p => .ok (w s p.1, p.2)) := by
  unfold func onField; cases m (r s) <;> rfl
@[simp] theorem func_ite (c : Prop) [Decidable c] (u v : U σ α) (s : σ) :
    func (if c then u else v) s = if c then func u s else func v s := by split <;> rfl

theorem bind_assoc' {γ δ : Type} (x : R γ) (f : γ → R δ) (g : δ → R β) :
    ((x >>= f) >>= g) = (x >>= fun y => f y >>= g) := by cases x <;> rfl

theorem ite_bind {γ δ : Type} (c : Prop) [Decidable c] (x y : R γ) (f : γ → R δ) :
    ((if c then x else y) >>= f) = if c then x >>= f else y >>= f := by split <;> rfl

/-- simp set that turns an in-place method into the function on states -/
macro "inplace" : tactic => `(tactic| simp only [func_bind, func_get, func_ite, func_throw, func_modify, func_look,
  func_store, func_pure, func_onField, func_atomic, except_bind_ok, except_bind_error, except_throw, except_pure,
  bind_assoc', ite_bind])

theorem bind_congr {γ δ : Type} {x : R γ} {f g : γ → R δ} (h : ∀ y, f y = g y) : (x >>= f) = (x >>= g) := by
  rw [funext h]

namespace Alloc
variable {T : Type} {M N : Nat}

theorem func_addNode (v : T) (a : NodeAllocator T M N) : func (addNode v) a = a.addNode v := by
  unfold addNode NodeAllocator.addNode put setValue
  inplace
  rfl

theorem func_setValue (i : Nat) (v : T) (a : NodeAllocator T M N) :
    func (setValue i v) a = (a.setValue i v >>= fun a => .ok (a, ())) := by
  unfold setValue NodeAllocator.setValue
  inplace

theorem func_removeNode (i : Nat) (a : NodeAllocator T M N) : func (removeNode i) a = a.removeNode i := by
  unfold removeNode NodeAllocator.removeNode put
  inplace
  rfl

theorem func_clearRegister (i r : Nat) (a : NodeAllocator T M N) :
    func (clearRegister i r) a = (a.clearRegister i r >>= fun a => .ok (a, ())) := by
  unfold clearRegister NodeAllocator.clearRegister put
  inplace

theorem func_setRegister (i v r : Nat) (a : NodeAllocator T M N) :
    func (setRegister i v r) a = (a.setRegister i v r >>= fun a => .ok (a, ())) := by
  unfold setRegister NodeAllocator.setRegister put
  inplace

theorem func_connect (i j r s : Nat) (a : NodeAllocator T M N) :
    func (connect i j r s) a = (a.connect i j r s >>= fun a => .ok (a, ())) := by
  unfold connect NodeAllocator.connect put
  inplace

end Alloc

namespace Deq
variable {T : Type} {M : Nat}

theorem func_pushBack (v : T) (d : Deque T M) : func (pushBack v) d = (d.pushBack v >>= fun d => .ok (d, ())) := by
  unfold pushBack pushBackBy Deque.pushBack onAlloc bumpSeq
  inplace
  simp only [Alloc.func_addNode, Alloc.func_connect]
  by_cases h1 : d.head = SENTINEL <;> by_cases h2 : d.tail = SENTINEL <;>
    simp only [h1, h2, ne_eq, not_true_eq_false, not_false_eq_true, if_true, if_false, bind_assoc', except_bind_ok]

theorem func_pushFront (v : T) (d : Deque T M) : func (pushFront v) d = (d.pushFront v >>= fun d => .ok (d, ())) := by
  unfold pushFront pushFrontBy Deque.pushFront onAlloc bumpSeq
  inplace
  simp only [Alloc.func_addNode, Alloc.func_connect]
  by_cases h1 : d.head = SENTINEL <;> by_cases h2 : d.tail = SENTINEL <;>
    simp only [h1, h2, ne_eq, not_true_eq_false, not_false_eq_true, if_true, if_false, bind_assoc', except_bind_ok]

theorem func_remove' (i : Nat) (d : Deque T M) : func (remove' i) d = d.remove' i := by
  unfold remove' removeBy Deque.remove' onAlloc bumpSeq
  inplace
  simp only [Alloc.func_clearRegister, Alloc.func_connect, Alloc.func_removeNode, bind_assoc', except_bind_ok]

theorem func_popFront (d : Deque T M) : func popFront d = d.popFront := by
  unfold popFront popFrontBy Deque.popFront
  inplace
  simp only [show removeBy bumpSeq = (remove' : Nat → U (Deque T M) _) from rfl, func_remove']

theorem func_popBack (d : Deque T M) : func popBack d = d.popBack := by
  unfold popBack popBackBy Deque.popBack
  inplace
  simp only [show removeBy bumpSeq = (remove' : Nat → U (Deque T M) _) from rfl, func_remove']

end Deq

theorem func_driveMut {S It P V : Type} (next nextBack : S → It → R (It × Option P)) (read : S → P → R V)
    (write : S → P → V → R S) : ∀ (es : List (End × (V → V))) (it : It) (s : S),
    func (driveMut next nextBack read write it es) s = Sokoban.driveMut next nextBack read write s it es
  | [], _, _ => rfl
  | (e, f) :: es, it, s => by
    rw [driveMut]
    unfold Sokoban.driveMut
    inplace
    refine bind_congr fun p => ?_
    rcases p with ⟨it, _ | slot⟩
    · inplace; simp only [func_driveMut next nextBack read write es]
    · inplace; simp only [func_driveMut next nextBack read write es]

namespace Deq
open DequeSpec
variable {T : Type} {M : Nat}

theorem call_pushBack (v : T) : call (.pushBack v) = (do pushBack v; return .unit : U (Deque T M) _) := rfl
theorem call_pushFront (v : T) : call (.pushFront v) = (do pushFront v; return .unit : U (Deque T M) _) := rfl
theorem call_popBack : call .popBack = (do return .popped (← popBack) : U (Deque T M) _) := rfl
theorem call_popFront : call .popFront = (do return .popped (← popFront) : U (Deque T M) _) := rfl

theorem func_call (op : Op T) (d : Deque T M) : func (call op) d = DequeSpec.call d op := by
  cases op with
  | pushBack v =>
    simp only [call_pushBack, DequeSpec.call]; inplace; simp only [func_pushBack, bind_assoc', except_bind_ok]
  | pushFront v =>
    simp only [call_pushFront, DequeSpec.call]; inplace; simp only [func_pushFront, bind_assoc', except_bind_ok]
  | popBack => simp only [call_popBack, DequeSpec.call]; inplace; simp only [func_popBack]
  | popFront => simp only [call_popFront, DequeSpec.call]; inplace; simp only [func_popFront]
  | iterMut es =>
    simp only [call, callBy, DequeSpec.call, iterMut]; inplace; simp only [func_driveMut]

end Deq

/-! ### What a panic leaves behind -/

theorem run_bind (m : U σ α) (k : α → U σ β) (s : σ) :
    (m >>= k) s = match m s with
      | .ok x s => k x s
      | .error p s => .error p s := by
  simp only [bind, EStateM.bind]
  cases m s <;> rfl
theorem run_get (s : σ) : (get : U σ σ) s = .ok s s := rfl
theorem run_throw (p : Panic) (s : σ) : (throw p : U σ α) s = .error p s := rfl
theorem run_pure (x : α) (s : σ) : (pure x : U σ α) s = .ok x s := rfl
theorem run_modify (f : σ → σ) (s : σ) : (modify f : U σ Unit) s = .ok () (f s) := rfl
theorem run_ite (c : Prop) [Decidable c] (u v : U σ α) (s : σ) :
    (if c then u else v) s = if c then u s else v s := by split <;> rfl
theorem run_look (f : σ → R α) (s : σ) {x : α} (h : f s = .ok x) : look f s = .ok x s := by unfold look; rw [h]
theorem run_onField_error (r : σ → τ) (w : σ → τ → σ) (m : U τ α) (s : σ) {p : Panic} {t : τ}
    (h : m (r s) = .error p t) : onField r w m s = .error p (w s t) := by unfold onField; rw [h]
theorem run_onField_ok (r : σ → τ) (w : σ → τ → σ) (m : U τ α) (s : σ) {x : α} {t : τ}
    (h : m (r s) = .ok x t) : onField r w m s = .ok x (w s t) := by unfold onField; rw [h]

theorem of_func {m : U σ α} {s s' : σ} {x : α} (h : func m s = .ok (s', x)) : m s = .ok x s' := by
  unfold func at h
  cases e : m s with
  | ok y t => rw [e] at h; cases h; rfl
  | error p t => rw [e] at h; cases h

namespace Alloc
open NodeAllocator AllocSpec
variable {T : Type} {M N : Nat}

/-- `add_node` on a full allocator panics before its first store. -/
theorem addNode_caught {a : NodeAllocator T M N} {free live : List Nat} (h : AInv a free live)
    (hfull : live.length = usable M) (v : T) : addNode v a = .error (fullPanic M) a := by
  have hbl := h.bump_le
  have hlen := h.length_eq
  have hf : free = [] := by
    cases free with
    | nil => rfl
    | cons => simp at hlen; omega
  subst hf
  have hhd : a.freeListHead = a.bumpIndex := h.chain
  have hb : a.bumpIndex = usable M + 1 := by have := h.bump_pos; simp at hlen; omega
  unfold addNode fullPanic
  by_cases h0 : (M + 1) % 2 ^ 32 = 0
  · have e1 : ¬ (a.bumpIndex = (M + 1) % 2 ^ 32) := by omega
    have e2 : a.bumpIndex + 1 ≥ 2 ^ 32 := by unfold usable at hb; omega
    simp only [run_bind, run_get, run_ite, hhd, if_true, if_neg e1, if_pos e2, if_pos h0, run_throw, run_pure]
  · have e1 : a.bumpIndex = (M + 1) % 2 ^ 32 := by unfold usable at hb; omega
    simp only [run_bind, run_get, run_ite, hhd, if_true, if_pos e1, if_neg h0, run_throw]

end Alloc

namespace Deq
open DequeSpec Deque NodeAllocator
open AllocSpec (usable fullPanic)
variable {T : Type} {M : Nat}

theorem push_caught {d : Deque T M} {l : List (Nat × T)} (h : DRep d l) (hM : M + 1 < 2 ^ 32)
    (hfull : l.length = M) (v : T) :
    pushBack v d = .error .bufferFull d ∧ pushFront v d = .error .bufferFull d := by
  obtain ⟨free, hf⟩ := h.inv
  have := Alloc.addNode_caught hf (by rw [usable_eq hM]; simpa using hfull) v
  have hp : fullPanic M = .bufferFull := by
    unfold fullPanic; rw [if_neg (by rw [Nat.mod_eq_of_lt hM]; omega)]
  rw [hp] at this
  have e : onAlloc (Alloc.addNode v) d = .error .bufferFull d := run_onField_error _ _ _ _ this
  constructor
  · unfold pushBack pushBackBy; rw [run_bind, e]
  · unfold pushFront pushFrontBy; rw [run_bind, e]

theorem call_caught {d : Deque T M} {l : List (Nat × T)} (h : DRep d l) (hM : M + 1 < 2 ^ 32)
    (hs : d.sequenceNumber + 1 < 2 ^ 64) (op : Op T) :
    (∀ l' o, DequeSpec.step M (vals l) op = some (l', o) →
      ∃ d' l2, call op d = .ok o d' ∧ DRep d' l2 ∧ vals l2 = l' ∧
        d'.sequenceNumber = d.sequenceNumber + changed op o) ∧
    (DequeSpec.step M (vals l) op = none → call op d = .error .bufferFull d) := by
  refine ⟨fun l' o he => ?_, fun he => ?_⟩
  · obtain ⟨d', l2, e, r⟩ := (call_spec h hM hs op).1 l' o he
    exact ⟨d', l2, of_func ((func_call op d).trans e), r⟩
  · cases op with
    | pushBack v =>
      have hf : l.length = M := by simpa [DequeSpec.step] using he
      simp only [call_pushBack, run_bind, (push_caught h hM hf v).1]
    | pushFront v =>
      have hf : l.length = M := by simpa [DequeSpec.step] using he
      simp only [call_pushFront, run_bind, (push_caught h hM hf v).2]
    | _ => simp [DequeSpec.step] at he

theorem runCaught_spec (hM : M + 1 < 2 ^ 32) : ∀ (ops : List (Op T)) {d : Deque T M} {l : List (Nat × T)},
    DRep d l → d.sequenceNumber + ops.length < 2 ^ 64 →
    ∃ l2, DRep (runCaught call d ops).1 l2 ∧
      specCaught (step M) (vals l) ops = (vals l2, (runCaught call d ops).2)
  | [], d, l, h, _ => ⟨l, h, rfl⟩
  | op :: ops, d, l, h, hs => by
    simp at hs
    obtain ⟨c1, c2⟩ := call_caught h hM (by omega) op
    cases hst : DequeSpec.step M (vals l) op with
    | none =>
      obtain ⟨l2, h2, e2⟩ := runCaught_spec hM ops h (by omega)
      refine ⟨l2, ?_, ?_⟩
      · simp only [runCaught, c2 hst]; exact h2
      · simp only [runCaught, c2 hst, specCaught, step, hst, e2]
    | some p =>
      obtain ⟨l1, o⟩ := p
      obtain ⟨d1, l1', e, hr, rfl, hsq⟩ := c1 l1 o hst
      have h1 : changed op o ≤ 1 := changed_le op o
      obtain ⟨l2, h2, e2⟩ := runCaught_spec hM ops hr (by omega)
      refine ⟨l2, ?_, ?_⟩
      · simp only [runCaught, e]; exact h2
      · simp only [runCaught, e, specCaught, step, hst, e2]

end Deq
end Sokoban.InPlace
