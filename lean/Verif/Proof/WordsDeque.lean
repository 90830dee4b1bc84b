import Verif.Proof.Post

/-
No function of the deque leaves the Rust types.
-/
namespace Sokoban

namespace Deque
variable {T : Type} {maxSize : Nat} {t : Deque T maxSize}
instance : Rng (Deque T maxSize) := ⟨InRange⟩
theorem ok_mk {s i j : Nat} {a : NodeAllocator T maxSize 2} (hs : s < 2 ^ 64) (hi : Rng.ok i) (hj : Rng.ok j) (ha : Rng.ok a) :
    Rng.ok ({ sequenceNumber := s, head := i, tail := j, allocator := a } : Deque T maxSize) := ⟨hs, hi, hj, ha⟩
theorem ok_head (h : Rng.ok t) : Rng.ok t.head := h.head
theorem ok_tail (h : Rng.ok t) : Rng.ok t.tail := h.tail
theorem ok_allocator (h : Rng.ok t) : Rng.ok t.allocator := h.allocator
theorem ok_seq (h : Rng.ok t) : t.sequenceNumber < 2 ^ 64 := h.sequenceNumber
end Deque
macro_rules | `(tactic| rng_core) => `(tactic| ((with_reducible refine Deque.ok_mk ?_ ?_ ?_ ?_) <;> rng))
macro_rules | `(tactic| rng_core) => `(tactic| ((with_reducible refine Deque.ok_head ?_); rng))
macro_rules | `(tactic| rng_core) => `(tactic| ((with_reducible refine Deque.ok_tail ?_); rng))
macro_rules | `(tactic| rng_core) => `(tactic| ((with_reducible refine Deque.ok_allocator ?_); rng))
macro_rules | `(tactic| rng_core) => `(tactic| ((with_reducible refine Deque.ok_seq ?_); rng))

namespace Deque
variable {T : Type} {maxSize : Nat} {t : Deque T maxSize}
theorem safe_initialise  (h : Rng.ok t) : Safe (t.initialise) := by
  unfold initialise; safe
end Deque
macro_rules | `(tactic| safe_call) => `(tactic| ((with_reducible refine Deque.safe_initialise ?_); rng))

namespace Deque
variable {T : Type} {maxSize : Nat} {t : Deque T maxSize}
theorem safe_bumpSeq  (h : Rng.ok t) : Safe (t.bumpSeq) := by
  unfold bumpSeq
  exact Safe.mk_ite (fun _ => Safe.mk_error) (fun hlt => Safe.mk_ok ⟨by show _ + 1 < _; omega, h.head, h.tail, h.allocator⟩)
end Deque
macro_rules | `(tactic| safe_call) => `(tactic| ((with_reducible refine Deque.safe_bumpSeq ?_); rng))

namespace Deque
variable {T : Type} {maxSize : Nat} {t : Deque T maxSize}
theorem safe_getNext {i : Nat} (h : Rng.ok t) : Safe (t.getNext i) := by
  unfold getNext; safe
end Deque
macro_rules | `(tactic| safe_call) => `(tactic| ((with_reducible refine Deque.safe_getNext ?_); rng))

namespace Deque
variable {T : Type} {maxSize : Nat} {t : Deque T maxSize}
theorem safe_getPrev {i : Nat} (h : Rng.ok t) : Safe (t.getPrev i) := by
  unfold getPrev; safe
end Deque
macro_rules | `(tactic| safe_call) => `(tactic| ((with_reducible refine Deque.safe_getPrev ?_); rng))

namespace Deque
variable {T : Type} {maxSize : Nat} {t : Deque T maxSize}
theorem safe_pushBack {v : T} (h : Rng.ok t) : Safe (t.pushBack v) := by
  unfold pushBack
  refine Safe.bind2 (by safe_call) (fun a i ha hi => ?_)
  dsimp only
  split <;> (dsimp only; safe)
end Deque
macro_rules | `(tactic| safe_call) => `(tactic| ((with_reducible refine Deque.safe_pushBack ?_); rng))

namespace Deque
variable {T : Type} {maxSize : Nat} {t : Deque T maxSize}
theorem safe_pushFront {v : T} (h : Rng.ok t) : Safe (t.pushFront v) := by
  unfold pushFront
  refine Safe.bind2 (by safe_call) (fun a i ha hi => ?_)
  dsimp only
  split <;> (dsimp only; safe)
end Deque
macro_rules | `(tactic| safe_call) => `(tactic| ((with_reducible refine Deque.safe_pushFront ?_); rng))

namespace Deque
variable {T : Type} {maxSize : Nat} {t : Deque T maxSize}
theorem safe_remove' {i : Nat} (h : Rng.ok t) (hi : Rng.ok i) : Safe (t.remove' i) := by
  unfold remove'; safe
end Deque
macro_rules | `(tactic| safe_call) => `(tactic| ((with_reducible refine Deque.safe_remove' ?_ ?_) <;> rng))

namespace Deque
variable {T : Type} {maxSize : Nat} {t : Deque T maxSize}
theorem safe_popFront  (h : Rng.ok t) : Safe (t.popFront) := by
  unfold popFront; safe
end Deque
macro_rules | `(tactic| safe_call) => `(tactic| ((with_reducible refine Deque.safe_popFront ?_); rng))

namespace Deque
variable {T : Type} {maxSize : Nat} {t : Deque T maxSize}
theorem safe_popBack  (h : Rng.ok t) : Safe (t.popBack) := by
  unfold popBack; safe
end Deque
macro_rules | `(tactic| safe_call) => `(tactic| ((with_reducible refine Deque.safe_popBack ?_); rng))

namespace Deque
variable {T : Type} {maxSize : Nat} {t : Deque T maxSize}
theorem safe_writeSlot {i : Nat} {v : T} (h : Rng.ok t) : Safe (t.writeSlot i v) := by
  unfold writeSlot; safe
end Deque
macro_rules | `(tactic| safe_call) => `(tactic| ((with_reducible refine Deque.safe_writeSlot ?_); rng))

end Sokoban
