import Verif.Spec.Bytes
import Verif.Spec.Peak

/-
Working on one buffer with different values of `MAX_SIZE` one after the other: the type `S M` of a structure
depends on its capacity `M`, the buffer does not. Nothing here mentions how a structure is represented.
-/
namespace Sokoban.Bytes

/-- A period in which a buffer is used with one and the same capacity: what is done to the buffer first, the
capacity, the calls. -/
structure Session (Op : Type) where
  move : Slice → Slice
  cap : Nat
  ops : List Op

/-- What may be done to a buffer between two sessions: `realloc` with zero initialisation, to any length and
place. The bytes that the old and the new buffer have in common are kept, bytes beyond the old length are zero. -/
def Realloc (f : Slice → Slice) : Prop :=
  ∀ s, (∀ k, k < s.len → k < (f s).len → (f s).mem k = s.mem k) ∧
    ∀ k, s.len ≤ k → k < (f s).len → (f s).mem k = 0

/-- The sessions one after the other, all on the same buffer; the structure is loaded from the bytes for every
call. Returns the results of the calls, session by session. -/
def runSessions {S : Nat → Type} {Op Out : Type} (A : (M : Nat) → Rep (S M)) (step : (M : Nat) → S M → Op → R (S M × Out))
    (s : Slice) : List (Session Op) → R (Slice × List (List Out))
  | [] => .ok (s, [])
  | x :: xs => do
    let (s, o) ← runAt (A x.cap) (step x.cap) (x.move s) (x.ops.map fun op => (id, op))
    let (s, os) ← runSessions A step s xs
    return (s, o :: os)

/-- No session shrinks the structure below what it once held: `p` is the greatest number of elements held at any
time before. Every session is one with a reallocated buffer that fits the structure of that capacity (`C` is a
condition on capacities). -/
def Roomy {S : Nat → Type} {Op Out : Type} (A : (M : Nat) → Rep (S M)) (len : (M : Nat) → S M → Nat)
    (step : (M : Nat) → S M → Op → R (S M × Out)) (C : Nat → Prop) : Nat → Slice → List (Session Op) → Prop
  | _, _, [] => True
  | p, s, x :: xs => p ≤ x.cap ∧ C x.cap ∧ Realloc x.move ∧ (x.move s).Fits (A x.cap) ∧
      ∀ t s' outs, load (A x.cap) (x.move s) = .ok (some t) →
        runAt (A x.cap) (step x.cap) (x.move s) (x.ops.map fun op => (id, op)) = .ok (s', outs) →
        Roomy A len step C (max p (peak (len x.cap) (step x.cap) t x.ops)) s' xs

/-- What the sessions may do to a specification whose steps depend on the capacity. -/
def SessTrace {X Op Out : Type} (step : Nat → X → Op → Out → X → Prop) : X → List (Session Op) → List (List Out) → X → Prop
  | x, [], [], x' => x' = x
  | x, s :: ss, o :: os, x' => ∃ x1, Trace (step s.cap) x s.ops o x1 ∧ SessTrace step x1 ss os x'
  | _, _, _, _ => False

/-- The same for a specification by a function; `none` means that a call is not allowed. -/
def specSessions {X Op Out : Type} (step : Nat → X → Op → Option (X × Out)) (x : X) : List (Session Op) → Option (X × List (List Out))
  | [] => some (x, [])
  | s :: ss => do
    let (x, o) ← specRun (step s.cap) x s.ops
    let (x, os) ← specSessions step x ss
    return (x, o :: os)

/-- The number of calls in all sessions. -/
def calls {Op : Type} (xs : List (Session Op)) : Nat := (xs.map fun x => x.ops.length).sum

/-- The case of growing: capacities never decrease, and every session begins with a reallocation that makes the
buffer fit. -/
def Growing {S : Nat → Type} {Op : Type} (A : (M : Nat) → Rep (S M)) (C : Nat → Prop) : Nat → List (Session Op) → Prop
  | _, [] => True
  | c, x :: xs => c ≤ x.cap ∧ C x.cap ∧ Realloc x.move ∧ (∀ s, (x.move s).Fits (A x.cap)) ∧ Growing A C x.cap xs

end Sokoban.Bytes
