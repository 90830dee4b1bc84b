import Verif.Model.Bytes
import Verif.Spec.Run

/-
What is required of the element types, and histories of calls on a structure that lives in a byte
buffer and is loaded from it anew for every call.
-/
namespace Sokoban.Bytes

/-- What holds of the layout of every Rust type, and what makes a type `Pod` as far as values go: the
value is determined by the bytes of the type, a value written is read back, and writing does not reach
beyond the type. -/
structure Rep.Lawful {T : Type} (A : Rep T) : Prop where
  align : ∃ k, A.align = 2 ^ k
  dvd : A.align ∣ A.size
  congr : ∀ m m' : Mem, (∀ k < A.size, m k = m' k) → A.read m = A.read m'
  readWrite : ∀ v m, A.Valid v → A.read (A.write v m) = v
  frame : ∀ v m k, A.size ≤ k → A.write v m k = m k

/-- An element type: lawful, and every value of the model type is a value of the Rust type. -/
def Rep.Element {T : Type} (A : Rep T) : Prop := A.Lawful ∧ ∀ v, A.Valid v

/-- The two alignments that `u128` has. -/
def IsAlign128 (a : Nat) : Prop := a = 8 ∨ a = 16

/-- Memory full of zero bytes. -/
def zeroMem : Mem := fun _ => 0

/-- The slice is aligned and long enough for the type. -/
def Slice.Fits {T : Type} (s : Slice) (A : Rep T) : Prop := A.size ≤ s.len ∧ A.align ∣ s.addr

/-- The bytes of the type are zero. -/
def Slice.Zero {T : Type} (s : Slice) (A : Rep T) : Prop := ∀ k < A.size, s.mem k = 0

/-- What a client may do with a buffer between two calls: move or copy it to another place that fits,
longer or shorter, with any other bytes behind the structure. -/
def Keeps {T : Type} (A : Rep T) (f : Slice → Slice) : Prop :=
  ∀ s, s.Fits A → (f s).Fits A ∧ ∀ k < A.size, (f s).mem k = s.mem k

/-- A history of calls on a structure in a buffer. Before every call the buffer is moved, and the
structure is loaded from its bytes. -/
def runAt {S Op Out : Type} (A : Rep S) (step : S → Op → R (S × Out)) (s : Slice) :
    List ((Slice → Slice) × Op) → R (Slice × List Out)
  | [] => .ok (s, [])
  | (f, op) :: ops => do
    let (s, o) ← callAt A step (f s) op
    let (s, os) ← runAt A step s ops
    return (s, o :: os)

/-- A history in a buffer shows what the same history shows on the structure itself (`r`): same results or
same panic, and the structure that is loaded from the buffer at the end is the same. -/
def Shows {S Out : Type} (A : Rep S) (r : R (S × List Out)) (b : R (Slice × List Out)) : Prop :=
  match r with
  | .ok (t, outs) => ∃ s, b = .ok (s, outs) ∧ load A s = .ok (some t)
  | .error e => b = .error e

/-- Which element types an allocator with `N` registers accepts: no element of 1 to 7 bytes, and an
alignment that divides the header of the allocator and the registers of a node. -/
def Rep.Accepted {T : Type} (A : Rep T) (N : Nat) : Prop :=
  (A.size = 0 ∨ 8 ≤ A.size) ∧ A.align ∣ 16 ∧ A.align ∣ 4 * N

/-- What `new_from_slice` on `s` is expected to do, when it has result `r`, for a type with fresh state
`new`: panic when the slice is too short, misaligned or the element type is not accepted, otherwise turn
zeroed memory into the fresh structure in place, and touch nothing behind the structure. -/
structure MakesNew {S : Type} (A : Rep S) (accepted : Prop) (new : S) (s : Slice) (r : R Slice) : Prop where
  short : s.len < A.size → r = .error .indexOutOfBounds
  misaligned : A.size ≤ s.len → ¬ A.align ∣ s.addr → r = .error .unwrapNone
  refused : s.Fits A → s.Zero A → ¬ accepted → r = .error .assertion
  new : s.Fits A → s.Zero A → accepted → ∃ s', r = .ok s' ∧ load A s' = .ok (some new) ∧
    s'.addr = s.addr ∧ s'.len = s.len ∧ ∀ k ≥ A.size, s'.mem k = s.mem k

end Sokoban.Bytes
