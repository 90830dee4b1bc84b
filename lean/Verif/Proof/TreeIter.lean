import Verif.Proof.TreeMap

/-
Cursors of the stack-based tree iterators, on ghost trees.
-/
namespace Sokoban
open BT

/-- `l` is what is left for a cursor at the tree `t` with the nodes `st` on its stack (top first):
forwards for `d = true`, backwards for `d = false` -/
def Cur {K V : Type} (reg : Nat → Nat → Nat) : Bool → BT K V → List (GN K V × BT K V) → Prop
  | _, t, [] => Links reg t
  | d, t, (x, b) :: st => Links reg t ∧ reg x.idx d.toNat = b.root ∧ Cur reg d b st

/-- slots left on the stack of a forward cursor -/
def fwdIds {K V : Type} : List (GN K V × BT K V) → List Nat
  | [] => []
  | (x, b) :: st => x.idx :: (b.ids ++ fwdIds st)

/-- slots left on the stack of a backward cursor, last first -/
def bwdIds {K V : Type} : List (GN K V × BT K V) → List Nat
  | [] => []
  | (x, b) :: st => bwdIds st ++ b.ids ++ [x.idx]


/-- slots on a stack -/
def stk {K V : Type} (st : List (GN K V × BT K V)) : List Nat := st.map fun e => e.1.idx

variable {K V : Type}

theorem Cur.links {reg : Nat → Nat → Nat} {d : Bool} {t : BT K V} {st : List (GN K V × BT K V)}
    (h : Cur reg d t st) : Links reg t := by
  cases st with
  | nil => exact h
  | cons e st => exact h.1

theorem Cur.swap {reg : Nat → Nat → Nat} {d : Bool} {t t' : BT K V} {st : List (GN K V × BT K V)}
    (h : Cur reg d t st) (h' : Links reg t') : Cur reg d t' st := by
  cases st with
  | nil => exact h'
  | cons e st => exact ⟨h', h.2⟩


theorem nodup_len {l : List Nat} {M : Nat} (hn : l.Nodup) (hr : ∀ i ∈ l, 1 ≤ i ∧ i ≤ M) : l.length ≤ M := by
  have := hn.length_le_of_subset (l₂ := List.range' 1 M) (fun i hi => by
    have := hr i hi
    rw [List.mem_range'_1]; omega)
  simpa using this

end Sokoban
