import Verif.Model.Alloc

/-
Specification vocabulary for allocator clients: what a history of calls says about which
indices are in use, what was last written where, and which indices were freed. All of it
is computed from the *history of events* alone, never from allocator memory.
-/
namespace Sokoban.AllocSpec
variable {T : Type}

/-- A client's call on the public allocator API (node_allocator.rs:265-329 and
`get_mut(i).set_value`). -/
inductive Op (T : Type) where
  | add (v : T)
  | remove (i : Nat)
  | setRegister (i value r : Nat)
  | clearRegister (i r : Nat)
  | connect (i j rI rJ : Nat)
  | disconnect (i j rI rJ : Nat)
  | setValue (i : Nat) (v : T)

/-- What the call returned. -/
inductive Out (T : Type) where
  | index (i : Nat)
  | value (v : Option T)
  | unit

/-- Perform one call. -/
def call {M N : Nat} (a : NodeAllocator T M N) : Op T → R (NodeAllocator T M N × Out T)
  | .add v => do let (a, i) ← a.addNode v; return (a, .index i)
  | .remove i => do let (a, v) ← a.removeNode i; return (a, .value v)
  | .setRegister i v r => do return (← a.setRegister i v r, .unit)
  | .clearRegister i r => do return (← a.clearRegister i r, .unit)
  | .connect i j rI rJ => do return (← a.connect i j rI rJ, .unit)
  | .disconnect i j rI rJ => do return (← a.disconnect i j rI rJ, .unit)
  | .setValue i v => do return (← a.setValue i v, .unit)

/-- Observable events. -/
inductive Event (T : Type) where
  | added (i : Nat) (v : T)
  | removed (i : Nat)
  | wroteReg (i r v : Nat)
  | wroteVal (i : Nat) (v : T)

/-- Events caused by a call that returned, newest first. A register write addressed to
index 0 (`SENTINEL`) is documented to do nothing. -/
def events : Op T → Out T → List (Event T)
  | .add v, .index i => [.added i v]
  | .remove i, _ => [.removed i]
  | .setRegister i v r, _ => if i = 0 then [] else [.wroteReg i r v]
  | .clearRegister i r, _ => if i = 0 then [] else [.wroteReg i r 0]
  | .connect i j rI rJ, _ =>
      (if j = 0 then [] else [.wroteReg j rJ i]) ++ (if i = 0 then [] else [.wroteReg i rI j])
  | .disconnect i j rI rJ, _ =>
      (if j = 0 then [] else [.wroteReg j rJ 0]) ++ (if i = 0 then [] else [.wroteReg i rI 0])
  | .setValue i v, _ => [.wroteVal i v]
  | .add _, _ => []

/-- Indices in use after a history (newest event first): added and not removed since. -/
def live : List (Event T) → List Nat
  | [] => []
  | .added i _ :: tr => i :: live tr
  | .removed i :: tr => (live tr).erase i
  | .wroteReg .. :: tr => live tr
  | .wroteVal .. :: tr => live tr

/-- Indices removed and not handed out again, most recently removed first. -/
def freed : List (Event T) → List Nat
  | [] => []
  | .added i _ :: tr => (freed tr).erase i
  | .removed i :: tr => i :: freed tr
  | .wroteReg .. :: tr => freed tr
  | .wroteVal .. :: tr => freed tr

/-- Value last stored at an index, by `add_node` or `set_value`. -/
def lastVal : List (Event T) → Nat → Option T
  | [], _ => none
  | .added i v :: tr, k => if k = i then some v else lastVal tr k
  | .removed _ :: tr, k => lastVal tr k
  | .wroteReg .. :: tr, k => lastVal tr k
  | .wroteVal i v :: tr, k => if k = i then some v else lastVal tr k

/-- Value last written to a register (0 if never written); handing out an index resets its
register 0, the one used for the free list, to 0. -/
def lastReg : List (Event T) → Nat → Nat → Nat
  | [], _, _ => 0
  | .added i _ :: tr, k, s => if k = i ∧ s = 0 then 0 else lastReg tr k s
  | .removed _ :: tr, k, s => lastReg tr k s
  | .wroteReg i r v :: tr, k, s => if k = i ∧ s = r then v else lastReg tr k s
  | .wroteVal .. :: tr, k, s => lastReg tr k s

/-- An index a client may mention in a register write: in use, or SENTINEL. -/
def Mentionable (tr : List (Event T)) (i : Nat) : Prop := i ∈ live tr ∨ i = 0

/-- The client contract: only indices in use are removed, written or connected; register
numbers are in range. `add_node` is always allowed (it may panic). -/
def Legal (N : Nat) (tr : List (Event T)) : Op T → Prop
  | .add _ => True
  | .remove i => i ∈ live tr
  | .setRegister i _ r => Mentionable tr i ∧ r < N
  | .clearRegister i r => Mentionable tr i ∧ r < N
  | .connect i j rI rJ => Mentionable tr i ∧ Mentionable tr j ∧ rI < N ∧ rJ < N
  | .disconnect i j rI rJ => Mentionable tr i ∧ Mentionable tr j ∧ rI < N ∧ rJ < N
  | .setValue i _ => i ∈ live tr

/-- `Reach z a tr`: a legal client history starting from a new allocator has produced the
allocator `a` and the events `tr` (newest first). -/
inductive Reach {M N : Nat} (z : T) : NodeAllocator T M N → List (Event T) → Prop
  | new : Reach z (NodeAllocator.new z) []
  | step {a a' : NodeAllocator T M N} {tr : List (Event T)} {op : Op T} {out : Out T} :
      Reach z a tr → Legal N tr op → call a op = .ok (a', out) →
      Reach z a' (events op out ++ tr)

/-- The documented rule "When deleting nodes, you MUST clear all registers prior to calling
`remove_node`" (node_allocator.rs:283). -/
def ClearsFirst (N : Nat) (tr : List (Event T)) : Op T → Prop
  | .remove i => ∀ r, r < N → lastReg tr i r = 0
  | _ => True

/-- Histories which in addition obey the documented rule. -/
inductive ReachClean {M N : Nat} (z : T) : NodeAllocator T M N → List (Event T) → Prop
  | new : ReachClean z (NodeAllocator.new z) []
  | step {a a' : NodeAllocator T M N} {tr : List (Event T)} {op : Op T} {out : Out T} :
      ReachClean z a tr → Legal N tr op → ClearsFirst N tr op → call a op = .ok (a', out) →
      ReachClean z a' (events op out ++ tr)

/-- How many nodes an allocator with `MAX_SIZE = M` can hold at a time. Indices are `u32`, 0 is the null
index, and the test for a full buffer compares with `(MAX_SIZE + 1) as u32`. For every `M` with
`M + 1 < 2^32` this is `M`. -/
def usable (M : Nat) : Nat := min (M % 2 ^ 32) (2 ^ 32 - 2)

/-- The panic of `add_node` on an allocator that holds `usable M` nodes: "Buffer is full", except that with
`MAX_SIZE + 1` a multiple of `2^32` the overflow of `bump_index` comes first. -/
def fullPanic (M : Nat) : Panic := if (M + 1) % 2 ^ 32 = 0 then .overflow else .bufferFull

/-- Add a list of values one after the other; returns the indices handed out. -/
def addAll {M N : Nat} (a : NodeAllocator T M N) : List T → R (NodeAllocator T M N × List Nat)
  | [] => .ok (a, [])
  | v :: vs => do
    let (a, i) ← a.addNode v
    let (a, is) ← addAll a vs
    return (a, i :: is)

end Sokoban.AllocSpec
