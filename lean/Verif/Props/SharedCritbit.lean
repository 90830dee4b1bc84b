import Verif.Proof.SharedCritbit
import Verif.Props.Shared

/-
C100: several maps in the memory of one `Critbit`, by assignments to its public `root`.
-/
namespace Sokoban.Props
open MapSpec (critbitRules)
open Shared
open CritbitSpec (api)

section
variable {V : Type} {N M n : Nat}

/-- **C100**: a client which keeps `n` roots and assigns `critbit.root` before it calls, whatever it has done so far. Every call
that returned has acted on the map in place alone, as on a tree whose capacity is what the other maps leave. What the next
call fails with is known exactly (`CritbitFails`): unlike the other trees, a `Critbit` does not support this. Lookups in a map
that is empty panic while other maps are not, and no map can be emptied while others hold entries. -/
theorem C100_critbit_several (hN : N + 1 < 2 ^ 32) (hNM : 2 * M ≤ N) (hM0 : 0 < M) (z : CritbitNode) (w : V) (j0 : Fin n)
    (ops : List (Op n (BitVec 128) V)) {c : Client n (Critbit V N M) Nat} {outs : List (Out (BitVec 128) V)}
    (hrun : run (exec Critbit.root Critbit.setRoot api.call) ⟨(Critbit.new z w : Critbit V N M), fun _ => SENTINEL, j0⟩ ops = .ok (c, outs)) :
    ∃ x, Trace (Step (critbitRules (BitVec 128) V) M) ⟨fun _ => FMap.empty, j0⟩ ops outs x ∧ c.cur = x.cur ∧
      (∀ j, CritbitShows (c.switch Critbit.root Critbit.setRoot j).state (x.maps j) x.total) ∧
      CritbitShows c.state (x.maps x.cur) x.total ∧ x.total ≤ M ∧ c.state.len = x.total ∧
      ∀ op p, api.call c.state op = .error p ↔ CritbitFails M x op p := by
  obtain ⟨x, D, ht, hf, _⟩ := Critbit.run_fam hN hNM hM0 ops _ _ _ (Critbit.Fam.start z w j0) _ _ hrun
  have hs := hf.size
  refine ⟨x, ht, hf.cur, fun j => hf.shows hN hNM hM0 j, ?_, hs.2, hs.1, fun op p => ?_⟩
  · have := hf.shows hN hNM hM0 c.cur
    rwa [Critbit.view_cur, hf.cur] at this
  · rcases hf.act hN hNM hM0 op with ⟨s', o, _, _, e, _, _, hno, _⟩ | ⟨p', hp', e⟩
    · rw [e]
      exact ⟨fun hc => (by cases hc), fun hc => absurd hc (hno p)⟩
    · rw [e]
      exact ⟨fun hc => (by cases hc; exact hp'), fun hc => by rw [Critbit.fails_unique hc hp']⟩

/-- **C100**: the same as a statement about the next action of the client: it either fails as described, or is a step of the
maps. -/
theorem C100_critbit_next (hN : N + 1 < 2 ^ 32) (hNM : 2 * M ≤ N) (hM0 : 0 < M) (z : CritbitNode) (w : V) (j0 : Fin n)
    (ops : List (Op n (BitVec 128) V)) (op : MapSpec.Op (BitVec 128) V) {c : Client n (Critbit V N M) Nat} {outs : List (Out (BitVec 128) V)}
    (hrun : run (exec Critbit.root Critbit.setRoot api.call) ⟨(Critbit.new z w : Critbit V N M), fun _ => SENTINEL, j0⟩ ops = .ok (c, outs)) :
    ∃ x, Trace (Step (critbitRules (BitVec 128) V) M) ⟨fun _ => FMap.empty, j0⟩ ops outs x ∧
      ((∃ p, CritbitFails M x op p ∧ api.call c.state op = .error p) ∨
       ((∀ p, ¬ CritbitFails M x op p) ∧ ∃ s o y, api.call c.state op = .ok (s, o) ∧
         Step (critbitRules (BitVec 128) V) M x (.call op) (.did o) y)) := by
  obtain ⟨x, D, ht, hf, _⟩ := Critbit.run_fam hN hNM hM0 ops _ _ _ (Critbit.Fam.start z w j0) _ _ hrun
  refine ⟨x, ht, ?_⟩
  rcases hf.act hN hNM hM0 op with ⟨s', o, _, y, e, _, hst, hno, _⟩ | ⟨p', hp', e⟩
  · exact Or.inr ⟨hno, s', o, y, e, hst⟩
  · exact Or.inl ⟨p', hp', e⟩

/-- **C100**: once two maps hold entries each of them keeps at least one: no sequence of calls empties a map while another
is not empty. -/
theorem C100_critbit_two_stay (hN : N + 1 < 2 ^ 32) (hNM : 2 * M ≤ N) (hM0 : 0 < M) (z : CritbitNode) (w : V) (j0 : Fin n)
    (ops ops' : List (Op n (BitVec 128) V)) {c c' : Client n (Critbit V N M) Nat} {outs outs' : List (Out (BitVec 128) V)}
    (hrun : run (exec Critbit.root Critbit.setRoot api.call) ⟨(Critbit.new z w : Critbit V N M), fun _ => SENTINEL, j0⟩ ops = .ok (c, outs))
    (hrun' : run (exec Critbit.root Critbit.setRoot api.call) c ops' = .ok (c', outs')) {i j : Fin n} (hij : i ≠ j)
    (hi : c.aside Critbit.root i ≠ SENTINEL) (hj : c.aside Critbit.root j ≠ SENTINEL) :
    c'.aside Critbit.root i ≠ SENTINEL ∧ c'.aside Critbit.root j ≠ SENTINEL := by
  obtain ⟨x, D, _, hf, _⟩ := Critbit.run_fam hN hNM hM0 ops _ _ _ (Critbit.Fam.start z w j0) _ _ hrun
  obtain ⟨x', D', _, hf', hk⟩ := Critbit.run_fam hN hNM hM0 ops' _ _ _ hf _ _ hrun'
  rw [Ne, hf.roots] at hi hj
  rw [Ne, hf'.roots, Ne, hf'.roots]
  exact hk i j hij hi hj

end

/-! ### examples -/

/-- the results of a client, as numbers -/
def critbitText {S W : Type} {n : Nat} (r : R (Client n S W × List (Out (BitVec 128) Nat))) : Option (List (List Nat)) :=
  let num : Option Nat → List Nat := fun o => (o.map fun v => [v]).getD []
  match r with
  | .error _ => none
  | .ok (_, os) => some (os.map fun
    | .did (.inserted b) => [b.toNat]
    | .did (.removed v) => num v
    | .did (.got v) => num v
    | .did (.seen es) => es.flatMap fun e => (e.map fun e => [e.1.toNat, e.2]).getD [0]
    | .switched => [])

/-- a client of a new tree -/
abbrev critbitRun (ops : List (Op 2 (BitVec 128) Nat)) : R (Client 2 (Critbit Nat 8 4) Nat × List (Out (BitVec 128) Nat)) :=
  run (exec (n := 2) Critbit.root Critbit.setRoot api.call)
    ⟨(Critbit.new ⟨0, 0⟩ 0 : Critbit Nat 8 4), fun _ => SENTINEL, 0⟩ ops

/-- Two maps in a tree of capacity 4 that works: the key 1 is in both; the fifth entry is refused; the last entry of a map
stays. -/
example : critbitText (critbitRun [.call (.insert 1 10), .call (.insert 2 20), .switch 1, .call (.insert 1 11),
      .call (.insert 3 33), .call (.insert 4 44), .call (.remove 2), .switch 0, .call (.getMut 1 id), .call (.remove 2),
      .switch 1, .call (.insert 4 44), .call (.remove 3),
      .call (.iterMut [(.back, fun _ v => v), (.front, fun _ v => v), (.front, fun _ v => v)])]) =
    some [[1], [1], [], [1], [1], [0], [], [], [10], [20], [], [1], [33], [4, 44, 1, 11, 0]] := by decide +kernel

/-- the panic of a client -/
def critbitPanic {A : Type} : R A → Option Panic
  | .error p => some p
  | .ok _ => none

/-- The panics: a lookup and a removal in an empty map beside a map with an entry, the removal of the last entry of a map, and
an insertion into an empty map when the memory is full. -/
example :
    critbitPanic (critbitRun [.call (.insert 1 10), .switch 1, .call (.getMut 1 id)]) = some .indexOutOfBounds ∧
    critbitPanic (critbitRun [.call (.insert 1 10), .switch 1, .call (.remove 1)]) = some .indexOutOfBounds ∧
    critbitPanic (critbitRun [.call (.insert 1 10), .switch 1, .call (.insert 1 11), .call (.remove 1)]) = some .assertion ∧
    critbitPanic (critbitRun [.call (.insert 1 10), .call (.insert 2 20), .call (.insert 3 30), .call (.insert 4 40), .switch 1,
      .call (.insert 1 11)]) = some .bufferFull := by decide +kernel

/-- Removing a key that is absent from a map of one entry is no panic. -/
example : critbitText (critbitRun [.call (.insert 1 10), .switch 1, .call (.insert 1 11), .call (.remove 2)]) =
    some [[1], [], [1], []] := by decide +kernel

end Sokoban.Props
