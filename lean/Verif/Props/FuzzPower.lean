import Verif.Proof.FuzzPower
import Verif.Props.Fuzz

/-
Property theorems C85: what the crate's fuzz targets can find out about a map, and what they cannot.
-/
namespace Sokoban.Props
open Fuzz

section
variable {S K V It P : Type} [DecidableEq V] (D : DynMap S K V It P)

/-- C85: let `D` be any implementation of the trait, right or wrong. If no input makes the target fail, then in every
state that an input reaches: what the target asserts holds; every key that the harness remembers is found, and `remove`
returns what `get` found; `insert` of a remembered key and a write through `get_mut` store the value; an insertion of a
key not found is refused or makes it found with its value; `iter()` and `iter().rev()` come to an end and all that
they yield is what `get` finds. -/
theorem C85_fuzz_detects (check : S → R Unit) (fuel : Nat) (s0 : S)
    (hpass : ∀ actions, ∃ r, target D check fuel s0 [] actions = .ok r)
    (actions : List (Action K V × Nat)) {s : S} {keys : List K}
    (hrun : target D check fuel s0 [] actions = .ok (s, keys)) :
    (actions ≠ [] → check s = .ok ()) ∧
    (∀ k ∈ keys, (∃ v s', D.get s k = .ok (some v) ∧ D.remove s k = .ok (s', some v)) ∧
      (∀ v, ∃ s' o, D.insert s k v = .ok (s', o) ∧ D.get s' k = .ok (some v)) ∧
      ∀ v, ∃ s' i s'', D.getMut s k = .ok (s', some i) ∧ D.write s' i v = .ok s'' ∧ D.get s'' k = .ok (some v)) ∧
    (∀ k, D.get s k = .ok none → ∀ v, ∃ s' o, D.insert s k v = .ok (s', o) ∧
      (o.isSome → D.get s' k = .ok (some v))) ∧
    ∃ (it : It) (L L' : List (K × V)), D.iter s = .ok it ∧
      (∃ it', drive (D.next s) (D.nextBack s) it (List.replicate (L.length + 1) .front) =
        .ok (it', L.map some ++ [none])) ∧
      (∃ it', drive (D.next s) (D.nextBack s) it (List.replicate (L'.length + 1) .back) =
        .ok (it', L'.map some ++ [none])) ∧
      ∀ k v, (k, v) ∈ L ∨ (k, v) ∈ L' → D.get s k = .ok (some v) := by
  have next := next_ok hpass hrun
  refine ⟨target_check hrun, fun k hk => ?_, fun k hk v => ?_, ?_⟩
  · obtain ⟨n, e, h0⟩ := at_mem hk
    refine ⟨?_, fun v => ?_, fun v => ?_⟩
    · obtain ⟨r, h⟩ := next .remove n; exact of_remove e h0 h
    · obtain ⟨r, h⟩ := next (.upsert v) n; exact of_upsert e h0 h
    · obtain ⟨r, h⟩ := next (.replace v) n; exact of_replace e h0 h
  · obtain ⟨r, h⟩ := next (.insert k v) 0; exact of_insert hk h
  · obtain ⟨_, h⟩ := next .iter 0
    obtain ⟨it, L, e, h1, h2⟩ := of_iter h
    obtain ⟨_, h⟩ := next .iterRev 0
    obtain ⟨it', L', e', h1', h2'⟩ := of_iterRev h
    rw [e] at e'; cases e'
    exact ⟨it, L, L', e, h1.drive, h1'.drive_back, fun k v h => h.elim (h2 _) (h2' _)⟩

end

/-- C85 (deviation): more is not found out, since the harness does not remember the values. There is a map that forgets
the value of every key but the last one written, and that passes the fuzz target on all inputs. -/
theorem C85_fuzz_misses {K V : Type} [DecidableEq K] [DecidableEq V] {M : Nat} (hM : 2 ≤ M) (v0 : V) :
    ∃ (S It : Type) (D : DynMap S K V It Nat) (s0 : S),
      (∀ k, D.get s0 k = .ok none) ∧
      (∀ fuel actions, M < fuel → ∃ r, target D assertNothing fuel s0 [] actions = .ok r) ∧
      ∀ (k k' : K) (v v' : V), k ≠ k' → ∃ s1 s2 i j, D.insert s0 k v = .ok (s1, some i) ∧ D.get s1 k = .ok (some v) ∧
        D.insert s1 k' v' = .ok (s2, some j) ∧ D.get s2 k = .ok (some v') := by
  refine ⟨List K × V, List K, oneValue M, ([], v0), fun k => rfl, fun fuel actions hf => ?_, fun k k' v v' hk => ?_⟩
  · obtain ⟨s, keys, e, _⟩ := oneValue_target hf actions (s := (([], v0) : List K × V)) (keys := [])
      ⟨List.nodup_nil, by simp, by simp⟩
    exact ⟨_, e⟩
  · refine ⟨([k], v), ([k, k'], v'), 1, 1, ?_, ?_, ?_, ?_⟩
    · simp only [oneValue]; simp; omega
    · simp [oneValue]
    · simp only [oneValue]; simp [hk.symm]; omega
    · simp [oneValue]

/-- The hypothesis of `C85_fuzz_detects` holds for the red-black tree by C79, and fails for a map whose `remove` does
nothing. -/
example : (∀ actions : List (Action Nat Nat × Nat), ∃ r,
      target redBlack assertValid 5 (RedBlackTree.new ⟨0, 0⟩ : RedBlackTree Nat Nat 4) [] actions = .ok r) ∧
    ¬ ∀ actions : List (Action Nat Nat × Nat), ∃ r,
      target { redBlack with remove := fun t _ => .ok (t, none) } assertValid 5
        (RedBlackTree.new ⟨0, 0⟩ : RedBlackTree Nat Nat 4) [] actions = .ok r := by
  constructor
  · intro actions
    obtain ⟨t, keys, e, _⟩ := C79_rb_fuzz (K := Nat) (V := Nat) (M := 4) (by decide) (by decide) ⟨0, 0⟩ actions
      (fuel := 5) (by decide)
    exact ⟨_, e⟩
  · intro h
    obtain ⟨r, e⟩ := h [(.insert 1 10, 0), (.remove, 0)]
    cases e

end Sokoban.Props
