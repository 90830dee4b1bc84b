import Verif.Proof.Interchange
import Verif.Proof.RBLaws
import Verif.Proof.AVLLaws
import Verif.Proof.CritbitLaws
import Verif.Proof.HashTableHist

/-
Inserting a list of entries into an empty map.
-/
namespace Sokoban.MapSpec
variable {K V : Type} [DecidableEq K]

/-- entries with distinct new keys are all accepted while there is room -/
theorem steps_fill {R : Rules K V} {cap : Nat} (hR : ∀ m k, R.refuses m k → m.len = cap) :
    ∀ (ps : List (K × V)) (m m' : FMap K V) (outs : List (Out K V)), (ps.map Prod.fst).Nodup →
      (∀ e ∈ ps, m.get e.1 = none) → m.len + ps.length ≤ cap →
      Steps R m (ps.map fun e => .insert e.1 e.2) outs m' →
      outs = List.replicate ps.length (.inserted true) ∧ m'.len = m.len + ps.length ∧
        ∀ k v, m'.get k = some v ↔ m.get k = some v ∨ (k, v) ∈ ps
  | [], m, m', [], _, _, _, (h : m' = m) => by subst h; simp
  | [], _, _, _ :: _, _, _, _, h => h.elim
  | _ :: _, _, _, [], _, _, _, h => h.elim
  | (k0, v0) :: ps, m, m', o :: os, hn, hnew, hl, ⟨m1, h1, hs⟩ => by
    have h0 : m.get k0 = none := hnew (k0, v0) (by simp)
    rcases h1 with ⟨hr, _⟩ | ⟨_, rfl, rfl⟩
    · have := hR _ _ hr
      simp at hl; omega
    simp only [List.map_cons, List.nodup_cons] at hn
    have hk : ∀ e ∈ ps, e.1 ≠ k0 := fun e he hc => hn.1 (hc ▸ List.mem_map_of_mem he)
    have hlen : (m.insert k0 v0).len = m.len + 1 := by simp [FMap.insert, h0]
    obtain ⟨e1, e2, e3⟩ := steps_fill hR ps (m.insert k0 v0) m' os hn.2
      (fun e he => by simp only [FMap.insert, if_neg (hk e he)]; exact hnew e (by simp [he]))
      (by rw [hlen]; simp at hl; omega) hs
    refine ⟨by rw [e1]; rfl, by rw [e2, hlen]; simp; omega, fun k v => ?_⟩
    rw [e3]
    by_cases hkk : k = k0
    · subst hkk
      have : (k, v) ∉ ps := fun hc => hk _ hc rfl
      simp [FMap.insert, h0, this, eq_comm]
    · simp [FMap.insert, hkk]

/-- the same, starting with the empty map -/
theorem fill_empty {R : Rules K V} {cap : Nat} (hR : ∀ m k, R.refuses m k → m.len = cap) {ps : List (K × V)}
    {m : FMap K V} {outs : List (Out K V)} (hn : (ps.map Prod.fst).Nodup) (hl : ps.length ≤ cap)
    (hs : Steps R FMap.empty (ps.map fun e => .insert e.1 e.2) outs m) :
    outs = List.replicate ps.length (.inserted true) ∧ m.Lists ps := by
  obtain ⟨h1, h2, h3⟩ := steps_fill hR ps _ _ _ hn (fun _ _ => rfl) (by simpa [FMap.empty] using hl) hs
  exact ⟨h1, hn, fun k v => by rw [h3]; simp [FMap.empty], by rw [h2]; simp [FMap.empty]⟩

omit [DecidableEq K] in
theorem lists_perm {m : FMap K V} {L L' : List (K × V)} (h : m.Lists L) (hp : L'.Perm L) : m.Lists L' :=
  ⟨(hp.map _).nodup_iff.2 h.nodup, fun k v => by rw [hp.mem_iff]; exact h.mem k v, by rw [h.len, hp.length_eq]⟩

omit [DecidableEq K] in
/-- two maps with the same entries -/
theorem lists_same {m m' : FMap K V} {L L' : List (K × V)} (h : m.Lists L) (h' : m'.Lists L') (hp : L'.Perm L) : m' = m := by
  have hg : m'.get = m.get := by
    funext k
    apply Option.ext
    intro v
    rw [← h.mem, ← h'.mem, hp.mem_iff]
  have hl : m'.len = m.len := by rw [h.len, h'.len, hp.length_eq]
  cases m; cases m'; simp_all

end Sokoban.MapSpec
