import Verif.Proof.Api

/-
Removing a key just inserted: the entries are those of before, in the same slots.
-/
namespace Sokoban
open Ents MapSpec
variable {S K V : Type}

theorem Ents.Ins.undo {E E1 E2 : Ents K V} {k : K} {v w : V} {i : Nat} (hi : Ins E k v i E1) (ha : Absent E k)
    (hd : Del E1 k w E2) : E2 = E ∧ w = v := by
  rcases hi with ⟨L1, v0, L2, h1, _⟩ | ⟨_, _, L1, L2, rfl, rfl⟩
  · exact absurd rfl (ha (i, k, v0) (by rw [h1]; simp))
  · obtain ⟨A, i', C, h1, rfl⟩ := hd
    have hA : ∀ e ∈ L1, e.2.1 ≠ k := fun e he => ha e (by simp [he])
    have hC : ∀ e ∈ L2, e.2.1 ≠ k := fun e he => ha e (by simp [he])
    rename_i h0 h0b; clear ha h0 h0b
    induction L1 generalizing A with
    | nil =>
      cases A with
      | nil => simp only [List.nil_append, List.cons.injEq, Prod.mk.injEq] at h1; simp [h1]
      | cons a A =>
        simp only [List.nil_append, List.cons_append, List.cons.injEq] at h1
        exact absurd rfl (hC (i', k, w) (by rw [h1.2]; simp))
    | cons x L1 ih =>
      cases A with
      | nil =>
        simp only [List.nil_append, List.cons_append, List.cons.injEq] at h1
        exact absurd (by rw [h1.1]) (hA x (by simp))
      | cons a A =>
        simp only [List.cons_append, List.cons.injEq] at h1
        obtain ⟨h2, h3⟩ := ih A h1.2 fun e he => hA e (by simp [he])
        exact ⟨by rw [List.cons_append, List.cons_append, h2, h1.1], h3⟩

theorem Api.Laws.insert_remove [LT K] {A : Api S K V} {M : Nat} {refuses : Ents K V → K → Prop}
    {Rep : S → Ents K V → Prop} {It : S → A.Iter → List A.Ref → Prop} (L : A.Laws M refuses Rep It)
    {s s1 : S} {E : Ents K V} {k : K} {v : V} {n : Nat} (h : Rep s E) (ha : Absent E k) (e : A.insert s k v = .ok (s1, some n)) :
    ∃ s2, A.remove s1 k = .ok (s2, some v) ∧ Rep s2 E := by
  rcases L.insert h k v with ⟨_, e'⟩ | ⟨_, s', j, i, E1, e', h1, hi⟩
  · rw [e] at e'; cases e'
  rw [e] at e'; cases e'
  rcases L.remove h1 k with ⟨hn, _⟩ | ⟨s2, w, E2, e2, h2, hd⟩
  · rcases hi with ⟨_, _, _, _, rfl⟩ | ⟨_, _, _, _, _, rfl⟩ <;> exact absurd rfl (hn (i, k, v) (by simp))
  · obtain ⟨rfl, rfl⟩ := hi.undo ha hd
    exact ⟨s2, e2, h2⟩

end Sokoban
