import Verif.Model.Bench
import Verif.Proof.Overwrite
import Verif.Proof.SimulateMaps

/-
The benchmarks.
-/
namespace Sokoban.Bench
open MapSpec Fuzz

variable {S K V It P : Type} [DecidableEq K] {D : DynMap S K V It P} {M : Nat} {refuses : FMap K V → K → Prop}
  {Inv : S → FMap K V → Prop} (H : Good D M refuses Inv)

section
include H

/-- all keys are new -/
theorem insertAll_new (val : K → V) {L : Nat} (hr : ∀ (m : FMap K V) k, m.get k = none → m.len < L → ¬ refuses m k) :
    ∀ (keys : List K) {s : S} {m : FMap K V}, Inv s m → keys.Nodup → (∀ k ∈ keys, m.get k = none) →
      m.len + keys.length ≤ L → ∃ s' m', insertAll D val keys s = .ok s' ∧ Inv s' m' ∧
        m'.len = m.len + keys.length ∧ ∀ k, m'.get k = if k ∈ keys then some (val k) else m.get k
  | [], s, m, h, _, _, _ => ⟨s, m, rfl, h, rfl, by simp⟩
  | k :: keys, s, m, h, hn, hk, hl => by
    have hk0 := hk k (by simp)
    rw [List.length_cons] at hl
    rcases H.insert h k (val k) with ⟨hc, _⟩ | ⟨_, s1, i, e1, h1⟩
    · exact absurd hc (hr m k hk0 (by omega))
    have hlen : (m.insert k (val k)).len = m.len + 1 := by simp [FMap.insert, hk0]
    obtain ⟨s', m', e, h', h2, h3⟩ := insertAll_new val hr keys h1 (List.nodup_cons.1 hn).2 (fun k' hk' => by
      have : k' ≠ k := fun hc => (List.nodup_cons.1 hn).1 (hc ▸ hk')
      simp only [FMap.insert, if_neg this]; exact hk k' (by simp [hk'])) (by omega)
    refine ⟨s', m', by simp only [insertAll, e1, except_bind_ok, e], h', by rw [List.length_cons]; omega, fun k' => ?_⟩
    rw [h3]
    by_cases h4 : k' ∈ keys
    · simp [h4]
    · by_cases h5 : k' = k
      · simp [FMap.insert, h5]
      · simp [h4, h5, FMap.insert]

/-- all keys are there -/
theorem insertAll_old {Same : S → S → Prop} (hs0 : ∀ s, Same s s) (hs : ∀ a b c, Same a b → Same b c → Same a c)
    (ho : ∀ {s m k v s' i}, Inv s m → D.insert s k v = .ok (s', some i) → (m.get k).isSome → Same s s')
    (val : K → V) {L : Nat} (hr : ∀ (m : FMap K V) k, (m.get k).isSome → m.len = L → ¬ refuses m k) :
    ∀ (keys : List K) {s : S} {m : FMap K V}, Inv s m → (∀ k ∈ keys, (m.get k).isSome) → m.len = L →
      ∃ s' m', insertAll D val keys s = .ok s' ∧ Inv s' m' ∧ m'.len = L ∧ Same s s' ∧
        ∀ k, m'.get k = if k ∈ keys then some (val k) else m.get k
  | [], s, m, h, _, hl => ⟨s, m, rfl, h, hl, hs0 s, by simp⟩
  | k :: keys, s, m, h, hk, hl => by
    have hk0 := hk k (by simp)
    rcases H.insert h k (val k) with ⟨hc, _⟩ | ⟨_, s1, i, e1, h1⟩
    · exact absurd hc (hr m k hk0 hl)
    obtain ⟨s', m', e, h', h2, h3, h4⟩ := insertAll_old hs0 hs ho val hr keys h1 (fun k' hk' => by
      simp only [FMap.insert]
      split
      · rfl
      · exact hk k' (by simp [hk'])) (by simp [FMap.insert, hk0, hl])
    refine ⟨s', m', by simp only [insertAll, e1, except_bind_ok, e], h', h2, hs _ _ _ (ho h e1 hk0) h3, fun k' => ?_⟩
    rw [h4]
    by_cases h5 : k' ∈ keys
    · simp [h5]
    · by_cases h6 : k' = k
      · simp [FMap.insert, h6]
      · simp [h5, h6, FMap.insert]

omit [DecidableEq K] H in
/-- all keys are refused -/
theorem insertAll_refused (val : K → V) {s : S} (h : ∀ k v, D.insert s k v = .ok (s, none)) :
    ∀ keys : List K, insertAll D val keys s = .ok s
  | [] => rfl
  | k :: keys => by simp only [insertAll, h, except_bind_ok, insertAll_refused val h keys]

theorem removeAll_ok : ∀ (keys : List K) {s : S} {m : FMap K V}, Inv s m → ∃ s' m', removeAll D keys s = .ok s' ∧
    Inv s' m' ∧ ∀ k, m'.get k = if k ∈ keys then none else m.get k
  | [], s, m, h => ⟨s, m, rfl, h, by simp⟩
  | k :: keys, s, m, h => by
    obtain ⟨s1, e1, h1⟩ := H.remove h k
    obtain ⟨s', m', e, h', h3⟩ := removeAll_ok keys h1
    refine ⟨s', m', by simp only [removeAll, e1, except_bind_ok, e], h', fun k' => ?_⟩
    rw [h3]
    by_cases h5 : k' ∈ keys
    · simp [h5]
    · by_cases h6 : k' = k
      · simp [FMap.erase, h6]
      · simp [h5, h6, FMap.erase]

omit [DecidableEq K] H in
theorem removeAll_none {s : S} (h : ∀ k, D.remove s k = .ok (s, none)) : ∀ keys : List K, removeAll D keys s = .ok s
  | [] => rfl
  | k :: keys => by simp only [removeAll, h, except_bind_ok, removeAll_none h keys]

theorem getAll_ok {s : S} {m : FMap K V} (h : Inv s m) : ∀ keys : List K, getAll D s keys = .ok ()
  | [] => rfl
  | k :: keys => by simp only [getAll, H.get h, except_bind_ok, getAll_ok h keys]

end

theorem iter_same {α : Type} {body : α → S → R S} {s : S} (h : ∀ x, body x s = .ok s) :
    ∀ xs : List α, iter body xs s = .ok s
  | [] => rfl
  | x :: xs => by simp only [iter, h, except_bind_ok, iter_same h xs]

/-- the rounds after the first -/
theorem rounds_old {Same : S → S → Prop} (hs0 : ∀ s, Same s s) (hs : ∀ a b c, Same a b → Same b c → Same a c)
    (ho : ∀ {s m k v s' i}, Inv s m → D.insert s k v = .ok (s', some i) → (m.get k).isSome → Same s s') {L : Nat}
    (hr : ∀ (m : FMap K V) k, (m.get k).isSome → m.len = L → ¬ refuses m k) (keys : List K) (H : Good D M refuses Inv) :
    ∀ (vals : List (K → V)) (val : K → V) {s : S} {m : FMap K V}, Inv s m → m.len = L →
      (∀ k, m.get k = if k ∈ keys then some (val k) else none) →
      ∃ s' m', insertBench D keys vals s = .ok s' ∧ Inv s' m' ∧ m'.len = L ∧ Same s s' ∧
        ∀ k, m'.get k = if k ∈ keys then some (vals.getLastD val k) else none
  | [], val, s, m, h, hl, hk => ⟨s, m, rfl, h, hl, hs0 s, hk⟩
  | v :: vals, val, s, m, h, hl, hk => by
    obtain ⟨s1, m1, e1, h1, l1, r1, g1⟩ := insertAll_old H hs0 hs ho v hr keys h (fun k hm => by rw [hk, if_pos hm]; rfl) hl
    obtain ⟨s', m', e, h', l', r', g'⟩ := rounds_old hs0 hs ho hr keys H vals v h1 l1 (fun k => by
      rw [g1, hk]; split <;> rfl)
    refine ⟨s', m', ?_, h', l', hs _ _ _ r1 r', by rw [List.getLastD_cons]; exact g'⟩
    unfold insertBench at e ⊢
    simp only [iter, e1, except_bind_ok]; exact e

end Sokoban.Bench
