import Verif.Spec.AnyOrder
import Verif.Proof.Api
import Verif.Proof.Tree

/-
Histories without assumptions about the comparison of keys, for any structure with the laws `Api.Loose`;
the way a search takes through a ghost tree.
-/
namespace Sokoban
open MapSpec

/-- where the search ends up that goes left at `lt`, right at `gt` and stops at `eq` -/
def BT.descend {K V : Type} (st : K → Ordering) : BT K V → Ctx K V → Ctx K V × BT K V
  | .nil, c => (c, .nil)
  | .node l x r, c => match st x.key with
    | .lt => l.descend st ((false, x, r) :: c)
    | .gt => r.descend st ((true, x, l) :: c)
    | .eq => (c, .node l x r)

namespace BT
variable {K V : Type} {st : K → Ordering}
open Ctx

theorem plug_descend : ∀ (t : BT K V) (c : Ctx K V), plug (t.descend st c).1 (t.descend st c).2 = plug c t
  | .nil, c => rfl
  | .node l x r, c => by
    unfold descend
    cases st x.key with
    | lt => exact (plug_descend l _).trans rfl
    | gt => exact (plug_descend r _).trans rfl
    | eq => rfl

theorem descend_eq : ∀ {t : BT K V} {c : Ctx K V} {l x r}, (t.descend st c).2 = .node l x r → st x.key = .eq
  | .nil, c, l, x, r, h => by cases h
  | .node l' x' r', c, l, x, r, h => by
    unfold descend at h
    cases hs : st x'.key with
    | lt => rw [hs] at h; exact descend_eq (t := l') h
    | gt => rw [hs] at h; exact descend_eq (t := r') h
    | eq => rw [hs] at h; cases h; exact hs

/-- below a node the search ends in a proper context or at a node -/
theorem descend_ne : ∀ {t : BT K V} {c : Ctx K V}, (t ≠ .nil ∨ c ≠ []) → (t.descend st c).2 = .nil →
    (t.descend st c).1 ≠ []
  | .nil, c, h, _ => by
    rcases h with h | h
    · exact absurd rfl h
    · exact h
  | .node l x r, c, _, h => by
    unfold descend at h ⊢
    cases hs : st x.key with
    | lt => simp only [hs] at h ⊢; exact descend_ne (t := l) (Or.inr (by simp)) h
    | gt => simp only [hs] at h ⊢; exact descend_ne (t := r) (Or.inr (by simp)) h
    | eq => simp only [hs] at h; cases h

end BT

namespace Api
variable {S K V : Type}
open Ents

/-- what is left of the laws without assumptions about the comparison -/
structure Loose (A : Api S K V) (same : K → K → Prop) (M : Nat) (Rep : S → Ents K V → Prop)
    (It : S → A.Iter → List A.Ref → Prop) : Prop extends Walks A M Rep It where
  find : ∀ {s E}, Rep s E → ∀ k,
    (A.get s k = .ok none ∧ A.getMut s k = .ok none ∧ A.remove s k = .ok (s, none) ∧
      ∀ v, (E.length = M ∧ A.insert s k v = .ok (s, none)) ∨
        (E.length < M ∧ ∃ s' j i L1 L2, E = L1 ++ L2 ∧ A.insert s k v = .ok (s', some j) ∧
          Rep s' (L1 ++ (i, k, v) :: L2))) ∨
    ∃ L1 i k' w L2, E = L1 ++ (i, k', w) :: L2 ∧ same k k' ∧ A.get s k = .ok (some w) ∧
      A.getMut s k = .ok (some i) ∧ (∃ s', A.remove s k = .ok (s', some w) ∧ Rep s' (L1 ++ L2)) ∧
      ∀ v, ∃ s' j, A.insert s k v = .ok (s', some j) ∧ Rep s' (L1 ++ (i, k', v) :: L2)

variable {same : K → K → Prop} {A : Api S K V} {M : Nat} {Rep : S → Ents K V → Prop}
  {It : S → A.Iter → List A.Ref → Prop} (H : Loose A same M Rep It)
include H

theorem Loose.call_spec (s : S) (E : Ents K V) (op : Op K V) (h : Rep s E) :
    ∃ s' o E', A.call s op = .ok (s', o) ∧ Rep s' E' ∧
      AnyOrder.Step same M (E.map Prod.snd) op o (E'.map Prod.snd) := by
  cases op with
  | insert k v =>
    rcases H.find h k with ⟨_, _, _, hi⟩ | ⟨L1, i, k', w, L2, rfl, hs, _, _, _, hi⟩
    · rcases hi v with ⟨hf, e⟩ | ⟨hf, s', j, i, L1, L2, rfl, e, h'⟩
      · exact ⟨s, .inserted false, E, by simp only [call, e]; rfl, h, Or.inr (Or.inr ⟨by simpa using hf, rfl, rfl⟩)⟩
      · exact ⟨s', .inserted true, _, by simp only [call, e]; rfl, h',
          Or.inr (Or.inl ⟨by simpa using hf, L1.map Prod.snd, L2.map Prod.snd, by simp, by simp, rfl⟩)⟩
    · obtain ⟨s', j, e, h'⟩ := hi v
      exact ⟨s', .inserted true, _, by simp only [call, e]; rfl, h',
        Or.inl ⟨L1.map Prod.snd, k', w, L2.map Prod.snd, hs, by simp, by simp, rfl⟩⟩
  | remove k =>
    rcases H.find h k with ⟨_, _, e, _⟩ | ⟨L1, i, k', w, L2, rfl, hs, _, _, ⟨s', e, h'⟩, _⟩
    · exact ⟨s, .removed none, E, by simp only [call, e]; rfl, h, Or.inr ⟨rfl, rfl⟩⟩
    · exact ⟨s', .removed (some w), _, by simp only [call, e]; rfl, h',
        Or.inl ⟨L1.map Prod.snd, k', w, L2.map Prod.snd, hs, by simp, by simp, rfl⟩⟩
  | getMut k f =>
    rcases H.find h k with ⟨_, e, _⟩ | ⟨L1, i, k', w, L2, rfl, hs, _, e, _⟩
    · exact ⟨s, .got none, E, by simp only [call, getMutWrite, e]; rfl, h, Or.inr ⟨rfl, rfl⟩⟩
    · obtain ⟨s', ew, h', _⟩ := H.write h (f w)
      refine ⟨s', .got (some w), _, ?_, h', Or.inl ⟨L1.map Prod.snd, k', w, L2.map Prod.snd, hs, by simp, by simp, rfl⟩⟩
      simp only [call, getMutWrite, e, except_bind_ok, H.readVal h (i := i) (k := k') (v := w) (by simp), ew]
      rfl
  | iterMut es =>
    obtain ⟨s', it', e, h'⟩ := H.iterMut h es
    have hmap := consumeMut_map (Prod.snd : Nat × K × V → K × V)
      (fun f => updV (MapSpec.upd f)) (fun f => MapSpec.upd f) (fun _ _ => rfl) es E
    refine ⟨s', _, _, by simp only [call, e]; rfl, h', ?_, ?_⟩
    · unfold script; rw [hmap.1]
    · unfold script; rw [hmap.2]

theorem Loose.finds {s : S} {E : Ents K V} (h : Rep s E) (k : K) :
    AnyOrder.Finds A same M s (E.map Prod.snd) k := by
  rcases H.find h k with ⟨e1, e2, e3, hi⟩ | ⟨L1, i, k', w, L2, rfl, hs, e1, e2, ⟨s', e3, h3⟩, hi⟩
  · refine Or.inl ⟨e1, e2, e3, fun v => ?_⟩
    rcases hi v with ⟨hf, e⟩ | ⟨hf, s', j, i, L1, L2, rfl, e, h'⟩
    · exact ⟨s, none, e, by simpa using hf, fun _ => rfl, fun hc => absurd rfl hc⟩
    · refine ⟨s', some j, e, by simp at hf ⊢; omega, by simp, fun _ => ?_⟩
      rw [H.len h', H.len h]; simp; omega
  · refine Or.inr ⟨k', w, i, hs, by simp, e1, e2, H.readVal h (k := k') (by simp), ⟨s', e3, ?_⟩, fun v => ?_⟩
    · rw [H.len h3, H.len h]; simp; omega
    · obtain ⟨s', j, e, h'⟩ := hi v
      exact ⟨s', j, e, H.readVal h' (k := k') (by simp), by rw [H.len h', H.len h]; simp⟩

end Api

/-- histories, for a relation between states and sequences -/
theorem run_seq {S Op Out K V : Type} {step : List (K × V) → Op → Out → List (K × V) → Prop}
    {call : S → Op → R (S × Out)} {Rep : S → Ents K V → Prop}
    (hcall : ∀ s E op, Rep s E → ∃ s' o E', call s op = .ok (s', o) ∧ Rep s' E' ∧
      step (E.map Prod.snd) op o (E'.map Prod.snd)) :
    ∀ (ops : List Op) (s : S) (E : Ents K V), Rep s E →
      ∃ s' os E', run call s ops = .ok (s', os) ∧ Rep s' E' ∧
        Trace step (E.map Prod.snd) ops os (E'.map Prod.snd)
  | [], s, E, h => ⟨s, [], E, rfl, h, rfl⟩
  | op :: ops, s, E, h => by
    obtain ⟨s1, o, E1, e1, h1, hs1⟩ := hcall s E op h
    obtain ⟨s2, os, E2, e2, h2, hs2⟩ := run_seq hcall ops s1 E1 h1
    exact ⟨s2, o :: os, E2, by simp [run, e1, e2], h2, ⟨_, hs1, hs2⟩⟩

end Sokoban
