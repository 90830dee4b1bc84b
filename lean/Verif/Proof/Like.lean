import Verif.Spec.Like
import Verif.Proof.Run

/-
Histories on two structures whose functions do the same.
-/
namespace Sokoban
open MapSpec

namespace BothDo
variable {α α' β β' : Type} {P : α → α' → Prop} {Q : β → β' → Prop}

theorem mk {a : α} {a' : α'} (h : P a a') : BothDo P (.ok a) (.ok a') := .ok h
theorem mk_pure {a : α} {a' : α'} (h : P a a') : BothDo P (pure a) (pure a') := .ok h

theorem bind {x : R α} {x' : R α'} {f : α → R β} {f' : α' → R β'} (h : BothDo P x x')
    (k : ∀ a a', P a a' → BothDo Q (f a) (f' a')) : BothDo Q (x >>= f) (x' >>= f') := by
  cases h with
  | ok h => exact k _ _ h
  | error => exact .error

theorem mono {Q : α → α' → Prop} {x : R α} {x' : R α'} (h : BothDo P x x') (k : ∀ a a', P a a' → Q a a') :
    BothDo Q x x' := by
  cases h with
  | ok h => exact .ok (k _ _ h)
  | error => exact .error

theorem of_eq {x x' : R α} (h : x' = x) : BothDo (fun a a' => a' = a) x x' := by
  subst h
  cases x' with
  | ok a => exact .ok rfl
  | error p => exact .error

theorem ok_left {x' : R α'} {a : α} (h : BothDo P (.ok a) x') : ∃ a', x' = .ok a' ∧ P a a' := by
  cases h with
  | ok h => exact ⟨_, rfl, h⟩

end BothDo

variable {K K' V V' : Type} {RK : K → K' → Prop} {RV : V → V' → Prop}

/-- A history of corresponding calls. -/
theorem run_like {S S' O O' E E' : Type} {RS : S → S' → Prop} {RO : O → O' → Prop} {RE : E → E' → Prop}
    {step : S → O → R (S × E)} {step' : S' → O' → R (S' × E')}
    (h : ∀ s s' o o', RS s s' → RO o o' → BothDo (fun r r' => RS r.1 r'.1 ∧ RE r.2 r'.2) (step s o) (step' s' o')) :
    ∀ {ops ops'}, List.Forall₂ RO ops ops' → ∀ {s s'}, RS s s' →
      BothDo (fun r r' => RS r.1 r'.1 ∧ List.Forall₂ RE r.2 r'.2) (run step s ops) (run step' s' ops') := by
  intro ops ops' ho
  induction ho with
  | nil => intro s s' hs; exact .mk ⟨hs, .nil⟩
  | cons h1 _ ih =>
    intro s s' hs
    refine BothDo.bind (h _ _ _ _ hs h1) ?_
    intro a a' ha
    refine BothDo.bind (ih ha.1) ?_
    intro b b' hb
    exact .mk_pure ⟨hb.1, .cons ha.2 hb.2⟩

/-- Two iterators that do the same. -/
theorem drive_like {I I' E E' : Type} {RI : I → I' → Prop} {RE : E → E' → Prop} {n b : I → R (I × Option E)}
    {n' b' : I' → R (I' × Option E')}
    (hn : ∀ i i', RI i i' → BothDo (fun r r' => RI r.1 r'.1 ∧ Option.Rel RE r.2 r'.2) (n i) (n' i'))
    (hb : ∀ i i', RI i i' → BothDo (fun r r' => RI r.1 r'.1 ∧ Option.Rel RE r.2 r'.2) (b i) (b' i')) :
    ∀ es {i i'}, RI i i' →
      BothDo (fun r r' => RI r.1 r'.1 ∧ List.Forall₂ (Option.Rel RE) r.2 r'.2) (drive n b i es) (drive n' b' i' es)
  | [], _, _, hi => .mk ⟨hi, .nil⟩
  | e :: es, i, i', hi => by
    unfold drive
    have h1 : BothDo (fun r r' => RI r.1 r'.1 ∧ Option.Rel RE r.2 r'.2)
        (match e with | .front => n i | .back => b i) (match e with | .front => n' i' | .back => b' i') := by
      cases e
      · exact hn _ _ hi
      · exact hb _ _ hi
    refine BothDo.bind h1 ?_
    intro a a' ha
    refine BothDo.bind (drive_like hn hb es ha.1) ?_
    intro c c' hc
    exact .mk_pure ⟨hc.1, .cons ha.2 hc.2⟩

/-- Two mutable iterators that do the same. -/
theorem driveMut_like {S S' I I' P P' E E' : Type} {RS : S → S' → Prop} {RI : I → I' → Prop} {RP : P → P' → Prop}
    {RE : E → E' → Prop} {n b : S → I → R (I × Option P)} {n' b' : S' → I' → R (I' × Option P')}
    {rd : S → P → R E} {rd' : S' → P' → R E'} {w : S → P → E → R S} {w' : S' → P' → E' → R S'}
    (hn : ∀ s s' i i', RS s s' → RI i i' → BothDo (fun r r' => RI r.1 r'.1 ∧ Option.Rel RP r.2 r'.2) (n s i) (n' s' i'))
    (hb : ∀ s s' i i', RS s s' → RI i i' → BothDo (fun r r' => RI r.1 r'.1 ∧ Option.Rel RP r.2 r'.2) (b s i) (b' s' i'))
    (hr : ∀ s s' p p', RS s s' → RP p p' → BothDo RE (rd s p) (rd' s' p'))
    (hw : ∀ s s' p p' e e', RS s s' → RP p p' → RE e e' → BothDo RS (w s p e) (w' s' p' e')) :
    ∀ {es : List (End × (E → E))} {es' : List (End × (E' → E'))},
      List.Forall₂ (fun e e' => e'.1 = e.1 ∧ ∀ v v', RE v v' → RE (e.2 v) (e'.2 v')) es es' → ∀ {s s' i i'}, RS s s' →
      RI i i' → BothDo (fun r r' => RS r.1 r'.1 ∧ RI r.2.1 r'.2.1 ∧
        List.Forall₂ (Option.Rel fun x x' => RP x.1 x'.1 ∧ RE x.2 x'.2) r.2.2 r'.2.2)
        (driveMut n b rd w s i es) (driveMut n' b' rd' w' s' i' es') := by
  intro es es' he
  induction he with
  | nil => intro s s' i i' hs hi; exact .mk ⟨hs, hi, .nil⟩
  | @cons e e' _ _ h1 _ ih =>
    intro s s' i i' hs hi
    obtain ⟨e, f⟩ := e
    obtain ⟨e', f'⟩ := e'
    obtain ⟨he, hf⟩ := h1
    dsimp only at he hf
    subst e'
    unfold driveMut
    have h1 : BothDo (fun r r' => RI r.1 r'.1 ∧ Option.Rel RP r.2 r'.2)
        (match e with | .front => n s i | .back => b s i) (match e with | .front => n' s' i' | .back => b' s' i') := by
      cases e
      · exact hn _ _ _ _ hs hi
      · exact hb _ _ _ _ hs hi
    refine BothDo.bind h1 ?_
    rintro ⟨i1, x⟩ ⟨i1', x'⟩ ⟨hi1, hx⟩
    dsimp only at hi1 hx ⊢
    cases hx with
    | none =>
      refine BothDo.bind (ih hs hi1) ?_
      intro c c' hc
      exact .mk_pure ⟨hc.1, hc.2.1, .cons .none hc.2.2⟩
    | some hp =>
      refine BothDo.bind (hr _ _ _ _ hs hp) ?_
      intro v v' hv
      refine BothDo.bind (hw _ _ _ _ _ _ hs hp (hf _ _ hv)) ?_
      intro s1 s1' hs1
      refine BothDo.bind (ih hs1 hi1) ?_
      intro c c' hc
      exact .mk_pure ⟨hc.1, hc.2.1, .cons (.some ⟨hp, hv⟩) hc.2.2⟩

theorem script_like {es : List (End × (K → V → V))} {es' : List (End × (K' → V' → V'))}
    (h : List.Forall₂ (fun e e' => e'.1 = e.1 ∧ ∀ k k' v v', RK k k' → RV v v' → RV (e.2 k v) (e'.2 k' v')) es es') :
    List.Forall₂ (fun e e' => e'.1 = e.1 ∧ ∀ v v', EntryLike RK RV v v' → EntryLike RK RV (e.2 v) (e'.2 v'))
      (script es) (script es') := by
  induction h with
  | nil => exact .nil
  | cons h _ ih => exact .cons ⟨h.1, fun v v' hv => ⟨hv.1, h.2 _ _ _ _ hv.1 hv.2⟩⟩ ih

theorem seen_like {P P' : Type} {RP : P → P' → Prop} {l : List (Option (P × K × V))} {l' : List (Option (P' × K' × V'))}
    (h : List.Forall₂ (Option.Rel fun x x' => RP x.1 x'.1 ∧ EntryLike RK RV x.2 x'.2) l l') :
    OutLike RK RV (.seen (l.map (Option.map Prod.snd))) (.seen (l'.map (Option.map Prod.snd))) := by
  refine .seen ?_
  induction h with
  | nil => exact .nil
  | cons h _ ih =>
    refine .cons ?_ ih
    cases h with
    | none => exact .none
    | some h => exact .some h.2

namespace Api.Like
variable {S S' : Type} {RS : S → S' → Prop} {A : Api S K V} {A' : Api S' K' V'} {RI : A.Iter → A'.Iter → Prop}
  {RR : A.Ref → A'.Ref → Prop}

theorem iterMut (L : Api.Like RK RV RS A A' RI RR) {s : S} {s' : S'} {es es'} (hs : RS s s')
    (h : List.Forall₂ (fun e e' => e'.1 = e.1 ∧ ∀ k k' v v', RK k k' → RV v v' → RV (e.2 k v) (e'.2 k' v')) es es') :
    BothDo (fun r r' => RS r.1 r'.1 ∧ RI r.2.1 r'.2.1 ∧
      List.Forall₂ (Option.Rel fun x x' => x'.1 = x.1 ∧ EntryLike RK RV x.2 x'.2) r.2.2 r'.2.2)
      (A.iterMut s es) (A'.iterMut s' es') := by
  unfold Api.iterMut
  refine BothDo.bind (driveMut_like (RE := EntryLike RK RV) L.nextMut L.nextBackMut L.read (fun s s' r r' e e' hs hr he => ?_)
    (script_like h) hs (L.iter _ _ hs)) ?_
  · rw [L.slot _ _ hr]
    exact L.write _ _ _ _ _ hs he.2
  · rintro ⟨s1, i1, l⟩ ⟨s1', i1', l'⟩ ⟨h1, h2, h3⟩
    refine .mk_pure ⟨h1, h2, ?_⟩
    dsimp only at h3 ⊢
    clear h1 h2
    induction h3 with
    | nil => exact .nil
    | cons h _ ih =>
      refine .cons ?_ ih
      cases h with
      | none => exact .none
      | some h => exact .some ⟨L.slot _ _ h.1, h.2⟩

theorem call (L : Api.Like RK RV RS A A' RI RR) (s : S) (s' : S') (op : Op K V) (op' : Op K' V') (hs : RS s s')
    (ho : OpLike RK RV op op') :
    BothDo (fun r r' => RS r.1 r'.1 ∧ OutLike RK RV r.2 r'.2) (A.call s op) (A'.call s' op') := by
  cases ho with
  | insert hk hv =>
    refine BothDo.bind (L.insert _ _ _ _ _ _ hs hk hv) ?_
    intro r r' hr
    refine .mk_pure ⟨hr.1, ?_⟩
    dsimp only
    rw [hr.2]
    exact .inserted
  | remove hk =>
    refine BothDo.bind (L.remove _ _ _ _ hs hk) ?_
    intro r r' hr
    exact .mk_pure ⟨hr.1, .removed hr.2⟩
  | getMut hk hf =>
    refine BothDo.bind (P := fun r r' => RS r.1 r'.1 ∧ Option.Rel RV r.2 r'.2) ?_ ?_
    · unfold getMutWrite
      refine BothDo.bind (.of_eq (L.getMut _ _ _ _ hs hk)) ?_
      intro i i' hi
      subst i'
      cases i with
      | none => exact .mk_pure ⟨hs, .none⟩
      | some i =>
        refine BothDo.bind (L.readVal _ _ i hs) ?_
        intro v v' hv
        refine BothDo.bind (L.write _ _ i _ _ hs (hf _ _ hv)) ?_
        intro s1 s1' hs1
        exact .mk_pure ⟨hs1, .some hv⟩
    · intro r r' hr
      exact .mk_pure ⟨hr.1, .got hr.2⟩
  | iterMut h =>
    refine BothDo.bind (L.iterMut hs h) ?_
    intro r r' hr
    exact .mk_pure ⟨hr.1, seen_like (RP := fun i i' => i' = i) hr.2.2⟩

end Api.Like
end Sokoban
