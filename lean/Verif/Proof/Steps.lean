import Verif.Spec.Steps
import Verif.Proof.Loops
import Verif.Proof.AVLAny
import Verif.Proof.RBAny
import Verif.Proof.CritbitLaws
import Verif.Proof.AnyEq

/-
Costs of whole iterations: every node is pushed on a stack once.
-/
namespace Sokoban
open BT

theorem drive_steps {It α : Type} {next nextBack : It → R (It × Option α)} {lp lpB : Nat → It → R (It × Option α)}
    {I : It → Nat → Nat → Prop}
    (hn : ∀ it a b, I it a b → ∃ c it' o a', lp c it = .ok (it', o) ∧ next it = .ok (it', o) ∧ I it' a' b ∧
      a' + c ≤ a + 1)
    (hb : ∀ it a b, I it a b → ∃ c it' o b', lpB c it = .ok (it', o) ∧ nextBack it = .ok (it', o) ∧ I it' a b' ∧
      b' + c ≤ b + 1) :
    ∀ (es : List End) (it : It) (a b : Nat), I it a b → ∃ cs r, cs.map Prod.fst = es ∧
      driveWithin lp lpB it cs = .ok r ∧ drive next nextBack it es = .ok r ∧
      spent .front cs ≤ a + es.count .front ∧ spent .back cs ≤ b + es.count .back
  | [], it, a, b, _ => ⟨[], (it, []), rfl, rfl, rfl, by simp [spent], by simp [spent]⟩
  | .front :: es, it, a, b, h => by
    obtain ⟨c, it', o, a', h1, h2, h3, h4⟩ := hn it a b h
    obtain ⟨cs, r, g1, g2, g3, g4, g5⟩ := drive_steps hn hb es it' a' b h3
    refine ⟨(.front, c) :: cs, (r.1, o :: r.2), by simp [g1], ?_, ?_, ?_, ?_⟩
    · simp only [driveWithin, h1, g2, except_bind_ok]; rfl
    · simp only [drive, h2, g3, except_bind_ok]; rfl
    · simp only [spent, List.count_cons]; simp; omega
    · simp only [spent, List.count_cons]; simp; omega
  | .back :: es, it, a, b, h => by
    obtain ⟨c, it', o, b', h1, h2, h3, h4⟩ := hb it a b h
    obtain ⟨cs, r, g1, g2, g3, g4, g5⟩ := drive_steps hn hb es it' a b' h3
    refine ⟨(.back, c) :: cs, (r.1, o :: r.2), by simp [g1], ?_, ?_, ?_, ?_⟩
    · simp only [driveWithin, h1, g2, except_bind_ok]; rfl
    · simp only [drive, h2, g3, except_bind_ok]; rfl
    · simp only [spent, List.count_cons]; simp; omega
    · simp only [spent, List.count_cons]; simp; omega

/-- nodes below those on a stack -/
def pend {K V : Type} : List (GN K V × BT K V) → Nat
  | [] => 0
  | (_, b) :: st => b.ids.length + pend st

namespace AVLTree
variable {K V : Type} {M : Nat} {s : AVLTree K V M}

/-- a forward cursor that has `a` nodes to push -/
def FwdA (s : AVLTree K V M) (it : Iter) (a : Nat) : Prop :=
  ∃ (t : BT K V) (st : List (GN K V × BT K V)), it.fwdPtr = t.root ∧ it.fwdStack = stk st ∧
    Cur s.rg true t st ∧ (∀ i ∈ t.ids ++ fwdIds st, 1 ≤ i ∧ i ≤ M) ∧ a = t.ids.length + pend st

/-- a backward cursor that has `b` nodes to push -/
def BwdA (s : AVLTree K V M) (it : Iter) (b : Nat) : Prop :=
  ∃ (t : BT K V) (st : List (GN K V × BT K V)), it.revPtr = t.root ∧ it.revStack = stk st ∧
    Cur s.rg false t st ∧ (∀ i ∈ bwdIds st ++ t.ids, 1 ≤ i ∧ i ≤ M) ∧ b = t.ids.length + pend st

theorem next_steps : ∀ (t : BT K V) (st : List (GN K V × BT K V)) (it : Iter),
    it.terminated = false → it.fwdPtr = t.root → it.fwdStack = stk st → Cur s.rg true t st →
    (∀ i ∈ t.ids ++ fwdIds st, 1 ≤ i ∧ i ≤ M) →
    ∃ c it' o a', (∀ fuel, c ≤ fuel → Iter.nextLoop s fuel it = .ok (it', o)) ∧
      a' + c ≤ t.ids.length + pend st + 1 ∧
      (it'.terminated = true ∨ it'.terminated = false ∧ FwdA s it' a' ∧ it'.revPtr = it.revPtr ∧
        it'.revStack = it.revStack) := by
  intro t
  induction t with
  | nil =>
    intro st it ht hp hs hc hr
    have hp0 : it.fwdPtr = 0 := hp
    cases st with
    | nil =>
      have hs' : it.fwdStack = [] := hs
      refine ⟨1, it, none, 0, ?_, by simp [pend], Or.inr ⟨ht, ⟨.nil, [], hp, hs, hc, hr, rfl⟩, rfl, rfl⟩⟩
      intro fuel hf
      obtain ⟨fuel, rfl⟩ : ∃ f, fuel = f + 1 := ⟨fuel - 1, by omega⟩
      unfold Iter.nextLoop
      rw [if_neg (by simp [ht]), if_neg (by simp [hp0, SENTINEL]), hs']; rfl
    | cons e st =>
      obtain ⟨x, b⟩ := e
      obtain ⟨_, h1, h2⟩ := hc
      have hx := hr x.idx (by simp [fwdIds])
      have hs' : it.fwdStack = x.idx :: stk st := hs
      have h1' : s.rg x.idx 1 = b.root := h1
      by_cases hrev : it.revNode = some x.idx
      · refine ⟨1, { it with fwdStack := stk st, terminated := true }, none, 0, ?_, by omega, Or.inl rfl⟩
        intro fuel hf
        obtain ⟨fuel, rfl⟩ : ∃ f, fuel = f + 1 := ⟨fuel - 1, by omega⟩
        unfold Iter.nextLoop
        rw [if_neg (by simp [ht]), if_neg (by simp [hp0, SENTINEL]), hs']
        simp only [hrev, if_true]; rfl
      · refine ⟨1, { it with fwdStack := stk st, fwdNode := some x.idx, fwdPtr := b.root }, some x.idx,
          b.ids.length + pend st, ?_, by simp [pend], Or.inr ⟨ht, ⟨b, st, rfl, rfl, h2, ?_, rfl⟩, rfl, rfl⟩⟩
        · intro fuel hf
          obtain ⟨fuel, rfl⟩ : ∃ f, fuel = f + 1 := ⟨fuel - 1, by omega⟩
          unfold Iter.nextLoop
          rw [if_neg (by simp [ht]), if_neg (by simp [hp0, SENTINEL]), hs']
          simp only [if_neg (show ¬ some x.idx = it.revNode from fun hc => hrev hc.symm), getRight_ok hx.2, h1',
            except_bind_ok]
          rfl
        · intro i hi
          exact hr i (by simp [fwdIds] at hi ⊢; tauto)
  | node l x r ihl _ =>
    intro st it ht hp hs hc hr
    have hx := hr x.idx (by simp)
    obtain ⟨k1, k2, k3, k4⟩ := hc.links
    have hp' : it.fwdPtr = x.idx := hp
    have e : ∀ fuel, Iter.nextLoop s (fuel + 1) it =
        Iter.nextLoop s fuel { it with fwdStack := it.fwdPtr :: it.fwdStack, fwdPtr := l.root } := by
      intro fuel
      conv => lhs; unfold Iter.nextLoop
      rw [if_neg (by simp [ht]), if_pos (by simp [hp', SENTINEL]; omega), hp', getLeft_ok hx.2,
        except_bind_ok, k1]
    obtain ⟨c, it', o, a', h1, h2, h3⟩ := ihl ((x, r) :: st)
      { it with fwdStack := it.fwdPtr :: it.fwdStack, fwdPtr := l.root } ht rfl
      (by simp [stk, hp', hs]) ⟨k3, k2, hc.swap k4⟩ (by intro i hi; exact hr i (by simpa [fwdIds] using hi))
    refine ⟨c + 1, it', o, a', ?_, ?_, h3⟩
    · intro fuel hf
      obtain ⟨fuel, rfl⟩ : ∃ f, fuel = f + 1 := ⟨fuel - 1, by omega⟩
      rw [e, h1 fuel (by omega)]
    · simp [pend] at h2 ⊢; omega

theorem nextBack_steps : ∀ (t : BT K V) (st : List (GN K V × BT K V)) (it : Iter),
    it.terminated = false → it.revPtr = t.root → it.revStack = stk st → Cur s.rg false t st →
    (∀ i ∈ bwdIds st ++ t.ids, 1 ≤ i ∧ i ≤ M) →
    ∃ c it' o a', (∀ fuel, c ≤ fuel → Iter.nextBackLoop s fuel it = .ok (it', o)) ∧
      a' + c ≤ t.ids.length + pend st + 1 ∧
      (it'.terminated = true ∨ it'.terminated = false ∧ BwdA s it' a' ∧ it'.fwdPtr = it.fwdPtr ∧
        it'.fwdStack = it.fwdStack) := by
  intro t
  induction t with
  | nil =>
    intro st it ht hp hs hc hr
    have hp0 : it.revPtr = 0 := hp
    cases st with
    | nil =>
      have hs' : it.revStack = [] := hs
      refine ⟨1, it, none, 0, ?_, by simp [pend], Or.inr ⟨ht, ⟨.nil, [], hp, hs, hc, hr, rfl⟩, rfl, rfl⟩⟩
      intro fuel hf
      obtain ⟨fuel, rfl⟩ : ∃ f, fuel = f + 1 := ⟨fuel - 1, by omega⟩
      unfold Iter.nextBackLoop
      rw [if_neg (by simp [ht]), if_neg (by simp [hp0, SENTINEL]), hs']; rfl
    | cons e st =>
      obtain ⟨x, b⟩ := e
      obtain ⟨_, h1, h2⟩ := hc
      have hx := hr x.idx (by simp [bwdIds])
      have hs' : it.revStack = x.idx :: stk st := hs
      have h1' : s.rg x.idx 0 = b.root := h1
      by_cases hrev : it.fwdNode = some x.idx
      · refine ⟨1, { it with revStack := stk st, terminated := true }, none, 0, ?_, by omega, Or.inl rfl⟩
        intro fuel hf
        obtain ⟨fuel, rfl⟩ : ∃ f, fuel = f + 1 := ⟨fuel - 1, by omega⟩
        unfold Iter.nextBackLoop
        rw [if_neg (by simp [ht]), if_neg (by simp [hp0, SENTINEL]), hs']
        simp only [hrev, if_true]; rfl
      · refine ⟨1, { it with revStack := stk st, revNode := some x.idx, revPtr := b.root }, some x.idx,
          b.ids.length + pend st, ?_, by simp [pend], Or.inr ⟨ht, ⟨b, st, rfl, rfl, h2, ?_, rfl⟩, rfl, rfl⟩⟩
        · intro fuel hf
          obtain ⟨fuel, rfl⟩ : ∃ f, fuel = f + 1 := ⟨fuel - 1, by omega⟩
          unfold Iter.nextBackLoop
          rw [if_neg (by simp [ht]), if_neg (by simp [hp0, SENTINEL]), hs']
          simp only [if_neg (show ¬ some x.idx = it.fwdNode from fun hc => hrev hc.symm), getLeft_ok hx.2, h1',
            except_bind_ok]
          rfl
        · intro i hi
          exact hr i (by simp [bwdIds] at hi ⊢; tauto)
  | node l x r _ ihr =>
    intro st it ht hp hs hc hr
    have hx := hr x.idx (by simp)
    obtain ⟨k1, k2, k3, k4⟩ := hc.links
    have hp' : it.revPtr = x.idx := hp
    have e : ∀ fuel, Iter.nextBackLoop s (fuel + 1) it =
        Iter.nextBackLoop s fuel { it with revStack := it.revPtr :: it.revStack, revPtr := r.root } := by
      intro fuel
      conv => lhs; unfold Iter.nextBackLoop
      rw [if_neg (by simp [ht]), if_pos (by simp [hp', SENTINEL]; omega), hp', getRight_ok hx.2,
        except_bind_ok, k2]
    obtain ⟨c, it', o, a', h1, h2, h3⟩ := ihr ((x, l) :: st)
      { it with revStack := it.revPtr :: it.revStack, revPtr := r.root } ht rfl
      (by simp [stk, hp', hs]) ⟨k4, k1, hc.swap k3⟩ (by intro i hi; exact hr i (by simpa [bwdIds] using hi))
    refine ⟨c + 1, it', o, a', ?_, ?_, h3⟩
    · intro fuel hf
      obtain ⟨fuel, rfl⟩ : ∃ f, fuel = f + 1 := ⟨fuel - 1, by omega⟩
      rw [e, h1 fuel (by omega)]
    · simp [pend] at h2 ⊢; omega

/-- what is left to push at either end -/
def ItA (s : AVLTree K V M) (it : Iter) (a b : Nat) : Prop :=
  it.terminated = true ∨ it.terminated = false ∧ FwdA s it a ∧ BwdA s it b ∧ a ≤ M ∧ b ≤ M

theorem ItA.next {it : Iter} {a b : Nat} (h : ItA s it a b) :
    ∃ c it' o a', Iter.nextLoop s c it = .ok (it', o) ∧ Iter.nextMut s it = .ok (it', o) ∧ ItA s it' a' b ∧
      a' + c ≤ a + 1 := by
  rcases h with h | ⟨ht, ⟨t, st, f1, f2, f3, f4, rfl⟩, hB, ha, hb⟩
  · exact ⟨1, it, none, a, by simp [Iter.nextLoop, h], by simp [Iter.nextMut, Iter.nextLoop, h], Or.inl h, by omega⟩
  · obtain ⟨c, it', o, a', h1, h2, h3⟩ := next_steps t st it ht f1 f2 f3 f4
    by_cases hc : c = 0
    · subst hc
      have := h1 0 (by omega)
      simp [Iter.nextLoop] at this
    · refine ⟨c, it', o, a', h1 c (by omega), h1 (M + 2) (by omega), ?_, h2⟩
      refine h3.imp_right fun ⟨g1, g2, g3, g4⟩ => ⟨g1, g2, ?_, by omega, hb⟩
      obtain ⟨t, st, e1, e2, e3⟩ := hB
      exact ⟨t, st, by rw [g3]; exact e1, by rw [g4]; exact e2, e3⟩

theorem ItA.nextBack {it : Iter} {a b : Nat} (h : ItA s it a b) :
    ∃ c it' o b', Iter.nextBackLoop s c it = .ok (it', o) ∧ Iter.nextBackMut s it = .ok (it', o) ∧ ItA s it' a b' ∧
      b' + c ≤ b + 1 := by
  rcases h with h | ⟨ht, hF, ⟨t, st, f1, f2, f3, f4, rfl⟩, ha, hb⟩
  · exact ⟨1, it, none, b, by simp [Iter.nextBackLoop, h], by simp [Iter.nextBackMut, Iter.nextBackLoop, h], Or.inl h,
      by omega⟩
  · obtain ⟨c, it', o, a', h1, h2, h3⟩ := nextBack_steps t st it ht f1 f2 f3 f4
    by_cases hc : c = 0
    · subst hc
      have := h1 0 (by omega)
      simp [Iter.nextBackLoop] at this
    · refine ⟨c, it', o, a', h1 c (by omega), h1 (M + 2) (by omega), ?_, h2⟩
      refine h3.imp_right fun ⟨g1, g2, g3, g4⟩ => ⟨g1, ?_, g2, ha, by omega⟩
      obtain ⟨t, st, e1, e2, e3⟩ := hF
      exact ⟨t, st, by rw [g3]; exact e1, by rw [g4]; exact e2, e3⟩

theorem Held.steps {E : Ents K V} (h : Held s E) (es : List End) :
    ∃ cs r, cs.map Prod.fst = es ∧
      driveWithin (Iter.nextLoop s) (Iter.nextBackLoop s) s.iter cs = .ok r ∧
      drive (Iter.nextMut s) (Iter.nextBackMut s) s.iter es = .ok r ∧
      spent .front cs ≤ s.len + es.count .front ∧ spent .back cs ≤ s.len + es.count .back := by
  have hb := h.base
  have hlen : E.length = s.len := by have := hb.size; simpa [len] using this.symm
  obtain ⟨t, hz, _, hE, hroot, _⟩ := h.tree
  have hids : t.ids = E.map Prod.fst := by rw [← hE]; rfl
  have hr : ∀ i ∈ t.ids, 1 ≤ i ∧ i ≤ M := by rw [hids]; intro i hi; exact hb.range hi
  have hlen : t.ids.length = s.len := by rw [hids, List.length_map, hlen]
  have hle : s.len ≤ M := by rw [← hlen]; exact nodup_len (by rw [hids]; exact hb.nodup) hr
  have h0 : ItA s s.iter s.len s.len := Or.inr ⟨rfl, ⟨t, [], hroot, rfl, hz.shape.links, by simpa [fwdIds] using hr,
    by simp [pend, hlen]⟩, ⟨t, [], hroot, rfl, hz.shape.links, by simpa [bwdIds] using hr, by simp [pend, hlen]⟩,
    hle, hle⟩
  exact drive_steps (fun it a b h => h.next) (fun it a b h => h.nextBack) es _ _ _ h0

end AVLTree

namespace RedBlackTree
variable {K V : Type} {M : Nat} {s : RedBlackTree K V M}

/-- a forward cursor that has `a` nodes to push -/
def FwdA (s : RedBlackTree K V M) (it : Iter) (a : Nat) : Prop :=
  ∃ (t : BT K V) (st : List (GN K V × BT K V)), it.fwdPtr = t.root ∧ it.fwdStack = stk st ∧
    Cur s.rg true t st ∧ (∀ i ∈ t.ids ++ fwdIds st, 1 ≤ i ∧ i ≤ M) ∧ a = t.ids.length + pend st

/-- a backward cursor that has `b` nodes to push -/
def BwdA (s : RedBlackTree K V M) (it : Iter) (b : Nat) : Prop :=
  ∃ (t : BT K V) (st : List (GN K V × BT K V)), it.revPtr = t.root ∧ it.revStack = stk st ∧
    Cur s.rg false t st ∧ (∀ i ∈ bwdIds st ++ t.ids, 1 ≤ i ∧ i ≤ M) ∧ b = t.ids.length + pend st

theorem next_steps : ∀ (t : BT K V) (st : List (GN K V × BT K V)) (it : Iter),
    it.terminated = false → it.fwdPtr = t.root → it.fwdStack = stk st → Cur s.rg true t st →
    (∀ i ∈ t.ids ++ fwdIds st, 1 ≤ i ∧ i ≤ M) →
    ∃ c it' o a', (∀ fuel, c ≤ fuel → Iter.nextLoop s fuel it = .ok (it', o)) ∧
      a' + c ≤ t.ids.length + pend st + 1 ∧
      (it'.terminated = true ∨ it'.terminated = false ∧ FwdA s it' a' ∧ it'.revPtr = it.revPtr ∧
        it'.revStack = it.revStack) := by
  intro t
  induction t with
  | nil =>
    intro st it ht hp hs hc hr
    have hp0 : it.fwdPtr = 0 := hp
    cases st with
    | nil =>
      have hs' : it.fwdStack = [] := hs
      refine ⟨1, it, none, 0, ?_, by simp [pend], Or.inr ⟨ht, ⟨.nil, [], hp, hs, hc, hr, rfl⟩, rfl, rfl⟩⟩
      intro fuel hf
      obtain ⟨fuel, rfl⟩ : ∃ f, fuel = f + 1 := ⟨fuel - 1, by omega⟩
      unfold Iter.nextLoop
      rw [if_neg (by simp [ht]), if_neg (by simp [hp0, SENTINEL]), hs']; rfl
    | cons e st =>
      obtain ⟨x, b⟩ := e
      obtain ⟨_, h1, h2⟩ := hc
      have hx := hr x.idx (by simp [fwdIds])
      have hs' : it.fwdStack = x.idx :: stk st := hs
      have h1' : s.rg x.idx 1 = b.root := h1
      by_cases hrev : it.revNode = some x.idx
      · refine ⟨1, { it with fwdStack := stk st, terminated := true }, none, 0, ?_, by omega, Or.inl rfl⟩
        intro fuel hf
        obtain ⟨fuel, rfl⟩ : ∃ f, fuel = f + 1 := ⟨fuel - 1, by omega⟩
        unfold Iter.nextLoop
        rw [if_neg (by simp [ht]), if_neg (by simp [hp0, SENTINEL]), hs']
        simp only [hrev, if_true]; rfl
      · refine ⟨1, { it with fwdStack := stk st, fwdNode := some x.idx, fwdPtr := b.root }, some x.idx,
          b.ids.length + pend st, ?_, by simp [pend], Or.inr ⟨ht, ⟨b, st, rfl, rfl, h2, ?_, rfl⟩, rfl, rfl⟩⟩
        · intro fuel hf
          obtain ⟨fuel, rfl⟩ : ∃ f, fuel = f + 1 := ⟨fuel - 1, by omega⟩
          unfold Iter.nextLoop
          rw [if_neg (by simp [ht]), if_neg (by simp [hp0, SENTINEL]), hs']
          simp only [if_neg (show ¬ some x.idx = it.revNode from fun hc => hrev hc.symm), getRight_ok hx.2, h1',
            except_bind_ok]
          rfl
        · intro i hi
          exact hr i (by simp [fwdIds] at hi ⊢; tauto)
  | node l x r ihl _ =>
    intro st it ht hp hs hc hr
    have hx := hr x.idx (by simp)
    obtain ⟨k1, k2, k3, k4⟩ := hc.links
    have hp' : it.fwdPtr = x.idx := hp
    have e : ∀ fuel, Iter.nextLoop s (fuel + 1) it =
        Iter.nextLoop s fuel { it with fwdStack := it.fwdPtr :: it.fwdStack, fwdPtr := l.root } := by
      intro fuel
      conv => lhs; unfold Iter.nextLoop
      rw [if_neg (by simp [ht]), if_pos (by simp [hp', SENTINEL]; omega), hp', getLeft_ok hx.2,
        except_bind_ok, k1]
    obtain ⟨c, it', o, a', h1, h2, h3⟩ := ihl ((x, r) :: st)
      { it with fwdStack := it.fwdPtr :: it.fwdStack, fwdPtr := l.root } ht rfl
      (by simp [stk, hp', hs]) ⟨k3, k2, hc.swap k4⟩ (by intro i hi; exact hr i (by simpa [fwdIds] using hi))
    refine ⟨c + 1, it', o, a', ?_, ?_, h3⟩
    · intro fuel hf
      obtain ⟨fuel, rfl⟩ : ∃ f, fuel = f + 1 := ⟨fuel - 1, by omega⟩
      rw [e, h1 fuel (by omega)]
    · simp [pend] at h2 ⊢; omega

theorem nextBack_steps : ∀ (t : BT K V) (st : List (GN K V × BT K V)) (it : Iter),
    it.terminated = false → it.revPtr = t.root → it.revStack = stk st → Cur s.rg false t st →
    (∀ i ∈ bwdIds st ++ t.ids, 1 ≤ i ∧ i ≤ M) →
    ∃ c it' o a', (∀ fuel, c ≤ fuel → Iter.nextBackLoop s fuel it = .ok (it', o)) ∧
      a' + c ≤ t.ids.length + pend st + 1 ∧
      (it'.terminated = true ∨ it'.terminated = false ∧ BwdA s it' a' ∧ it'.fwdPtr = it.fwdPtr ∧
        it'.fwdStack = it.fwdStack) := by
  intro t
  induction t with
  | nil =>
    intro st it ht hp hs hc hr
    have hp0 : it.revPtr = 0 := hp
    cases st with
    | nil =>
      have hs' : it.revStack = [] := hs
      refine ⟨1, it, none, 0, ?_, by simp [pend], Or.inr ⟨ht, ⟨.nil, [], hp, hs, hc, hr, rfl⟩, rfl, rfl⟩⟩
      intro fuel hf
      obtain ⟨fuel, rfl⟩ : ∃ f, fuel = f + 1 := ⟨fuel - 1, by omega⟩
      unfold Iter.nextBackLoop
      rw [if_neg (by simp [ht]), if_neg (by simp [hp0, SENTINEL]), hs']; rfl
    | cons e st =>
      obtain ⟨x, b⟩ := e
      obtain ⟨_, h1, h2⟩ := hc
      have hx := hr x.idx (by simp [bwdIds])
      have hs' : it.revStack = x.idx :: stk st := hs
      have h1' : s.rg x.idx 0 = b.root := h1
      by_cases hrev : it.fwdNode = some x.idx
      · refine ⟨1, { it with revStack := stk st, terminated := true }, none, 0, ?_, by omega, Or.inl rfl⟩
        intro fuel hf
        obtain ⟨fuel, rfl⟩ : ∃ f, fuel = f + 1 := ⟨fuel - 1, by omega⟩
        unfold Iter.nextBackLoop
        rw [if_neg (by simp [ht]), if_neg (by simp [hp0, SENTINEL]), hs']
        simp only [hrev, if_true]; rfl
      · refine ⟨1, { it with revStack := stk st, revNode := some x.idx, revPtr := b.root }, some x.idx,
          b.ids.length + pend st, ?_, by simp [pend], Or.inr ⟨ht, ⟨b, st, rfl, rfl, h2, ?_, rfl⟩, rfl, rfl⟩⟩
        · intro fuel hf
          obtain ⟨fuel, rfl⟩ : ∃ f, fuel = f + 1 := ⟨fuel - 1, by omega⟩
          unfold Iter.nextBackLoop
          rw [if_neg (by simp [ht]), if_neg (by simp [hp0, SENTINEL]), hs']
          simp only [if_neg (show ¬ some x.idx = it.fwdNode from fun hc => hrev hc.symm), getLeft_ok hx.2, h1',
            except_bind_ok]
          rfl
        · intro i hi
          exact hr i (by simp [bwdIds] at hi ⊢; tauto)
  | node l x r _ ihr =>
    intro st it ht hp hs hc hr
    have hx := hr x.idx (by simp)
    obtain ⟨k1, k2, k3, k4⟩ := hc.links
    have hp' : it.revPtr = x.idx := hp
    have e : ∀ fuel, Iter.nextBackLoop s (fuel + 1) it =
        Iter.nextBackLoop s fuel { it with revStack := it.revPtr :: it.revStack, revPtr := r.root } := by
      intro fuel
      conv => lhs; unfold Iter.nextBackLoop
      rw [if_neg (by simp [ht]), if_pos (by simp [hp', SENTINEL]; omega), hp', getRight_ok hx.2,
        except_bind_ok, k2]
    obtain ⟨c, it', o, a', h1, h2, h3⟩ := ihr ((x, l) :: st)
      { it with revStack := it.revPtr :: it.revStack, revPtr := r.root } ht rfl
      (by simp [stk, hp', hs]) ⟨k4, k1, hc.swap k3⟩ (by intro i hi; exact hr i (by simpa [bwdIds] using hi))
    refine ⟨c + 1, it', o, a', ?_, ?_, h3⟩
    · intro fuel hf
      obtain ⟨fuel, rfl⟩ : ∃ f, fuel = f + 1 := ⟨fuel - 1, by omega⟩
      rw [e, h1 fuel (by omega)]
    · simp [pend] at h2 ⊢; omega

/-- what is left to push at either end -/
def ItA (s : RedBlackTree K V M) (it : Iter) (a b : Nat) : Prop :=
  it.terminated = true ∨ it.terminated = false ∧ FwdA s it a ∧ BwdA s it b ∧ a ≤ M ∧ b ≤ M

theorem ItA.next {it : Iter} {a b : Nat} (h : ItA s it a b) :
    ∃ c it' o a', Iter.nextLoop s c it = .ok (it', o) ∧ Iter.nextMut s it = .ok (it', o) ∧ ItA s it' a' b ∧
      a' + c ≤ a + 1 := by
  rcases h with h | ⟨ht, ⟨t, st, f1, f2, f3, f4, rfl⟩, hB, ha, hb⟩
  · exact ⟨1, it, none, a, by simp [Iter.nextLoop, h], by simp [Iter.nextMut, Iter.nextLoop, h], Or.inl h, by omega⟩
  · obtain ⟨c, it', o, a', h1, h2, h3⟩ := next_steps t st it ht f1 f2 f3 f4
    by_cases hc : c = 0
    · subst hc
      have := h1 0 (by omega)
      simp [Iter.nextLoop] at this
    · refine ⟨c, it', o, a', h1 c (by omega), h1 (M + 2) (by omega), ?_, h2⟩
      refine h3.imp_right fun ⟨g1, g2, g3, g4⟩ => ⟨g1, g2, ?_, by omega, hb⟩
      obtain ⟨t, st, e1, e2, e3⟩ := hB
      exact ⟨t, st, by rw [g3]; exact e1, by rw [g4]; exact e2, e3⟩

theorem ItA.nextBack {it : Iter} {a b : Nat} (h : ItA s it a b) :
    ∃ c it' o b', Iter.nextBackLoop s c it = .ok (it', o) ∧ Iter.nextBackMut s it = .ok (it', o) ∧ ItA s it' a b' ∧
      b' + c ≤ b + 1 := by
  rcases h with h | ⟨ht, hF, ⟨t, st, f1, f2, f3, f4, rfl⟩, ha, hb⟩
  · exact ⟨1, it, none, b, by simp [Iter.nextBackLoop, h], by simp [Iter.nextBackMut, Iter.nextBackLoop, h], Or.inl h,
      by omega⟩
  · obtain ⟨c, it', o, a', h1, h2, h3⟩ := nextBack_steps t st it ht f1 f2 f3 f4
    by_cases hc : c = 0
    · subst hc
      have := h1 0 (by omega)
      simp [Iter.nextBackLoop] at this
    · refine ⟨c, it', o, a', h1 c (by omega), h1 (M + 2) (by omega), ?_, h2⟩
      refine h3.imp_right fun ⟨g1, g2, g3, g4⟩ => ⟨g1, ?_, g2, ha, by omega⟩
      obtain ⟨t, st, e1, e2, e3⟩ := hF
      exact ⟨t, st, by rw [g3]; exact e1, by rw [g4]; exact e2, e3⟩

theorem Held.steps {E : Ents K V} (h : Held s E) (es : List End) :
    ∃ cs r, cs.map Prod.fst = es ∧
      driveWithin (Iter.nextLoop s) (Iter.nextBackLoop s) s.iter cs = .ok r ∧
      drive (Iter.nextMut s) (Iter.nextBackMut s) s.iter es = .ok r ∧
      spent .front cs ≤ s.len + es.count .front ∧ spent .back cs ≤ s.len + es.count .back := by
  have hb := h.base
  have hlen : E.length = s.len := by have := hb.size; simpa [len] using this.symm
  obtain ⟨t, hz, _, hE, hroot, _⟩ := h.tree
  have hids : t.ids = E.map Prod.fst := by rw [← hE]; rfl
  have hr : ∀ i ∈ t.ids, 1 ≤ i ∧ i ≤ M := by rw [hids]; intro i hi; exact hb.range hi
  have hlen : t.ids.length = s.len := by rw [hids, List.length_map, hlen]
  have hle : s.len ≤ M := by rw [← hlen]; exact nodup_len (by rw [hids]; exact hb.nodup) hr
  have h0 : ItA s s.iter s.len s.len := Or.inr ⟨rfl, ⟨t, [], hroot, rfl, hz.shape.links, by simpa [fwdIds] using hr,
    by simp [pend, hlen]⟩, ⟨t, [], hroot, rfl, hz.shape.links, by simpa [bwdIds] using hr, by simp [pend, hlen]⟩,
    hle, hle⟩
  exact drive_steps (fun it a b h => h.next) (fun it a b h => h.nextBack) es _ _ _ h0

end RedBlackTree

/-- nodes of a critbit tree -/
def CT.nodes {V : Type} : CT V → Nat
  | .leaf _ _ _ _ => 1
  | .inner _ _ _ l r => l.nodes + r.nodes + 1

theorem CT.nodes_eq {V : Type} (t : CT V) : t.nodes + 1 = 2 * t.ents.length := by
  induction t with
  | leaf i j k v => rfl
  | inner i p k l r ihl ihr => simp only [CT.nodes, CT.ents_inner, List.length_append]; omega

/-- nodes of the trees on a stack -/
def cpend {V : Type} : List (CT V) → Nat
  | [] => 0
  | t :: ts => t.nodes + cpend ts

namespace Critbit
open CT
variable {V : Type} {N M : Nat} {s : Critbit V N M}

theorem next_steps : ∀ (t : CT V) (ts : List (CT V)) (it : Iter),
    it.terminated = false → Stk s it.fwdStack (t :: ts) →
    ∃ c it' o a', c ≤ t.height ∧ (∀ fuel, c ≤ fuel → Iter.nextLoop s fuel it = .ok (it', o)) ∧
      a' + c ≤ cpend (t :: ts) ∧
      (it'.terminated = true ∨ it'.terminated = false ∧ (∃ ts', Stk s it'.fwdStack ts' ∧ a' = cpend ts') ∧
        it'.revStack = it.revStack) := by
  intro t
  induction t with
  | leaf i j k v =>
    intro ts it ht ⟨h1, h2⟩
    obtain ⟨g1, g2⟩ := (h2 _ (List.mem_cons_self)).1.leaf
    simp only [List.map_cons, root_leaf] at h1
    by_cases hr : it.revNode = some j
    · refine ⟨1, { it with fwdStack := ts.map CT.root, terminated := true }, none, 0, by simp [CT.height], ?_,
        by simp only [cpend, CT.nodes]; omega, Or.inl rfl⟩
      intro fuel hf
      obtain ⟨fuel, rfl⟩ : ∃ f, fuel = f + 1 := ⟨fuel - 1, by omega⟩
      simp only [Iter.nextLoop, ht, h1, g1, g2, except_bind_ok, Bool.false_eq_true, if_false, Bool.not_false, if_true]
      rw [if_pos hr.symm]; rfl
    · refine ⟨1, { it with fwdStack := ts.map CT.root, fwdNode := some j }, some (i, j), cpend ts, by simp [CT.height], ?_,
        by simp only [cpend, CT.nodes]; omega, Or.inr ⟨ht, ⟨ts, ⟨rfl, fun t ht => h2 t (by simp [ht])⟩, rfl⟩, rfl⟩⟩
      intro fuel hf
      obtain ⟨fuel, rfl⟩ : ∃ f, fuel = f + 1 := ⟨fuel - 1, by omega⟩
      simp only [Iter.nextLoop, ht, h1, g1, g2, except_bind_ok, Bool.false_eq_true, if_false, Bool.not_false, if_true]
      rw [if_neg (fun hc => hr hc.symm)]; rfl
  | inner i p k l r ihl ihr =>
    intro ts it ht ⟨h1, h2⟩
    have hsk := (h2 _ (List.mem_cons_self)).1
    have hh := (h2 _ (List.mem_cons_self)).2
    obtain ⟨g1, g2, g3⟩ := hsk.inner
    simp only [CT.height] at hh
    simp only [List.map_cons, root_inner] at h1
    have hsk5 := hsk.2.2.2.2.1
    have hsk6 := hsk.2.2.2.2.2
    obtain ⟨c, it', o, a', e0, e1, e2, e3⟩ := ihl (r :: ts) { it with fwdStack := l.root :: r.root :: ts.map CT.root } ht
      ⟨by simp, by
        intro t ht
        simp only [List.mem_cons] at ht
        rcases ht with rfl | rfl | ht
        · exact ⟨by assumption, by omega⟩
        · exact ⟨by assumption, by omega⟩
        · exact h2 t (by simp [ht])⟩
    refine ⟨c + 1, it', o, a', by simp only [CT.height]; omega, ?_, by simp only [cpend, CT.nodes] at e2 ⊢; omega, e3⟩
    intro fuel hf
    obtain ⟨fuel, rfl⟩ : ∃ f, fuel = f + 1 := ⟨fuel - 1, by omega⟩
    rw [← e1 fuel (by omega), Iter.nextLoop]
    simp only [ht, h1, g1, g2, g3, except_bind_ok, Bool.false_eq_true, if_false, Bool.not_true]


theorem nextBack_steps : ∀ (t : CT V) (ts : List (CT V)) (it : Iter),
    it.terminated = false → Stk s it.revStack (t :: ts) →
    ∃ c it' o a', c ≤ t.height ∧ (∀ fuel, c ≤ fuel → Iter.nextBackLoop s fuel it = .ok (it', o)) ∧
      a' + c ≤ cpend (t :: ts) ∧
      (it'.terminated = true ∨ it'.terminated = false ∧ (∃ ts', Stk s it'.revStack ts' ∧ a' = cpend ts') ∧
        it'.fwdStack = it.fwdStack) := by
  intro t
  induction t with
  | leaf i j k v =>
    intro ts it ht ⟨h1, h2⟩
    obtain ⟨g1, g2⟩ := (h2 _ (List.mem_cons_self)).1.leaf
    simp only [List.map_cons, root_leaf] at h1
    by_cases hr : it.fwdNode = some j
    · refine ⟨1, { it with revStack := ts.map CT.root, terminated := true }, none, 0, by simp [CT.height], ?_,
        by simp only [cpend, CT.nodes]; omega, Or.inl rfl⟩
      intro fuel hf
      obtain ⟨fuel, rfl⟩ : ∃ f, fuel = f + 1 := ⟨fuel - 1, by omega⟩
      simp only [Iter.nextBackLoop, ht, h1, g1, g2, except_bind_ok, Bool.false_eq_true, if_false, Bool.not_false, if_true]
      rw [if_pos hr.symm]; rfl
    · refine ⟨1, { it with revStack := ts.map CT.root, revNode := some j }, some (i, j), cpend ts, by simp [CT.height], ?_,
        by simp only [cpend, CT.nodes]; omega, Or.inr ⟨ht, ⟨ts, ⟨rfl, fun t ht => h2 t (by simp [ht])⟩, rfl⟩, rfl⟩⟩
      intro fuel hf
      obtain ⟨fuel, rfl⟩ : ∃ f, fuel = f + 1 := ⟨fuel - 1, by omega⟩
      simp only [Iter.nextBackLoop, ht, h1, g1, g2, except_bind_ok, Bool.false_eq_true, if_false, Bool.not_false, if_true]
      rw [if_neg (fun hc => hr hc.symm)]; rfl
  | inner i p k l r ihl ihr =>
    intro ts it ht ⟨h1, h2⟩
    have hsk := (h2 _ (List.mem_cons_self)).1
    have hh := (h2 _ (List.mem_cons_self)).2
    obtain ⟨g1, g2, g3⟩ := hsk.inner
    simp only [CT.height] at hh
    simp only [List.map_cons, root_inner] at h1
    have hsk5 := hsk.2.2.2.2.1
    have hsk6 := hsk.2.2.2.2.2
    obtain ⟨c, it', o, a', e0, e1, e2, e3⟩ := ihr (l :: ts) { it with revStack := r.root :: l.root :: ts.map CT.root } ht
      ⟨by simp, by
        intro t ht
        simp only [List.mem_cons] at ht
        rcases ht with rfl | rfl | ht
        · exact ⟨by assumption, by omega⟩
        · exact ⟨by assumption, by omega⟩
        · exact h2 t (by simp [ht])⟩
    refine ⟨c + 1, it', o, a', by simp only [CT.height]; omega, ?_, by simp only [cpend, CT.nodes] at e2 ⊢; omega, e3⟩
    intro fuel hf
    obtain ⟨fuel, rfl⟩ : ∃ f, fuel = f + 1 := ⟨fuel - 1, by omega⟩
    rw [← e1 fuel (by omega), Iter.nextBackLoop]
    simp only [ht, h1, g1, g2, g3, except_bind_ok, Bool.false_eq_true, if_false, Bool.not_true]

/-- what is left to push at either end -/
def ItA (s : Critbit V N M) (it : Iter) (a b : Nat) : Prop :=
  it.terminated = true ∨ it.terminated = false ∧ (∃ ts, Stk s it.fwdStack ts ∧ a = cpend ts) ∧
    ∃ ts, Stk s it.revStack ts ∧ b = cpend ts

theorem ItA.next {it : Iter} {a b : Nat} (h : ItA s it a b) :
    ∃ c it' o a', Iter.nextLoop s c it = .ok (it', o) ∧ Iter.nextMut s it = .ok (it', o) ∧ ItA s it' a' b ∧
      a' + c ≤ a + 1 := by
  rcases h with h | ⟨ht, ⟨ts, hst, rfl⟩, hB⟩
  · exact ⟨1, it, none, a, by simp [Iter.nextLoop, h], by simp [Iter.nextMut, Iter.nextLoop, h], Or.inl h, by omega⟩
  · cases ts with
    | nil =>
      have hs : it.fwdStack = [] := hst.1
      exact ⟨1, it, none, 0, by simp [Iter.nextLoop, ht, hs], by simp [Iter.nextMut, Iter.nextLoop, ht, hs],
        Or.inr ⟨ht, ⟨[], hst, rfl⟩, hB⟩, by omega⟩
    | cons t ts =>
      obtain ⟨c, it', o, a', h0, h1, h2, h3⟩ := next_steps t ts it ht hst
      refine ⟨c, it', o, a', h1 c (by omega), h1 (N + 1) (by have := (hst.2 t (by simp)).2; omega), ?_, by omega⟩
      refine h3.imp_right fun ⟨g1, g2, g3⟩ => ⟨g1, g2, ?_⟩
      rw [g3]; exact hB

theorem ItA.nextBack {it : Iter} {a b : Nat} (h : ItA s it a b) :
    ∃ c it' o b', Iter.nextBackLoop s c it = .ok (it', o) ∧ Iter.nextBackMut s it = .ok (it', o) ∧ ItA s it' a b' ∧
      b' + c ≤ b + 1 := by
  rcases h with h | ⟨ht, hF, ⟨ts, hst, rfl⟩⟩
  · exact ⟨1, it, none, b, by simp [Iter.nextBackLoop, h], by simp [Iter.nextBackMut, Iter.nextBackLoop, h], Or.inl h,
      by omega⟩
  · cases ts with
    | nil =>
      have hs : it.revStack = [] := hst.1
      exact ⟨1, it, none, 0, by simp [Iter.nextBackLoop, ht, hs], by simp [Iter.nextBackMut, Iter.nextBackLoop, ht, hs],
        Or.inr ⟨ht, hF, ⟨[], hst, rfl⟩⟩, by omega⟩
    | cons t ts =>
      obtain ⟨c, it', o, a', h0, h1, h2, h3⟩ := nextBack_steps t ts it ht hst
      refine ⟨c, it', o, a', h1 c (by omega), h1 (N + 1) (by have := (hst.2 t (by simp)).2; omega), ?_, by omega⟩
      refine h3.imp_right fun ⟨g1, g2, g3⟩ => ⟨g1, ?_, g2⟩
      rw [g3]; exact hF

theorem Inv.steps {E : Ents (BitVec 128) V} (h : Inv s E) (es : List End) :
    ∃ cs r, cs.map Prod.fst = es ∧
      driveWithin (Iter.nextLoop s) (Iter.nextBackLoop s) s.iter cs = .ok r ∧
      drive (Iter.nextMut s) (Iter.nextBackMut s) s.iter es = .ok r ∧
      spent .front cs ≤ 2 * s.len - 1 + es.count .front ∧ spent .back cs ≤ 2 * s.len - 1 + es.count .back := by
  have hlen := h.len
  have h0 : ItA s s.iter (2 * s.len - 1) (2 * s.len - 1) := by
    refine Or.inr ?_
    unfold Critbit.iter
    rcases h with ⟨h, rfl⟩ | ⟨t, h, rfl⟩
    · rw [if_pos (show s.root = SENTINEL from h.1), hlen]
      exact ⟨rfl, ⟨[], ⟨rfl, by simp⟩, rfl⟩, ⟨[], ⟨rfl, by simp⟩, rfl⟩⟩
    · rw [if_neg h.root_ne, hlen]
      have := t.nodes_eq
      have hs : Stk s [s.root] [t] := ⟨by simp [h.root], by simpa using ⟨h.sh.sk, h.height⟩⟩
      exact ⟨rfl, ⟨[t], hs, by simp [cpend]; omega⟩, ⟨[t], hs, by simp [cpend]; omega⟩⟩
  exact drive_steps (fun it a b h => h.next) (fun it a b h => h.nextBack) es _ _ _ h0

end Critbit

namespace HashTable
open NodeAllocator
variable {kn : Known} {K V : Type} {B M : Nat} {st : Prop} {hash : K → Nat} {h : HashTable K V B M} {c : Nat → List (Ent K V)}

theorem skip_cost {r : Iter × Bool} : ∀ (fuel : Nat) (it : Iter), it.bucket < B → Iter.skip h fuel it = .ok r →
    ∃ n, Iter.skip h n it = .ok r ∧ r.1.bucket ≤ B ∧ (B - r.1.bucket) + n ≤ B - it.bucket + 1
  | 0, it, hb, e => by simp [Iter.skip] at e
  | fuel + 1, it, hb, e => by
    by_cases hn : it.node ≠ SENTINEL
    · have hs : ∀ f, Iter.skip h (f + 1) it = .ok (it, false) := by
        intro f; rw [Iter.skip, if_pos hn]; rfl
      rw [hs] at e; cases e
      exact ⟨1, hs 0, by dsimp only; omega, by dsimp only; omega⟩
    · by_cases hB : it.bucket + 1 = B
      · have hs : ∀ f, Iter.skip h (f + 1) it = .ok ({ it with bucket := it.bucket + 1 }, true) := by
          intro f; rw [Iter.skip, if_neg hn, if_pos hB]; rfl
        rw [hs] at e; cases e
        exact ⟨1, hs 0, by dsimp only; omega, by dsimp only; omega⟩
      · cases hh : h.bucket (it.bucket + 1) with
        | error p =>
          rw [Iter.skip, if_neg hn, if_neg hB] at e
          simp [hh] at e
        | ok hd =>
          have hs : ∀ f, Iter.skip h (f + 1) it = Iter.skip h f { it with bucket := it.bucket + 1, node := hd } := by
            intro f
            rw [Iter.skip, if_neg hn, if_neg hB]
            simp [hh]
          rw [hs] at e
          obtain ⟨n, e1, e2, e3⟩ := skip_cost fuel _ (show it.bucket + 1 < B by omega) e
          refine ⟨n + 1, by rw [hs]; exact e1, e2, ?_⟩
          dsimp only at e3
          omega

theorem steps (H : HHeld st hash h c) (es : List End) :
    ∃ it cs r, h.iter = .ok it ∧ cs.map Prod.fst = es ∧
      driveWithin (nextWithin h) (fun _ => Iter.nextBackMut h) it cs = .ok r ∧
      drive (Iter.nextMut h) (Iter.nextBackMut h) it es = .ok r ∧
      spent .front cs ≤ B + es.count .front := by
  obtain ⟨it, e, hI⟩ := iter_ok H
  have hib : it.bucket = 0 := by
    have := e
    unfold iter at this
    rw [bucket_ok H H.pos] at this
    cases this; rfl
  obtain ⟨cs, r, h1, h2, h3, h4, _⟩ := drive_steps (next := Iter.nextMut h) (nextBack := Iter.nextBackMut h)
    (lp := nextWithin h) (lpB := fun _ => Iter.nextBackMut h)
    (I := fun it a b => (∃ pre m, IterInv B c it pre m) ∧ a = B - it.bucket)
    (by
      rintro it a b ⟨⟨pre, m, hI⟩, rfl⟩
      have hn : ∃ it' o, Iter.nextMut h it = .ok (it', o) ∧ ∃ pre m, IterInv B c it' pre m := by
        rcases next_spec H hI with ⟨rfl, it', _, e, hI'⟩ |
          ⟨x, l, it', b, done, r, rfl, _, e, hb, hbk, hn, hc, hp, hl⟩
        · exact ⟨it', none, by simpa using e, pre, [], hI'⟩
        · refine ⟨it', some x.1, by simpa using e, pre ++ [x], l,
            Or.inl ⟨by rw [hbk]; exact hb, done ++ [x], r, ?_, hn, ?_, ?_⟩⟩
          · rw [hbk, hc]; simp
          · rw [hp, hbk]; simp
          · rw [hl, hbk]
      obtain ⟨it', o, en, hI'⟩ := hn
      by_cases hb : it.bucket < B
      · have en' := en
        unfold Iter.nextMut at en'
        rw [if_pos hb] at en'
        cases hs : Iter.skip h (B + 1) it with
        | error p => simp [hs] at en'
        | ok r =>
          obtain ⟨n, g1, g2, g3⟩ := skip_cost _ it hb hs
          obtain ⟨it1, d⟩ := r
          have hbk : it'.bucket = it1.bucket := by
            rw [hs, except_bind_ok] at en'
            dsimp only at en'
            cases d with
            | true => simp at en'; rw [← en'.1]
            | false =>
              simp only [Bool.false_eq_true, if_false] at en'
              cases hg : h.getNext it1.node with
              | error p => simp [hg] at en'
              | ok nx => simp [hg] at en'; rw [← en'.1]
          refine ⟨n, it', o, _, ?_, en, ⟨hI', rfl⟩, by rw [hbk]; exact g3⟩
          unfold nextWithin
          rw [if_pos hb, g1, except_bind_ok, en]
      · refine ⟨0, it', o, B - it'.bucket, ?_, en, ⟨hI', rfl⟩, ?_⟩
        · unfold nextWithin; rw [if_neg hb, en]
        · unfold Iter.nextMut at en
          rw [if_neg hb] at en
          cases en; omega)
    (by
      rintro it a b ⟨hI, rfl⟩
      exact ⟨0, it, none, 0, rfl, rfl, ⟨hI, rfl⟩, by omega⟩) es it B 0 ⟨⟨_, _, hI⟩, by rw [hib]; rfl⟩
  exact ⟨it, cs, r, e, h1, h2, h3, h4⟩

end HashTable

end Sokoban
