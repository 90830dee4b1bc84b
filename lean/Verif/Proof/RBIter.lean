import Verif.Proof.RBMap
import Verif.Proof.TreeIter

/-
The double-ended iterators of the red-black tree.
-/
namespace Sokoban
open BT

namespace RedBlackTree
variable {K V : Type} {M : Nat} {s : RedBlackTree K V M}

/-- the forward half of the invariant -/
def Fwd (s : RedBlackTree K V M) (it : Iter) (l : List Nat) : Prop :=
  ∃ (t : BT K V) (st : List (GN K V × BT K V)), it.fwdPtr = t.root ∧ it.fwdStack = stk st ∧
    Cur s.rg true t st ∧ l = t.ids ++ fwdIds st

/-- the backward half of the invariant -/
def Bwd (s : RedBlackTree K V M) (it : Iter) (l : List Nat) : Prop :=
  ∃ (t : BT K V) (st : List (GN K V × BT K V)), it.revPtr = t.root ∧ it.revStack = stk st ∧
    Cur s.rg false t st ∧ l = bwdIds st ++ t.ids

/-- the iterator still has to yield `m` -/
def It (s : RedBlackTree K V M) (it : Iter) (m : List Nat) : Prop :=
  ∃ p q : List Nat, (p ++ m ++ q).Nodup ∧ (∀ i ∈ p ++ m ++ q, 1 ≤ i ∧ i ≤ M) ∧
    ((it.terminated = true ∧ m = []) ∨
      (it.terminated = false ∧ Fwd s it (m ++ q) ∧ Bwd s it (p ++ m) ∧
        it.fwdNode = p.getLast? ∧ it.revNode = q.head?))

theorem It.congr {s' : RedBlackTree K V M} (h : s'.rg = s.rg) {it : Iter} {m : List Nat} (hi : It s it m) :
    It s' it m := by
  unfold It Fwd Bwd at *
  rwa [h]

/-- the loop of `next` -/
theorem nextLoop_spec : ∀ (t : BT K V) (st : List (GN K V × BT K V)) (it : Iter) (fuel : Nat),
    it.terminated = false → it.fwdPtr = t.root → it.fwdStack = stk st → Cur s.rg true t st →
    (∀ i ∈ t.ids ++ fwdIds st, 1 ≤ i ∧ i ≤ M) → t.ids.length + 1 ≤ fuel →
    (t.ids ++ fwdIds st = [] ∧ Iter.nextLoop s fuel it = .ok (it, none)) ∨
    (∃ i l it', t.ids ++ fwdIds st = i :: l ∧ it.revNode = some i ∧ it'.terminated = true ∧
      Iter.nextLoop s fuel it = .ok (it', none)) ∨
    ∃ i l it', t.ids ++ fwdIds st = i :: l ∧ it.revNode ≠ some i ∧ Fwd s it' l ∧ it'.terminated = false ∧
      it'.fwdNode = some i ∧
      it'.revPtr = it.revPtr ∧ it'.revStack = it.revStack ∧ it'.revNode = it.revNode ∧
      Iter.nextLoop s fuel it = .ok (it', some i) := by
  intro t
  induction t with
  | nil =>
    intro st it fuel ht hp hs hc hr hf
    obtain ⟨fuel, rfl⟩ : ∃ f, fuel = f + 1 := ⟨fuel - 1, by omega⟩
    have hp0 : it.fwdPtr = 0 := hp
    cases st with
    | nil =>
      left
      refine ⟨rfl, ?_⟩
      have hs' : it.fwdStack = [] := hs
      unfold Iter.nextLoop
      rw [if_neg (by simp [ht]), if_neg (by simp [hp0, SENTINEL]), hs']; rfl
    | cons e st =>
      obtain ⟨x, b⟩ := e
      right
      obtain ⟨_, h1, h2⟩ := hc
      have hx := hr x.idx (by simp [fwdIds])
      have hs' : it.fwdStack = x.idx :: stk st := hs
      have h1' : s.rg x.idx 1 = b.root := h1
      by_cases hrev : it.revNode = some x.idx
      · left
        refine ⟨x.idx, b.ids ++ fwdIds st, { it with fwdStack := stk st, terminated := true }, rfl, hrev, rfl, ?_⟩
        unfold Iter.nextLoop
        rw [if_neg (by simp [ht]), if_neg (by simp [hp0, SENTINEL]), hs']
        simp only [hrev, if_true]; rfl
      · right
        refine ⟨x.idx, b.ids ++ fwdIds st, { it with fwdStack := stk st, fwdNode := some x.idx, fwdPtr := b.root },
          rfl, hrev, ⟨b, st, rfl, rfl, h2, rfl⟩, ht, rfl, rfl, rfl, rfl, ?_⟩
        unfold Iter.nextLoop
        rw [if_neg (by simp [ht]), if_neg (by simp [hp0, SENTINEL]), hs']
        simp only [if_neg (show ¬ some x.idx = it.revNode from fun hc => hrev hc.symm), getRight_ok hx.2, h1',
          except_bind_ok]
        rfl
  | node l x r ihl _ =>
    intro st it fuel ht hp hs hc hr hf
    obtain ⟨fuel, rfl⟩ : ∃ f, fuel = f + 1 := ⟨fuel - 1, by omega⟩
    have hx := hr x.idx (by simp)
    obtain ⟨k1, k2, k3, k4⟩ := hc.links
    have hp' : it.fwdPtr = x.idx := hp
    have e : Iter.nextLoop s (fuel + 1) it =
        Iter.nextLoop s fuel { it with fwdStack := it.fwdPtr :: it.fwdStack, fwdPtr := l.root } := by
      conv => lhs; unfold Iter.nextLoop
      rw [if_neg (by simp [ht]), if_pos (by simp [hp', SENTINEL]; omega), hp', getLeft_ok hx.2,
        except_bind_ok, k1]
    rw [e]
    have hids : (BT.node l x r).ids ++ fwdIds st = l.ids ++ fwdIds ((x, r) :: st) := by simp [fwdIds]
    rw [hids] at hr ⊢
    refine Or.inr ((ihl ((x, r) :: st) { it with fwdStack := it.fwdPtr :: it.fwdStack, fwdPtr := l.root } fuel ht rfl
      (by simp [stk, hp', hs]) ⟨k3, k2, hc.swap k4⟩ hr (by simp at hf; omega)).resolve_left ?_)
    simp [fwdIds]

/-- the loop of `next_back` -/
theorem nextBackLoop_spec : ∀ (t : BT K V) (st : List (GN K V × BT K V)) (it : Iter) (fuel : Nat),
    it.terminated = false → it.revPtr = t.root → it.revStack = stk st → Cur s.rg false t st →
    (∀ i ∈ bwdIds st ++ t.ids, 1 ≤ i ∧ i ≤ M) → t.ids.length + 1 ≤ fuel →
    (bwdIds st ++ t.ids = [] ∧ Iter.nextBackLoop s fuel it = .ok (it, none)) ∨
    (∃ i l it', bwdIds st ++ t.ids = l ++ [i] ∧ it.fwdNode = some i ∧ it'.terminated = true ∧
      Iter.nextBackLoop s fuel it = .ok (it', none)) ∨
    ∃ i l it', bwdIds st ++ t.ids = l ++ [i] ∧ it.fwdNode ≠ some i ∧ Bwd s it' l ∧ it'.terminated = false ∧
      it'.revNode = some i ∧
      it'.fwdPtr = it.fwdPtr ∧ it'.fwdStack = it.fwdStack ∧ it'.fwdNode = it.fwdNode ∧
      Iter.nextBackLoop s fuel it = .ok (it', some i) := by
  intro t
  induction t with
  | nil =>
    intro st it fuel ht hp hs hc hr hf
    obtain ⟨fuel, rfl⟩ : ∃ f, fuel = f + 1 := ⟨fuel - 1, by omega⟩
    have hp0 : it.revPtr = 0 := hp
    cases st with
    | nil =>
      left
      refine ⟨rfl, ?_⟩
      have hs' : it.revStack = [] := hs
      unfold Iter.nextBackLoop
      rw [if_neg (by simp [ht]), if_neg (by simp [hp0, SENTINEL]), hs']; rfl
    | cons e st =>
      obtain ⟨x, b⟩ := e
      right
      obtain ⟨_, h1, h2⟩ := hc
      have hx := hr x.idx (by simp [bwdIds])
      have hs' : it.revStack = x.idx :: stk st := hs
      have h1' : s.rg x.idx 0 = b.root := h1
      by_cases hrev : it.fwdNode = some x.idx
      · left
        refine ⟨x.idx, bwdIds st ++ b.ids, { it with revStack := stk st, terminated := true }, by simp [bwdIds], hrev, rfl, ?_⟩
        unfold Iter.nextBackLoop
        rw [if_neg (by simp [ht]), if_neg (by simp [hp0, SENTINEL]), hs']
        simp only [hrev, if_true]; rfl
      · right
        refine ⟨x.idx, bwdIds st ++ b.ids, { it with revStack := stk st, revNode := some x.idx, revPtr := b.root },
          by simp [bwdIds], hrev, ⟨b, st, rfl, rfl, h2, rfl⟩, ht, rfl, rfl, rfl, rfl, ?_⟩
        unfold Iter.nextBackLoop
        rw [if_neg (by simp [ht]), if_neg (by simp [hp0, SENTINEL]), hs']
        simp only [if_neg (show ¬ some x.idx = it.fwdNode from fun hc => hrev hc.symm), getLeft_ok hx.2, h1',
          except_bind_ok]
        rfl
  | node l x r _ ihr =>
    intro st it fuel ht hp hs hc hr hf
    obtain ⟨fuel, rfl⟩ : ∃ f, fuel = f + 1 := ⟨fuel - 1, by omega⟩
    have hx := hr x.idx (by simp)
    obtain ⟨k1, k2, k3, k4⟩ := hc.links
    have hp' : it.revPtr = x.idx := hp
    have e : Iter.nextBackLoop s (fuel + 1) it =
        Iter.nextBackLoop s fuel { it with revStack := it.revPtr :: it.revStack, revPtr := r.root } := by
      conv => lhs; unfold Iter.nextBackLoop
      rw [if_neg (by simp [ht]), if_pos (by simp [hp', SENTINEL]; omega), hp', getRight_ok hx.2,
        except_bind_ok, k2]
    rw [e]
    have hids : bwdIds st ++ (BT.node l x r).ids = bwdIds ((x, l) :: st) ++ r.ids := by simp [bwdIds]
    rw [hids] at hr ⊢
    refine Or.inr ((ihr ((x, l) :: st) { it with revStack := it.revPtr :: it.revStack, revPtr := r.root } fuel ht rfl
      (by simp [stk, hp', hs]) ⟨k4, k1, hc.swap k3⟩ hr (by simp at hf; omega)).resolve_left ?_)
    simp [bwdIds]

theorem It.nextMut {it : Iter} {l : List Nat} (h : It s it l) :
    ∃ it', Iter.nextMut s it = .ok (it', l.head?) ∧ It s it' l.tail := by
  obtain ⟨p, q, hn, hr, h⟩ := h
  have hlen := nodup_len hn hr
  rcases h with ⟨ht, rfl⟩ | ⟨ht, ⟨t, st, f1, f2, f3, f4⟩, hb, hfn, hrn⟩
  · refine ⟨it, ?_, p, q, hn, hr, Or.inl ⟨ht, rfl⟩⟩
    unfold Iter.nextMut Iter.nextLoop
    simp [ht]
  · have hrr : ∀ i ∈ t.ids ++ fwdIds st, 1 ≤ i ∧ i ≤ M := by
      intro i hi
      rw [← f4] at hi
      exact hr i (by simp only [List.mem_append] at hi ⊢; rcases hi with h | h <;> simp [h])
    have hfuel : t.ids.length + 1 ≤ M + 2 := by
      have := congrArg List.length f4
      simp only [List.length_append] at this hlen
      omega
    rcases nextLoop_spec t st it (M + 2) ht f1 f2 f3 hrr hfuel with ⟨he, e⟩ | ⟨i, l', it', hl, hrv, ht', e⟩ |
        ⟨i, l', it', hl, hrv, hF, ht', hfn', g1, g2, g3, e⟩
    · rw [he] at f4
      have hl0 : l = [] := (List.append_eq_nil_iff.1 f4).1
      have hq0 : q = [] := (List.append_eq_nil_iff.1 f4).2
      subst hl0
      exact ⟨it, e, p, q, hn, hr, Or.inr ⟨ht, ⟨t, st, f1, f2, f3, by rw [he]; simp [hq0]⟩, hb, hfn, hrn⟩⟩
    · rw [hl] at f4
      have hl0 : l = [] := by
        cases l with
        | nil => rfl
        | cons j l =>
          have hj : j = i := by simpa using congrArg List.head? f4
          rw [hrn] at hrv
          have hiq : i ∈ q := List.mem_of_mem_head? (by rw [hrv]; rfl)
          subst hj
          exact absurd rfl ((List.nodup_append.1 hn).2.2 j (by simp) j hiq)
      subst hl0
      exact ⟨it', e, p, q, hn, hr, Or.inl ⟨ht', rfl⟩⟩
    · rw [hl] at f4
      cases l with
      | nil =>
        exfalso
        simp only [List.nil_append] at f4
        rw [hrn, f4] at hrv
        exact hrv rfl
      | cons j l =>
        simp only [List.cons_append, List.cons.injEq] at f4
        obtain ⟨rfl, rfl⟩ := f4
        refine ⟨it', e, p ++ [j], q, by simpa using hn, by simpa using hr,
          Or.inr ⟨ht', hF, ?_, by simp [hfn'], by rw [g3, hrn]⟩⟩
        obtain ⟨t', st', b1, b2, b3, b4⟩ := hb
        exact ⟨t', st', by rw [g1, b1], by rw [g2, b2], b3, by rw [← b4]; simp⟩

theorem It.nextBackMut {it : Iter} {l : List Nat} (h : It s it l) :
    ∃ it', Iter.nextBackMut s it = .ok (it', l.getLast?) ∧ It s it' l.dropLast := by
  obtain ⟨p, q, hn, hr, h⟩ := h
  have hlen := nodup_len hn hr
  rcases h with ⟨ht, rfl⟩ | ⟨ht, hf, ⟨t, st, f1, f2, f3, f4⟩, hfn, hrn⟩
  · refine ⟨it, ?_, p, q, hn, hr, Or.inl ⟨ht, rfl⟩⟩
    unfold Iter.nextBackMut Iter.nextBackLoop
    simp [ht]
  · have hrr : ∀ i ∈ bwdIds st ++ t.ids, 1 ≤ i ∧ i ≤ M := by
      intro i hi
      rw [← f4] at hi
      exact hr i (List.mem_append_left _ hi)
    have hfuel : t.ids.length + 1 ≤ M + 2 := by
      have := congrArg List.length f4
      simp only [List.length_append] at this hlen
      omega
    rcases nextBackLoop_spec t st it (M + 2) ht f1 f2 f3 hrr hfuel with ⟨he, e⟩ | ⟨i, l', it', hl, hrv, ht', e⟩ |
        ⟨i, l', it', hl, hrv, hB, ht', hrn', g1, g2, g3, e⟩
    · rw [he] at f4
      have hl0 : l = [] := (List.append_eq_nil_iff.1 f4).2
      have hp0 : p = [] := (List.append_eq_nil_iff.1 f4).1
      subst hl0
      exact ⟨it, e, p, q, hn, hr, Or.inr ⟨ht, hf, ⟨t, st, f1, f2, f3, by rw [he]; simp [hp0]⟩, hfn, hrn⟩⟩
    · rw [hl] at f4
      have hl0 : l = [] := by
        rcases List.eq_nil_or_concat l with rfl | ⟨l, j, rfl⟩
        · rfl
        · have hj : j = i := by
            have := congrArg List.getLast? f4
            simpa using this
          rw [hfn] at hrv
          have hip : i ∈ p := List.mem_of_getLast? hrv
          subst hj
          exact absurd rfl ((List.nodup_append.1 (List.nodup_append.1 hn).1).2.2 j hip j (by simp))
      subst hl0
      exact ⟨it', e, p, q, hn, hr, Or.inl ⟨ht', rfl⟩⟩
    · rw [hl] at f4
      rcases List.eq_nil_or_concat l with rfl | ⟨l, j, rfl⟩
      · exfalso
        simp only [List.append_nil] at f4
        rw [hfn, f4] at hrv
        simp at hrv
      · simp only [List.concat_eq_append] at *
        rw [← List.append_assoc] at f4
        obtain ⟨f5, hj⟩ := List.append_inj' f4 rfl
        simp only [List.cons.injEq, and_true] at hj
        subst hj
        refine ⟨it', by simpa [Iter.nextBackMut] using e, p, j :: q, ?_, ?_, Or.inr ⟨ht', ?_, ?_, by rw [g3, hfn], by simp [hrn']⟩⟩
        · simpa using hn
        · simpa using hr
        · obtain ⟨t', st', b1, b2, b3, b4⟩ := hf
          exact ⟨t', st', by rw [g1, b1], by rw [g2, b2], b3, by rw [← b4]; simp⟩
        · rw [List.dropLast_concat, f5]; exact hB

theorem It.new {kn : Known} {t : BT K V} {E : List (Nat × K × V)} (h : Z s [] t [] E) : It s s.iter (E.map Prod.fst) := by
  have hE := h.ents
  have hb := h.base
  simp only [Ctx.lft, Ctx.rgt, List.nil_append, List.append_nil] at hE hb
  refine ⟨[], [], by simpa using hb.nodup, ?_, Or.inr ⟨rfl, ⟨t, [], h.root, rfl, h.shape.links, ?_⟩,
    ⟨t, [], h.root, rfl, h.shape.links, ?_⟩, rfl, rfl⟩⟩
  · intro i hi
    exact hb.range (by simpa using hi)
  · simp [fwdIds, BT.ids, hE]
  · simp [bwdIds, BT.ids, hE]

end RedBlackTree
end Sokoban
