import Verif.Proof.CritbitTree
import Verif.Spec.Critbit

/-
The double-ended iterators of a `Critbit`.
-/
namespace Sokoban
open NodeAllocator
variable {V : Type} {N M : Nat}

namespace CT
/-- nodes and slots of the leaves -/
def refs (t : CT V) : List (Nat × Nat) := t.nents.map fun e => (e.1, e.2.1)

@[simp] theorem refs_leaf (i s : Nat) (k) (v : V) : (leaf i s k v).refs = [(i, s)] := rfl
@[simp] theorem refs_inner (i p : Nat) (k) (l r : CT V) : (inner i p k l r).refs = l.refs ++ r.refs := by
  simp [refs]

theorem refs_snd (t : CT V) : t.refs.map Prod.snd = t.ents.map Prod.fst := by
  rw [← map_nents]; simp [refs]

theorem refs_ne (t : CT V) : t.refs ≠ [] := by
  intro hc
  have := t.refs_snd
  rw [hc] at this
  exact t.ents_ne (by simpa using this.symm)
end CT

namespace Critbit
open CT
variable {s s' : Critbit V N M} {t l r : CT V}

/-- the registers of the nodes spell `t`; the values play no part -/
def Sk (s : Critbit V N M) : CT V → Prop
  | .leaf i j _ _ => i ≤ N ∧ j ≠ 0 ∧ s.nodeAllocator.reg i 3 = j
  | .inner i _ _ l r => i ≤ N ∧ s.nodeAllocator.reg i 3 = 0 ∧ s.nodeAllocator.reg i 0 = l.root ∧
      s.nodeAllocator.reg i 1 = r.root ∧ Sk s l ∧ Sk s r

theorem Sh.sk {par : Nat} (h : Sh s par t) : Sk s t := by
  induction t generalizing par with
  | leaf i j k v =>
    obtain ⟨_, _, h3, _, h5, h6⟩ := h.leaf
    exact ⟨h5, h6, h.2.2.2.1⟩
  | inner i p k l r ihl ihr =>
    have := h.range (i := i) (by simp)
    obtain ⟨e0, e1, e2, e3, e4, e5, e6⟩ := h
    exact ⟨this.2, e3, e0, e1, ihl e5, ihr e6⟩

theorem Sk.congr (hs : s'.nodeAllocator = s.nodeAllocator) (h : Sk s t) : Sk s' t := by
  induction t with
  | leaf i j k v => unfold Sk at *; rwa [hs]
  | inner i p k l r ihl ihr =>
    obtain ⟨h1, h2, h3, h4, h5, h6⟩ := h
    exact ⟨h1, by rwa [hs], by rwa [hs], by rwa [hs], ihl h5, ihr h6⟩

/-- the registers determine the leaves -/
theorem Sk.refs {t t' : CT V} (h : Sk s t) (h' : Sk s t') (hr : t.root = t'.root) : t.refs = t'.refs := by
  induction t generalizing t' with
  | leaf i j k v =>
    cases t' with
    | leaf i' j' k' v' =>
      simp only [root_leaf] at hr; subst hr
      have := h.2.2; have := h'.2.2
      simp [*] at *; omega
    | inner i' p' k' l' r' =>
      simp only [root_leaf, root_inner] at hr; subst hr
      have h1 := h.2.2; have h2 := h'.2.1; have := h.2.1
      omega
  | inner i p k l r ihl ihr =>
    cases t' with
    | leaf i' j' k' v' =>
      simp only [root_leaf, root_inner] at hr; subst hr
      have h1 := h.2.1; have h2 := h'.2.2; have := h'.2.1
      omega
    | inner i' p' k' l' r' =>
      simp only [root_inner] at hr; subst hr
      obtain ⟨_, _, h3, h4, h5, h6⟩ := h
      obtain ⟨_, _, g3, g4, g5, g6⟩ := h'
      rw [refs_inner, refs_inner, ihl h5 g5 (by rw [← h3, ← g3]), ihr h6 g6 (by rw [← h4, ← g4])]

/-- the leaves of `s` from left to right -/
def Leaves (s : Critbit V N M) (W : List (Nat × Nat)) : Prop :=
  (s.root = 0 ∧ W = []) ∨ ∃ t : CT V, t.root = s.root ∧ t.root ≠ 0 ∧ Sk s t ∧ t.height ≤ N ∧ W = t.refs

/-- a stack of subtrees with what they hold -/
def Stk (s : Critbit V N M) (st : List Nat) (ts : List (CT V)) : Prop :=
  st = ts.map CT.root ∧ ∀ t ∈ ts, Sk s t ∧ t.height ≤ N

/-- the forward half of the invariant -/
def Fwd (s : Critbit V N M) (it : Iter) (l : List (Nat × Nat)) : Prop :=
  ∃ ts : List (CT V), Stk s it.fwdStack ts ∧ l = ts.flatMap CT.refs

/-- the backward half of the invariant -/
def Bwd (s : Critbit V N M) (it : Iter) (l : List (Nat × Nat)) : Prop :=
  ∃ ts : List (CT V), Stk s it.revStack ts ∧ l = ts.reverse.flatMap CT.refs

/-- the iterator still has to yield `m` -/
def It (s : Critbit V N M) (it : Iter) (m : List (Nat × Nat)) : Prop :=
  ∃ p q : List (Nat × Nat), Leaves s (p ++ m ++ q) ∧ ((p ++ m ++ q).map Prod.snd).Nodup ∧
    ((it.terminated = true ∧ m = []) ∨
      (it.terminated = false ∧ Fwd s it (m ++ q) ∧ Bwd s it (p ++ m) ∧
        it.fwdNode = (p.map Prod.snd).getLast? ∧ it.revNode = (q.map Prod.snd).head?))

theorem It.congr (hs : s'.nodeAllocator = s.nodeAllocator) (hr : s'.root = s.root) {it : Iter} {m : List (Nat × Nat)}
    (h : It s it m) : It s' it m := by
  obtain ⟨p, q, h1, h2, h3⟩ := h
  refine ⟨p, q, ?_, h2, ?_⟩
  · rcases h1 with h1 | ⟨t, e1, e2, e3, e4, e5⟩
    · exact Or.inl ⟨by rw [hr]; exact h1.1, h1.2⟩
    · exact Or.inr ⟨t, by rw [hr]; exact e1, e2, e3.congr hs, e4, e5⟩
  · refine h3.imp_right fun ⟨g1, ⟨ts, ⟨a1, a2⟩, a3⟩, ⟨us, ⟨b1, b2⟩, b3⟩, g4⟩ => ?_
    exact ⟨g1, ⟨ts, ⟨a1, fun t ht => ⟨(a2 t ht).1.congr hs, (a2 t ht).2⟩⟩, a3⟩,
      ⟨us, ⟨b1, fun t ht => ⟨(b2 t ht).1.congr hs, (b2 t ht).2⟩⟩, b3⟩, g4⟩

theorem Sk.leaf {i j : Nat} {k : BitVec 128} {v : V} (h : Sk s (.leaf i j k v)) :
    s.isInnerNode i = .ok false ∧ s.getLeafIndex i = .ok j := by
  obtain ⟨h1, h2, h3⟩ := h
  rw [isInnerNode_ok h1, getLeafIndex_ok h1, h3]
  simp [h2]

theorem Sk.inner {i p : Nat} {k : BitVec 128} (h : Sk s (.inner i p k l r)) :
    s.isInnerNode i = .ok true ∧ s.getLeft i = .ok l.root ∧ s.getRight i = .ok r.root := by
  obtain ⟨h1, h2, h3, h4, _⟩ := h
  rw [isInnerNode_ok h1, getLeft_ok h1, getRight_ok h1, h2, h3, h4]
  simp

/-- the loop of `next` -/
theorem nextLoop_spec : ∀ (t : CT V) (ts : List (CT V)) (it : Iter) (fuel : Nat),
    it.terminated = false → Stk s it.fwdStack (t :: ts) → t.height ≤ fuel →
    ∃ n j rest, (t :: ts).flatMap CT.refs = (n, j) :: rest ∧
      ((it.revNode = some j ∧ ∃ it', it'.terminated = true ∧ Iter.nextLoop s fuel it = .ok (it', none)) ∨
       (it.revNode ≠ some j ∧ ∃ it', Fwd s it' rest ∧ it'.terminated = false ∧ it'.fwdNode = some j ∧
        it'.revStack = it.revStack ∧ it'.revNode = it.revNode ∧ Iter.nextLoop s fuel it = .ok (it', some (n, j)))) := by
  intro t
  induction t with
  | leaf i j k v =>
    intro ts it fuel ht ⟨h1, h2⟩ hf
    obtain ⟨fuel, rfl⟩ : ∃ f, fuel = f + 1 := ⟨fuel - 1, by simp [height] at hf; omega⟩
    obtain ⟨g1, g2⟩ := (h2 _ (List.mem_cons_self)).1.leaf
    simp only [List.map_cons, root_leaf] at h1
    refine ⟨i, j, ts.flatMap CT.refs, by simp, ?_⟩
    simp only [Iter.nextLoop, ht, h1, g1, g2, except_bind_ok, Bool.false_eq_true, if_false, Bool.not_false, if_true]
    by_cases hr : it.revNode = some j
    · exact Or.inl ⟨hr, _, rfl, by rw [if_pos hr.symm]; rfl⟩
    · refine Or.inr ⟨hr, { it with fwdStack := ts.map CT.root, fwdNode := some j },
        ⟨ts, ⟨rfl, fun t ht => h2 t (by simp [ht])⟩, rfl⟩, ht, rfl, rfl, rfl, ?_⟩
      rw [if_neg (fun hc => hr hc.symm), ht]; rfl
  | inner i p k l r ihl ihr =>
    intro ts it fuel ht ⟨h1, h2⟩ hf
    obtain ⟨fuel, rfl⟩ : ∃ f, fuel = f + 1 := ⟨fuel - 1, by simp [height] at hf; omega⟩
    have hsk := (h2 _ (List.mem_cons_self)).1
    have hh := (h2 _ (List.mem_cons_self)).2
    obtain ⟨g1, g2, g3⟩ := hsk.inner
    simp only [height] at hf hh
    simp only [List.map_cons, root_inner] at h1
    obtain ⟨n, j, rest, e, h⟩ := ihl (r :: ts) { it with fwdStack := l.root :: r.root :: ts.map CT.root } fuel ht
      ⟨by simp, by
        intro t ht
        rcases List.mem_cons.1 ht with rfl | ht
        · exact ⟨hsk.2.2.2.2.1, by omega⟩
        · rcases List.mem_cons.1 ht with rfl | ht
          · exact ⟨hsk.2.2.2.2.2, by omega⟩
          · exact h2 t (by simp [ht])⟩ (by omega)
    refine ⟨n, j, rest, by rw [← e]; simp, ?_⟩
    have hstep : Iter.nextLoop s (fuel + 1) it =
        Iter.nextLoop s fuel { it with fwdStack := l.root :: r.root :: ts.map CT.root } := by
      rw [Iter.nextLoop]
      simp only [ht, h1, g1, g2, g3, except_bind_ok, Bool.false_eq_true, if_false, Bool.not_true]
    rw [hstep]; exact h

/-- the loop of `next_back` -/
theorem nextBackLoop_spec : ∀ (t : CT V) (ts : List (CT V)) (it : Iter) (fuel : Nat),
    it.terminated = false → Stk s it.revStack (t :: ts) → t.height ≤ fuel →
    ∃ n j rest, (t :: ts).reverse.flatMap CT.refs = rest ++ [(n, j)] ∧
      ((it.fwdNode = some j ∧ ∃ it', it'.terminated = true ∧ Iter.nextBackLoop s fuel it = .ok (it', none)) ∨
       (it.fwdNode ≠ some j ∧ ∃ it', Bwd s it' rest ∧ it'.terminated = false ∧ it'.revNode = some j ∧
        it'.fwdStack = it.fwdStack ∧ it'.fwdNode = it.fwdNode ∧ Iter.nextBackLoop s fuel it = .ok (it', some (n, j)))) := by
  intro t
  induction t with
  | leaf i j k v =>
    intro ts it fuel ht ⟨h1, h2⟩ hf
    obtain ⟨fuel, rfl⟩ : ∃ f, fuel = f + 1 := ⟨fuel - 1, by simp [height] at hf; omega⟩
    obtain ⟨g1, g2⟩ := (h2 _ (List.mem_cons_self)).1.leaf
    simp only [List.map_cons, root_leaf] at h1
    refine ⟨i, j, ts.reverse.flatMap CT.refs, by simp, ?_⟩
    simp only [Iter.nextBackLoop, ht, h1, g1, g2, except_bind_ok, Bool.false_eq_true, if_false, Bool.not_false, if_true]
    by_cases hr : it.fwdNode = some j
    · exact Or.inl ⟨hr, _, rfl, by rw [if_pos hr.symm]; rfl⟩
    · refine Or.inr ⟨hr, { it with revStack := ts.map CT.root, revNode := some j },
        ⟨ts, ⟨rfl, fun t ht => h2 t (by simp [ht])⟩, rfl⟩, ht, rfl, rfl, rfl, ?_⟩
      rw [if_neg (fun hc => hr hc.symm), ht]; rfl
  | inner i p k l r ihl ihr =>
    intro ts it fuel ht ⟨h1, h2⟩ hf
    obtain ⟨fuel, rfl⟩ : ∃ f, fuel = f + 1 := ⟨fuel - 1, by simp [height] at hf; omega⟩
    have hsk := (h2 _ (List.mem_cons_self)).1
    have hh := (h2 _ (List.mem_cons_self)).2
    obtain ⟨g1, g2, g3⟩ := hsk.inner
    simp only [height] at hf hh
    simp only [List.map_cons, root_inner] at h1
    obtain ⟨n, j, rest, e, h⟩ := ihr (l :: ts) { it with revStack := r.root :: l.root :: ts.map CT.root } fuel ht
      ⟨by simp, by
        intro t ht
        rcases List.mem_cons.1 ht with rfl | ht
        · exact ⟨hsk.2.2.2.2.2, by omega⟩
        · rcases List.mem_cons.1 ht with rfl | ht
          · exact ⟨hsk.2.2.2.2.1, by omega⟩
          · exact h2 t (by simp [ht])⟩ (by omega)
    refine ⟨n, j, rest, by rw [← e]; simp, ?_⟩
    have hstep : Iter.nextBackLoop s (fuel + 1) it =
        Iter.nextBackLoop s fuel { it with revStack := r.root :: l.root :: ts.map CT.root } := by
      rw [Iter.nextBackLoop]
      simp only [ht, h1, g1, g2, g3, except_bind_ok, Bool.false_eq_true, if_false, Bool.not_true]
    rw [hstep]; exact h

theorem flatMap_refs_nil {ts : List (CT V)} (h : ts.flatMap CT.refs = []) : ts = [] := by
  cases ts with
  | nil => rfl
  | cons t ts => simp [refs_ne] at h

theorem It.nextMut {it : Iter} {m : List (Nat × Nat)} (h : It s it m) :
    ∃ it', Iter.nextMut s it = .ok (it', m.head?) ∧ It s it' m.tail := by
  obtain ⟨p, q, h1, h2, h3⟩ := h
  unfold Iter.nextMut
  rcases h3 with ⟨ht, rfl⟩ | ⟨ht, ⟨ts, hst, hl⟩, hB, hf, hr⟩
  · refine ⟨it, ?_, p, q, h1, h2, Or.inl ⟨ht, rfl⟩⟩
    simp [Iter.nextLoop, ht]
  · cases ts with
    | nil =>
      have hmq : m = [] ∧ q = [] := by simpa using hl
      obtain ⟨rfl, rfl⟩ := hmq
      have hs : it.fwdStack = [] := hst.1
      refine ⟨it, by simp [Iter.nextLoop, ht, hs], p, [], h1, h2, Or.inr ⟨ht, ⟨[], hst, rfl⟩, hB, hf, hr⟩⟩
    | cons t ts =>
      obtain ⟨n, j, rest, e, h⟩ := nextLoop_spec t ts it (N + 1) ht hst
        (by have := (hst.2 t (by simp)).2; omega)
      rw [e] at hl
      cases m with
      | nil =>
        have hq : q = (n, j) :: rest := hl
        subst hq
        simp only [List.map_cons, List.head?_cons] at hr
        rcases h with ⟨_, it', ht', e'⟩ | ⟨hne, _⟩
        · exact ⟨it', e', p, (n, j) :: rest, h1, h2, Or.inl ⟨ht', rfl⟩⟩
        · exact absurd hr hne
      | cons x m =>
        simp only [List.cons_append, List.cons.injEq] at hl
        obtain ⟨rfl, rfl⟩ := hl
        rcases h with ⟨hre, _⟩ | ⟨hne, it', hF, ht', hf', hrs, hrn, e'⟩
        · exfalso
          rw [hr] at hre
          have hmem : j ∈ q.map Prod.snd := List.mem_of_head? hre
          simp only [List.map_append, List.map_cons] at h2
          exact (List.nodup_append.1 h2).2.2 j (by simp) j hmem rfl
        · refine ⟨it', e', p ++ [(n, j)], q, by simpa using h1, by simpa using h2, Or.inr ⟨ht', hF, ?_, ?_, ?_⟩⟩
          · obtain ⟨us, hus, hus'⟩ := hB
            exact ⟨us, by rw [hrs]; exact hus, by simpa using hus'⟩
          · simp [hf']
          · rw [hrn, hr]

theorem It.nextBackMut {it : Iter} {m : List (Nat × Nat)} (h : It s it m) :
    ∃ it', Iter.nextBackMut s it = .ok (it', m.getLast?) ∧ It s it' m.dropLast := by
  obtain ⟨p, q, h1, h2, h3⟩ := h
  unfold Iter.nextBackMut
  rcases h3 with ⟨ht, rfl⟩ | ⟨ht, hF, ⟨ts, hst, hl⟩, hf, hr⟩
  · refine ⟨it, ?_, p, q, h1, h2, Or.inl ⟨ht, rfl⟩⟩
    simp [Iter.nextBackLoop, ht]
  · cases ts with
    | nil =>
      have hmq : p = [] ∧ m = [] := by simpa using hl
      obtain ⟨rfl, rfl⟩ := hmq
      have hs : it.revStack = [] := hst.1
      refine ⟨it, by simp [Iter.nextBackLoop, ht, hs], [], q, h1, h2, Or.inr ⟨ht, hF, ⟨[], hst, rfl⟩, hf, hr⟩⟩
    | cons t ts =>
      obtain ⟨n, j, rest, e, h⟩ := nextBackLoop_spec t ts it (N + 1) ht hst
        (by have := (hst.2 t (by simp)).2; omega)
      rw [e] at hl
      rcases List.eq_nil_or_concat m with rfl | ⟨m', x, rfl⟩
      · have hp : p = rest ++ [(n, j)] := by simpa using hl
        subst hp
        simp only [List.map_append, List.map_cons, List.map_nil, List.getLast?_concat] at hf
        rcases h with ⟨_, it', ht', e'⟩ | ⟨hne, _⟩
        · exact ⟨it', e', rest ++ [(n, j)], q, h1, h2, Or.inl ⟨ht', rfl⟩⟩
        · exact absurd hf hne
      · rw [List.concat_eq_append] at *
        rw [← List.append_assoc] at hl
        obtain ⟨hl1, hl2⟩ := List.append_inj' hl rfl
        simp only [List.cons.injEq, and_true] at hl2
        subst hl2
        rcases h with ⟨hfe, _⟩ | ⟨hne, it', hB, ht', hr', hfs, hfn, e'⟩
        · exfalso
          rw [hf] at hfe
          have hmem : j ∈ p.map Prod.snd := List.mem_of_getLast? hfe
          rw [List.append_assoc] at h2
          simp only [List.map_append] at h2
          exact (List.nodup_append.1 h2).2.2 j hmem j (by simp) rfl
        · refine ⟨it', by rw [e']; simp, p, (n, j) :: q, by simpa using h1, by simpa using h2, Or.inr ⟨ht', ?_, ?_, ?_, ?_⟩⟩
          · obtain ⟨us, hus, hus'⟩ := hF
            exact ⟨us, by rw [hfs]; exact hus, by simpa using hus'⟩
          · rw [List.dropLast_concat, hl1]; exact hB
          · rw [hfn, hf]
          · simp [hr']

/-- a new iterator -/
theorem It.new {W : List (Nat × Nat)} (hW : Leaves s W) (hn : (W.map Prod.snd).Nodup) : It s s.iter W := by
  refine ⟨[], [], by simpa using hW, by simpa using hn, Or.inr ?_⟩
  unfold Critbit.iter
  rcases hW with ⟨h1, rfl⟩ | ⟨t, h1, h2, h3, h4, rfl⟩
  · rw [if_pos (show s.root = SENTINEL from h1)]
    exact ⟨rfl, ⟨[], ⟨rfl, by simp⟩, rfl⟩, ⟨[], ⟨rfl, by simp⟩, rfl⟩, rfl, rfl⟩
  · rw [if_neg (show ¬ s.root = SENTINEL by rw [← h1]; exact h2)]
    exact ⟨rfl, ⟨[t], ⟨by simp [h1], by simp [h3, h4]⟩, by simp⟩, ⟨[t], ⟨by simp [h1], by simp [h3, h4]⟩, by simp⟩, rfl, rfl⟩

end Critbit
end Sokoban
