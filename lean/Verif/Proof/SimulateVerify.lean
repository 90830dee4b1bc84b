import Verif.Proof.Simulate

/-
The comparisons at the end of the randomised test.
-/
namespace Sokoban.Simulate
open MapSpec Fuzz

variable {S K V It P : Type} [DecidableEq K] [LT K]

namespace Fits
variable [DecidableEq V] [DecidableLT K] {D : TestMap S K V It P} {M : Nat} {srt : Bool}
  {refuses : FMap K V → K → Prop} {Inv : S → FMap K V → Prop} {Walk : S → FMap K V → It → List K → Prop}
  (H : Fits D M srt refuses Inv Walk) (T : Tot K)
variable {s : S} {m : FMap K V}

/-- the order in which an end visits the keys -/
def ord (e : End) (R : List K) : List K :=
  match e with
  | .front => R
  | .back => R.reverse

omit [DecidableEq K] [LT K] [DecidableLT K] in
theorem Ends.ord {e : End} {R R' : List K} {k : K} (h : Ends e R k R') : ord e R = k :: ord e R' := by
  cases e
  · exact h
  · have h : R = R' ++ [k] := h
    simp [Fits.ord, h]

omit [DecidableEq K] [LT K] [DecidableLT K] in
theorem ord_nil {e : End} : ord e ([] : List K) = [] := by cases e <;> rfl

omit [DecidableEq K] [LT K] [DecidableLT K] in
theorem ord_eq_nil {e : End} {R : List K} (h : ord e R = []) : R = [] := by
  cases e
  · exact h
  · simpa [ord] using h

include H in
omit [DecidableLT K] [DecidableEq V] in
/-- reading with one end: the entries in the order of the walk -/
theorem read_ord {e : End} (he : e = .front ∨ srt = true) {it : It} {R : List K} (h : Walk s m it R) :
    match ord e R with
    | [] => ∃ it', nextOf D e s it = .ok (it', none) ∧ Walk s m it' []
    | k :: _ => ∃ R' it' v, ord e R = k :: ord e R' ∧ m.get k = some v ∧
        nextOf D e s it = .ok (it', some (k, v)) ∧ Walk s m it' R' := by
  rcases H.read he h with ⟨rfl, it', e1, h1⟩ | ⟨k, R', it', v, hE, hv, e1, h1⟩
  · rw [ord_nil]; exact ⟨it', e1, h1⟩
  · rw [Ends.ord hE]
    exact ⟨R', it', v, rfl, hv, e1, h1⟩

include H in
omit [DecidableLT K] in
theorem zipIter {e : End} (he : e = .front ∨ srt = true) : ∀ (l : List (K × V)) {it : It} {R : List K},
    Walk s m it R → ord e R = l.map Prod.fst → (∀ x ∈ l, m.get x.1 = some x.2) →
    Simulate.zipIter (nextOf D e s) l it = .ok ()
  | [], _, _, _, _, _ => rfl
  | x :: l, it, R, h, ho, hl => by
    have := H.read_ord he h
    rw [ho] at this
    obtain ⟨R', it', v, hR, hv, e1, h1⟩ := this
    rw [hl x (by simp)] at hv
    cases hv
    simp only [List.map_cons, List.cons.injEq, true_and] at hR
    simp only [Simulate.zipIter, e1, except_bind_ok, decide_true, check_true]
    exact zipIter he l h1 hR.symm fun y hy => hl y (by simp [hy])

omit [DecidableLT K] [LT K] in
theorem zipList_self : ∀ l : List (K × V), zipList l l = .ok ()
  | [] => rfl
  | x :: l => by simp only [zipList, decide_true, check_true, except_bind_ok]; exact zipList_self l

include H in
omit [DecidableLT K] [DecidableEq V] in
theorem collect : ∀ {R : List K} {it : It} {fuel : Nat}, Walk s m it R → R.length < fuel →
    ∃ l, Simulate.collect (D.next s) fuel it = .ok l ∧ l.map Prod.fst = R ∧ ∀ x ∈ l, m.get x.1 = some x.2
  | R, it, 0, _, hf => by omega
  | R, it, fuel + 1, h, hf => by
    rcases H.read (e := .front) (Or.inl rfl) h with ⟨rfl, it', e1, h1⟩ | ⟨k, R', it', v, rfl, hv, e1, h1⟩
    · have e1 : D.next s it = .ok (it', none) := e1
      exact ⟨[], by simp only [Simulate.collect, e1, except_bind_ok]; rfl, rfl, by simp⟩
    · have e1 : D.next s it = .ok (it', some (k, v)) := e1
      obtain ⟨l, e2, hk, hl⟩ := collect (R := R') h1 (by simpa using hf)
      refine ⟨(k, v) :: l, by simp only [Simulate.collect, e1, e2, except_bind_ok]; rfl, by simp [hk], ?_⟩
      intro x hx
      rcases List.mem_cons.1 hx with rfl | hx
      · exact hv
      · exact hl x hx

end Fits

section itemLe
variable [DecidableLT K] [LinearOrder V] (T : Tot K)

include T in
omit [DecidableEq K] in
theorem sort_same {l : List (K × V)} {m : FMap K V} (h : m.Lists l) : Same (l.mergeSort itemLe) m := by
  have hl := h.perm (List.mergeSort_perm l itemLe).symm
  refine ⟨?_, hl⟩
  have hp : (l.mergeSort itemLe).Pairwise (fun a b => itemLe a b = true) := by
    refine List.pairwise_mergeSort ?_ ?_ l
    · intro a b c h1 h2
      simp only [itemLe, decide_eq_true_eq] at h1 h2 ⊢
      rcases h1 with h1 | ⟨h1, h1'⟩ <;> rcases h2 with h2 | ⟨h2, h2'⟩
      · exact Or.inl (T.trans h1 h2)
      · rcases T.total b.1 c.1 with hb | hb | hb
        · exact Or.inl (T.trans h1 hb)
        · exact Or.inl (hb ▸ h1)
        · exact absurd hb h2
      · rcases T.total a.1 b.1 with hb | hb | hb
        · exact Or.inl (T.trans hb h2)
        · exact Or.inl (hb ▸ h2)
        · exact absurd hb h1
      · rcases T.total a.1 b.1 with hb | hb | hb
        · rcases T.total b.1 c.1 with hc | hc | hc
          · exact Or.inl (T.trans hb hc)
          · exact Or.inl (hc ▸ hb)
          · exact absurd hc h2
        · rw [hb]; exact Or.inr ⟨h2, le_trans h1' h2'⟩
        · exact absurd hb h1
    · intro a b
      simp only [itemLe, Bool.or_eq_true, decide_eq_true_eq]
      rcases T.total a.1 b.1 with hb | hb | hb
      · exact Or.inl (Or.inl hb)
      · rw [hb]
        rcases le_total a.2 b.2 with hv | hv
        · exact Or.inl (Or.inr ⟨T.irrefl _, hv⟩)
        · exact Or.inr (Or.inr ⟨T.irrefl _, hv⟩)
      · exact Or.inr (Or.inl hb)
  have hn := hl.nodup
  rw [List.nodup_iff_pairwise_ne, List.pairwise_map] at hn
  refine (hp.and hn).imp ?_
  rintro a b ⟨h1, h2⟩
  simp only [itemLe, decide_eq_true_eq] at h1
  rcases h1 with h1 | ⟨h1, _⟩
  · exact h1
  · rcases T.total a.1 b.1 with hb | hb | hb
    · exact hb
    · exact absurd hb h2
    · exact absurd hb h1

end itemLe

namespace Fits
variable [LinearOrder V] [DecidableLT K] {D : TestMap S K V It P} {M : Nat} {srt : Bool}
  {refuses : FMap K V → K → Prop} {Inv : S → FMap K V → Prop} {Walk : S → FMap K V → It → List K → Prop}
  (H : Fits D M srt refuses Inv Walk) (T : Tot K)
variable {s : S} {m : FMap K V}

omit [DecidableEq K] [DecidableLT K] [LinearOrder V] in
theorem asc_keys {l : List (K × V)} (h : Asc l) : (l.map Prod.fst).Pairwise (· < ·) := by
  rw [List.pairwise_map]; exact h

omit [DecidableEq K] [DecidableLT K] [LinearOrder V] in
theorem mem_keys {l : List (K × V)} (h : Same l m) (k : K) : k ∈ l.map Prod.fst ↔ (m.get k).isSome := by
  rw [← not_iff_not, ← h.lists.get_none']
  cases m.get k <;> simp

include H T in
omit [DecidableLT K] [LinearOrder V] in
/-- a new iterator visits the keys of the reference map in their order -/
theorem start_sorted {l : List (K × V)} (hs : srt = true) (h : Inv s m) (hl : Same l m) :
    ∃ it, D.iter s = .ok it ∧ Walk s m it (l.map Prod.fst) := by
  obtain ⟨it, R, e, hw, hk, _, hp⟩ := H.start h
  refine ⟨it, e, ?_⟩
  have : R = l.map Prod.fst := eq_of_asc T (key := id) (hp hs) (asc_keys hl.asc) fun k => by rw [hk, mem_keys hl]
  rwa [← this]

include H T in
/-- a comparison of the tree with a map of the same entries -/
theorem compare {l : List (K × V)} {fuel : Nat} (hf : M < fuel) (h : Inv s m) (hl : Same l m) :
    Simulate.compare D fuel srt l s = .ok () := by
  unfold Simulate.compare
  cases hs : srt with
  | true =>
    obtain ⟨it, e, hw⟩ := H.start_sorted T hs h hl
    have h1 : Simulate.zipIter (D.next s) l it = .ok () := H.zipIter (e := .front) (Or.inl rfl) l hw rfl
      fun x hx => (hl.lists.mem _ _).1 hx
    have h2 : Simulate.zipIter (D.nextBack s) l.reverse it = .ok () := H.zipIter (e := .back) (Or.inr hs) _ hw
      (by simp [ord]) fun x hx => (hl.lists.mem _ _).1 (List.mem_reverse.1 hx)
    simp only [if_true, e, except_bind_ok, h1, h2]
  | false =>
    obtain ⟨it, R, e, hw, hk, hn, _⟩ := H.start h
    have hle := H.le h
    have hR := ((len_keys hl.lists hk).2).2 hn
    obtain ⟨L, e2, hLk, hL⟩ := H.collect hw (fuel := fuel) (by omega)
    have hLm : m.Lists L := by
      refine ⟨by rw [hLk]; exact hn, fun k v => ⟨fun hx => hL _ hx, fun hg => ?_⟩, by rw [← hR, ← hLk]; simp⟩
      have : k ∈ L.map Prod.fst := by rw [hLk, hk, hg]; rfl
      obtain ⟨x, hx, rfl⟩ := List.mem_map.1 this
      have := hL x hx
      rw [hg] at this; cases this; exact hx
    have := (sort_same T hLm).unique T hl
    simp only [Bool.false_eq_true, if_false, e, e2, except_bind_ok, this, zipList_self]

omit [DecidableLT K] [LinearOrder V] [LT K] in
theorem get_insert (k k' : K) (v : V) : (m.insert k v).get k' = if k' = k then some v else m.get k' := rfl

/-- the same keys -/
def Over (m m' : FMap K V) : Prop := m'.len = m.len ∧ ∀ k, (m'.get k).isSome = (m.get k).isSome

omit [DecidableEq K] [DecidableLT K] [LinearOrder V] [LT K] in
theorem Over.refl (m : FMap K V) : Over m m := ⟨rfl, fun _ => rfl⟩

omit [DecidableEq K] [DecidableLT K] [LinearOrder V] [LT K] in
theorem Over.trans {a b c : FMap K V} (h : Over a b) (h' : Over b c) : Over a c :=
  ⟨h'.1.trans h.1, fun k => (h'.2 k).trans (h.2 k)⟩

omit [DecidableLT K] [LinearOrder V] [LT K] in
theorem Over.insert {k : K} {v : V} (h : m.get k = some v) (w : V) : Over m (m.insert k w) := by
  refine ⟨by simp [FMap.insert, h], fun k' => ?_⟩
  rw [get_insert]
  split
  · next e => simp [e, h]
  · rfl

include H T in
omit [LinearOrder V] in
/-- the loop that overwrites everything -/
theorem overwrite {e : End} (he : e = .front ∨ srt = true) (w : Nat → V) :
    ∀ {R : List K} {it : It} {s : S} {m nm : FMap K V} {l : List (K × V)} {fuel i : Nat}, Walk s m it R →
      R.length < fuel → Same l nm → (∀ k v, nm.get k = some v → m.get k = some v) →
      (∀ k, (m.get k).isSome → k ∈ R ∨ (nm.get k).isSome) →
      ∃ s' m' l', Simulate.overwrite D (nextMutOf D e) w fuel i s it l = .ok (s', l') ∧ Inv s' m' ∧ Same l' m' ∧
        Over m m'
  | R, it, s, m, nm, l, 0, i, _, hf, _, _, _ => by omega
  | R, it, s, m, nm, l, fuel + 1, i, h, hf, hl, hsub, hall => by
    rcases H.readMut he h with ⟨rfl, it', e1, h1⟩ | ⟨k, R', it', p, v, hE, hv, e1, er, hw⟩
    · refine ⟨s, m, l, by simp only [Simulate.overwrite, e1, except_bind_ok]; rfl, H.inv h, ?_, Over.refl m⟩
      have hi := H.inv h
      obtain ⟨L, hL⟩ := H.lists hi
      have : nm = m := eq_of_get hl.lists hL fun k => by
        cases hg : nm.get k with
        | some v => exact (hsub k v hg).symm
        | none =>
          cases hm : m.get k with
          | none => rfl
          | some v =>
            have := hall k (by rw [hm]; rfl)
            simp [hg] at this
      rw [← this]; exact hl
    · obtain ⟨s', ew, h'⟩ := hw (w i)
      have hmem : ∀ k', k' ∈ R ↔ k' = k ∨ k' ∈ R' := by
        intro k'
        cases e
        · have hE : R = k :: R' := hE
          simp [hE]
        · have hE : R = R' ++ [k] := hE
          simp [hE, or_comm]
      have hlen : R.length = R'.length + 1 := by
        cases e
        · have hE : R = k :: R' := hE
          simp [hE]
        · have hE : R = R' ++ [k] := hE
          simp [hE]
      obtain ⟨s2, m2, l2, e2, h2, hl2, ho⟩ := overwrite he w (i := i + 1) (fuel := fuel) h' (by omega)
        (hl.insert T k (w i)) (by
          intro k' v' hg
          rw [get_insert] at hg ⊢
          split
          · next hc => rw [if_pos hc] at hg; exact hg
          · next hc => rw [if_neg hc] at hg; exact hsub k' v' hg) (by
          intro k' hg
          rw [get_insert] at hg ⊢
          split
          · exact Or.inr rfl
          · next hc =>
            rw [if_neg hc] at hg
            rcases hall k' hg with hx | hx
            · exact Or.inl (((hmem k').1 hx).resolve_left hc)
            · exact Or.inr hx)
      exact ⟨s2, m2, l2, by simp only [Simulate.overwrite, e1, except_bind_ok, er, ew]; exact e2, h2, hl2,
        (Over.insert hv _).trans ho⟩

include H in
omit [DecidableLT K] in
theorem stepFront : ∀ (n : Nat) {it : It} {l : List (K × V)}, Walk s m it (l.map Prod.fst) →
    (∀ x ∈ l, m.get x.1 = some x.2) → n ≤ l.length →
    ∃ it', Simulate.stepFront (D.next s) n it l = .ok (it', l.drop n) ∧ Walk s m it' ((l.drop n).map Prod.fst)
  | 0, it, l, h, _, _ => ⟨it, rfl, h⟩
  | n + 1, it, [], _, _, hn => by simp at hn
  | n + 1, it, x :: l, h, hl, hn => by
    rcases H.read (e := .front) (Or.inl rfl) h with ⟨hc, _⟩ | ⟨k, R', it', v, hE, hv, e1, h1⟩
    · simp at hc
    · have hE : (x :: l).map Prod.fst = k :: R' := hE
      simp only [List.map_cons, List.cons.injEq] at hE
      obtain ⟨rfl, rfl⟩ := hE
      rw [hl x (by simp)] at hv; cases hv
      have e1 : D.next s it = .ok (it', some x) := e1
      obtain ⟨it2, e2, h2⟩ := stepFront n h1 (fun y hy => hl y (by simp [hy])) (by simpa using hn)
      refine ⟨it2, ?_, h2⟩
      simp only [Simulate.stepFront, e1, except_bind_ok, List.head?_cons, Option.isSome_some, Bool.and_self,
        check_true, decide_true, List.tail_cons]
      exact e2

include H in
omit [DecidableLT K] in
theorem stepBack (hs : srt = true) : ∀ (n : Nat) {it : It} {l : List (K × V)}, Walk s m it (l.map Prod.fst) →
    (∀ x ∈ l, m.get x.1 = some x.2) → n = l.length →
    ∃ it', Simulate.stepBack (D.nextBack s) n it l = .ok (it', []) ∧ Walk s m it' []
  | 0, it, l, h, _, hn => by
    obtain rfl := List.eq_nil_of_length_eq_zero hn.symm
    exact ⟨it, rfl, h⟩
  | n + 1, it, l, h, hl, hn => by
    rcases List.eq_nil_or_concat l with rfl | ⟨l, x, rfl⟩
    · simp at hn
    simp only [List.concat_eq_append] at *
    rcases H.read (e := .back) (Or.inr hs) h with ⟨hc, _⟩ | ⟨k, R', it', v, hE, hv, e1, h1⟩
    · simp at hc
    · have hE : (l ++ [x]).map Prod.fst = R' ++ [k] := hE
      rw [List.map_append] at hE
      obtain ⟨rfl, hk⟩ := List.append_inj' hE (by simp)
      simp only [List.map_cons, List.map_nil, List.cons.injEq, and_true] at hk
      subst hk
      rw [hl x (by simp)] at hv; cases hv
      have e1 : D.nextBack s it = .ok (it', some x) := e1
      obtain ⟨it2, e2, h2⟩ := stepBack hs n h1 (fun y hy => hl y (by simp [hy])) (by simpa using hn)
      refine ⟨it2, ?_, h2⟩
      simp only [Simulate.stepBack, e1, except_bind_ok, List.getLast?_concat, Option.isSome_some, Bool.and_self,
        check_true, decide_true, List.dropLast_concat]
      exact e2

include H in
omit [DecidableLT K] [LinearOrder V] in
theorem endsNow {e : End} (he : e = .front ∨ srt = true) {it : It} (h : Walk s m it []) :
    ∃ it', Simulate.endsNow (nextOf D e s) it = .ok it' ∧ Walk s m it' [] := by
  rcases H.read he h with ⟨_, it', e1, h1⟩ | ⟨k, R', it', v, hE, _⟩
  · exact ⟨it', by simp only [Simulate.endsNow, e1, except_bind_ok, Option.isNone_none, check_true]; rfl, h1⟩
  · cases e
    · have hE : [] = k :: R' := hE; simp at hE
    · have hE : [] = R' ++ [k] := hE; simp at hE

include H in
omit [DecidableLT K] [LinearOrder V] in
theorem endsNowMut {e : End} (he : e = .front ∨ srt = true) {it : It} (h : Walk s m it []) :
    ∃ it', Simulate.endsNow (nextMutOf D e s) it = .ok it' ∧ Walk s m it' [] := by
  rcases H.readMut he h with ⟨_, it', e1, h1⟩ | ⟨k, R', it', p, v, hE, _⟩
  · exact ⟨it', by simp only [Simulate.endsNow, e1, except_bind_ok, Option.isNone_none, check_true]; rfl, h1⟩
  · cases e
    · have hE : [] = k :: R' := hE; simp at hE
    · have hE : [] = R' ++ [k] := hE; simp at hE

/-- lines 166-193 and 216-250 panic on a map of at most two entries, before anything is compared -/
def tooFew (n : Nat) : Panic := if n = 0 then .overflow else .assertion

theorem bounds {n r : Nat} :
    (3 ≤ n ∧ sub n 1 = .ok (n - 1) ∧ ∃ b, genRange 1 (n - 1) r = .ok b ∧ 1 ≤ b ∧ b < n - 1) ∨
    (n < 3 ∧ (do let high ← sub n 1; genRange 1 high r) = .error (tooFew n)) := by
  by_cases h : 3 ≤ n
  · exact Or.inl ⟨h, if_pos (by omega), genRange_ok (by omega)⟩
  · refine Or.inr ⟨by omega, ?_⟩
    have : n = 0 ∨ n = 1 ∨ n = 2 := by omega
    rcases this with rfl | rfl | rfl <;> rfl

include H T in
omit [DecidableLT K] in
theorem doubleEnded {l : List (K × V)} (hs : srt = true) (h : Inv s m) (hl : Same l m) (r : Nat) :
    Simulate.doubleEnded D r l s = if 3 ≤ l.length then .ok () else .error (tooFew l.length) := by
  obtain ⟨it, e, hw⟩ := H.start_sorted T hs h hl
  have hg : ∀ x ∈ l, m.get x.1 = some x.2 := fun x hx => (hl.lists.mem _ _).1 hx
  unfold Simulate.doubleEnded
  rw [e, except_bind_ok]
  rcases bounds (n := l.length) (r := r) with ⟨h3, es, b, eb, hb1, hb2⟩ | ⟨h3, eb⟩
  · rw [if_pos h3, es, except_bind_ok, eb, except_bind_ok]
    obtain ⟨it1, e1, h1⟩ := H.stepFront b hw hg (by omega)
    obtain ⟨it2, e2, h2⟩ := H.stepBack hs (l.length - b) h1 (fun x hx => hg x (List.mem_of_mem_drop hx)) (by simp)
    obtain ⟨it3, e3, h3⟩ := H.endsNow (e := .front) (Or.inl rfl) h2
    obtain ⟨it4, e4, h4⟩ := H.endsNow (e := .back) (Or.inr hs) h3
    obtain ⟨it5, e5, h5⟩ := H.endsNow (e := .front) (Or.inl rfl) h4
    obtain ⟨it6, e6, h6⟩ := H.endsNow (e := .back) (Or.inr hs) h5
    simp only [nextOf] at e3 e4 e5 e6
    simp only [e1, e2, e3, e4, e5, e6, except_bind_ok, List.head?_nil, List.getLast?_nil, Option.isNone_none, check_true]
  · rw [if_neg (by omega)]
    cases e1 : sub l.length 1 with
    | error p => rw [e1] at eb; cases eb; rfl
    | ok n =>
      rw [e1, except_bind_ok] at eb
      rw [except_bind_ok, eb]; rfl

include H in
omit [DecidableLT K] [LinearOrder V] in
theorem skip {e : End} (he : e = .front ∨ srt = true) : ∀ (n : Nat) {it : It} {R : List K}, Walk s m it R →
    n = R.length → ∃ it', Simulate.skip (nextOf D e s) n it = .ok it' ∧ Walk s m it' []
  | 0, it, R, h, hn => by
    obtain rfl := List.eq_nil_of_length_eq_zero hn.symm
    exact ⟨it, rfl, h⟩
  | n + 1, it, R, h, hn => by
    rcases H.read he h with ⟨rfl, _⟩ | ⟨k, R', it', v, hE, hv, e1, h1⟩
    · simp at hn
    · have hlen : R.length = R'.length + 1 := by
        cases e
        · have hE : R = k :: R' := hE
          simp [hE]
        · have hE : R = R' ++ [k] := hE
          simp [hE]
      obtain ⟨it2, e2, h2⟩ := skip he n h1 (by omega)
      exact ⟨it2, by simp only [Simulate.skip, e1, except_bind_ok, Option.isSome_some, check_true]; exact e2, h2⟩

include H T in
omit [DecidableLT K] [LinearOrder V] in
theorem consumed {l : List (K × V)} (hs : srt = true) (h : Inv s m) (hl : Same l m) :
    Simulate.consumed D s = .ok () := by
  obtain ⟨it, e, hw⟩ := H.start_sorted T hs h hl
  have hlen : D.len s = (l.map Prod.fst).length := by rw [H.len h, hl.lists.len, List.length_map]
  obtain ⟨it1, e1, h1⟩ := H.skip (e := .front) (Or.inl rfl) _ hw hlen
  obtain ⟨it2, e2, h2⟩ := H.endsNow (e := .front) (Or.inl rfl) h1
  obtain ⟨it3, e3, h3⟩ := H.endsNow (e := .back) (Or.inr hs) h2
  obtain ⟨it4, e4, h4⟩ := H.endsNow (e := .front) (Or.inl rfl) h3
  obtain ⟨it5, e5, h5⟩ := H.endsNow (e := .back) (Or.inr hs) h4
  obtain ⟨jt1, f1, g1⟩ := H.skip (e := .back) (Or.inr hs) _ hw hlen
  obtain ⟨jt2, f2, g2⟩ := H.endsNow (e := .back) (Or.inr hs) g1
  obtain ⟨jt3, f3, g3⟩ := H.endsNow (e := .front) (Or.inl rfl) g2
  obtain ⟨jt4, f4, g4⟩ := H.endsNow (e := .back) (Or.inr hs) g3
  obtain ⟨jt5, f5, g5⟩ := H.endsNow (e := .front) (Or.inl rfl) g4
  simp only [nextOf] at e1 e2 e3 e4 e5 f1 f2 f3 f4 f5
  unfold Simulate.consumed
  simp only [e, e1, e2, e3, e4, e5, f1, f2, f3, f4, f5, except_bind_ok]
  rfl

include H in
omit [DecidableLT K] in
theorem stepFrontMut (w : Nat → V) : ∀ (n : Nat) {i : Nat} {s : S} {m : FMap K V} {it : It} {l : List (K × V)},
    Walk s m it (l.map Prod.fst) → (l.map Prod.fst).Nodup → (∀ x ∈ l, m.get x.1 = some x.2) → n ≤ l.length →
    ∃ s' m' it', Simulate.stepFrontMut D w n i s it l = .ok (s', it', l.drop n) ∧
      Walk s' m' it' ((l.drop n).map Prod.fst) ∧ (∀ x ∈ l.drop n, m'.get x.1 = some x.2) ∧ Over m m'
  | 0, _, s, m, it, l, h, _, hl, _ => ⟨s, m, it, rfl, h, hl, Over.refl m⟩
  | n + 1, i, s, m, it, [], _, _, _, hn => by simp at hn
  | n + 1, i, s, m, it, x :: l, h, hd, hl, hn => by
    rcases H.readMut (e := .front) (Or.inl rfl) h with ⟨hc, _⟩ | ⟨k, R', it', p, v, hE, hv, e1, er, hw⟩
    · simp at hc
    · have hE : (x :: l).map Prod.fst = k :: R' := hE
      simp only [List.map_cons, List.cons.injEq] at hE
      obtain ⟨rfl, rfl⟩ := hE
      rw [hl x (by simp)] at hv; cases hv
      have e1 : D.nextMut s it = .ok (it', some p) := e1
      obtain ⟨s1, ew, h1⟩ := hw (w i)
      obtain ⟨hd1, hd2⟩ := List.nodup_cons.1 hd
      obtain ⟨s2, m2, it2, e2, h2, hl2, ho⟩ := stepFrontMut w n (i := i + 1) h1 hd2 (fun y hy => by
        rw [get_insert, if_neg]
        · exact hl y (by simp [hy])
        · intro hc; exact hd1 (hc ▸ List.mem_map_of_mem hy)) (by simpa using hn)
      refine ⟨s2, m2, it2, ?_, h2, hl2, (Over.insert (hl x (by simp)) _).trans ho⟩
      simp only [Simulate.stepFrontMut, e1, except_bind_ok, List.head?_cons, Option.isSome_some, Bool.and_self,
        check_true, decide_true, List.tail_cons, unwrap, er, ew]
      exact e2

include H in
omit [DecidableLT K] in
theorem stepBackMut (hs : srt = true) (w : Nat → V) : ∀ (n : Nat) {i : Nat} {s : S} {m : FMap K V} {it : It}
    {l : List (K × V)}, Walk s m it (l.map Prod.fst) → (l.map Prod.fst).Nodup → (∀ x ∈ l, m.get x.1 = some x.2) →
    n = l.length → ∃ s' m' it', Simulate.stepBackMut D w n i s it l = .ok (s', it', []) ∧ Walk s' m' it' [] ∧ Over m m'
  | 0, _, s, m, it, l, h, _, _, hn => by
    obtain rfl := List.eq_nil_of_length_eq_zero hn.symm
    exact ⟨s, m, it, rfl, h, Over.refl m⟩
  | n + 1, i, s, m, it, l, h, hd, hl, hn => by
    rcases List.eq_nil_or_concat l with rfl | ⟨l, x, rfl⟩
    · simp at hn
    simp only [List.concat_eq_append] at *
    rcases H.readMut (e := .back) (Or.inr hs) h with ⟨hc, _⟩ | ⟨k, R', it', p, v, hE, hv, e1, er, hw⟩
    · simp at hc
    · have hE : (l ++ [x]).map Prod.fst = R' ++ [k] := hE
      rw [List.map_append] at hE hd
      obtain ⟨rfl, hk⟩ := List.append_inj' hE (by simp)
      simp only [List.map_cons, List.map_nil, List.cons.injEq, and_true] at hk
      subst hk
      rw [hl x (by simp)] at hv; cases hv
      have e1 : D.nextBackMut s it = .ok (it', some p) := e1
      obtain ⟨s1, ew, h1⟩ := hw (w i)
      obtain ⟨hd1, _, hd2⟩ := List.nodup_append.1 hd
      obtain ⟨s2, m2, it2, e2, h2, ho⟩ := stepBackMut hs w n (i := i + 1) h1 hd1 (fun y hy => by
        rw [get_insert, if_neg]
        · exact hl y (by simp [hy])
        · intro hc; exact hd2 _ (List.mem_map_of_mem hy) x.1 (by simp) hc) (by simpa using hn)
      refine ⟨s2, m2, it2, ?_, h2, (Over.insert (hl x (by simp)) _).trans ho⟩
      simp only [Simulate.stepBackMut, e1, except_bind_ok, List.getLast?_concat, Option.isSome_some, Bool.and_self,
        check_true, decide_true, List.dropLast_concat, unwrap, er, ew]
      exact e2

include H T in
omit [DecidableLT K] in
theorem doubleEndedMut {l : List (K × V)} (hs : srt = true) (h : Inv s m) (hl : Same l m) (r : Nat) (w : Nat → V)
    (h3 : 3 ≤ l.length) : ∃ s' m', Simulate.doubleEndedMut D r w l s = .ok s' ∧ Inv s' m' ∧ Over m m' := by
  obtain ⟨it, e, hw⟩ := H.start_sorted T hs h hl
  have hg : ∀ x ∈ l, m.get x.1 = some x.2 := fun x hx => (hl.lists.mem _ _).1 hx
  rcases bounds (n := l.length) (r := r) with ⟨_, es, b, eb, hb1, hb2⟩ | ⟨h3', _⟩
  · have hd := hl.lists.nodup
    obtain ⟨s1, m1, it1, e1, h1, hg1, ho1⟩ := H.stepFrontMut w b (i := 0) hw hd hg (by omega)
    obtain ⟨s2, m2, it2, e2, h2, ho2⟩ := H.stepBackMut hs w (l.length - b) (i := b) h1
      (hd.sublist ((List.drop_sublist b l).map _)) hg1 (by simp)
    obtain ⟨it3, e3, h3⟩ := H.endsNowMut (e := .front) (Or.inl rfl) h2
    obtain ⟨it4, e4, h4⟩ := H.endsNowMut (e := .back) (Or.inr hs) h3
    obtain ⟨it5, e5, h5⟩ := H.endsNowMut (e := .front) (Or.inl rfl) h4
    obtain ⟨it6, e6, h6⟩ := H.endsNowMut (e := .back) (Or.inr hs) h5
    simp only [nextMutOf] at e3 e4 e5 e6
    refine ⟨s2, m2, ?_, H.inv h2, ho1.trans ho2⟩
    unfold Simulate.doubleEndedMut
    simp only [e, es, eb, e1, e2, e3, e4, e5, e6, except_bind_ok, List.head?_nil, List.getLast?_nil,
      Option.isNone_none, check_true]
    rfl
  · omega

include H T in
/-- overwriting the whole tree from one end, and comparing -/
theorem overwrite_compare {e : End} (he : e = .front ∨ srt = true) (w : Nat → V) {fuel : Nat} (hf : M < fuel)
    (h : Inv s m) : ∃ it s' m' l, D.iter s = .ok it ∧
      Simulate.overwrite D (nextMutOf D e) w fuel 0 s it [] = .ok (s', l) ∧ Inv s' m' ∧ Same l m' ∧ Over m m' ∧
      Simulate.compare D fuel srt l s' = .ok () := by
  obtain ⟨it, R, ei, hw, hk, hn, _⟩ := H.start h
  obtain ⟨L, hL⟩ := H.lists h
  have hR := ((len_keys hL hk).2).2 hn
  have hle := H.le h
  obtain ⟨s', m', l, e1, h', hl, ho⟩ := H.overwrite T he w (i := 0) (fuel := fuel) hw (by omega) Same.empty
    (fun k v hg => by cases hg) (fun k hg => Or.inl ((hk k).2 hg))
  exact ⟨it, s', m', l, ei, e1, h', hl, ho, H.compare T hf h' hl⟩

include H T in
/-- lines 132-281 for a structure that is not sorted -/
theorem verify_unsorted {x : Vars S K V} (hs : srt = false) (h : Inv x.tree m) (hl : Same x.map m) {fuel : Nat}
    (hf : M < fuel) (c : Choices K V) :
    ∃ t m', Simulate.verify D fuel srt c x = .ok t ∧ Inv t m' ∧ Over m m' := by
  obtain ⟨it, s1, m1, l1, e1, e2, h1, _, ho, e3⟩ := H.overwrite_compare T (e := .front) (Or.inl rfl) c.val1 hf h
  obtain ⟨it2, R, e4, _⟩ := H.start h1
  obtain ⟨it3, e5⟩ := H.noBack hs s1 it2
  have e6 : Simulate.overwrite D D.nextBackMut c.val3 fuel 0 s1 it2 [] = .ok (s1, []) := by
    obtain ⟨n, rfl⟩ : ∃ n, fuel = n + 1 := ⟨fuel - 1, by omega⟩
    simp only [Simulate.overwrite, e5, except_bind_ok]; rfl
  have e7 : Simulate.compare D fuel srt ([] : List (K × V)) s1 = .ok () := by
    obtain ⟨it, R, e, hw, hk, hn, _⟩ := H.start h1
    obtain ⟨L, hL⟩ := H.lists h1
    have hR := ((len_keys hL hk).2).2 hn
    have hle := H.le h1
    obtain ⟨l, el, _⟩ := H.collect hw (fuel := fuel) (by omega)
    subst hs
    simp only [Simulate.compare, Bool.false_eq_true, if_false, e, el, except_bind_ok, zipList]
  simp only [nextMutOf] at e2
  refine ⟨s1, m1, ?_, h1, ho⟩
  unfold Simulate.verify
  rw [H.compare T hf h hl]
  subst hs
  simp only [e1, e2, e3, e4, e6, e7, except_bind_ok, Bool.false_eq_true, if_false, pure, Except.pure]

include H T in
/-- lines 132-281 for a sorted structure -/
theorem verify_sorted {x : Vars S K V} (hs : srt = true) (h : Inv x.tree m) (hl : Same x.map m) {fuel : Nat}
    (hf : M < fuel) (c : Choices K V) :
    (3 ≤ m.len ∧ ∃ t m', Simulate.verify D fuel srt c x = .ok t ∧ Inv t m' ∧ Over m m') ∨
    (m.len < 3 ∧ Simulate.verify D fuel srt c x = .error (tooFew m.len)) := by
  obtain ⟨it, s1, m1, l1, e1, e2, h1, hl1, ho, e3⟩ := H.overwrite_compare T (e := .front) (Or.inl rfl) c.val1 hf h
  have hlen : l1.length = m.len := by rw [← ho.1, hl1.lists.len]
  have e4 := H.doubleEnded T hs h1 hl1 c.break1
  have e5 := H.consumed T hs h1 hl1
  simp only [nextMutOf] at e2
  by_cases h3 : 3 ≤ m.len
  · refine Or.inl ⟨h3, ?_⟩
    rw [if_pos (by omega)] at e4
    obtain ⟨s2, m2, e6, h2, ho2⟩ := H.doubleEndedMut T hs h1 hl1 c.break2 c.val2 (by omega)
    obtain ⟨it3, s3, m3, l3, e7, e8, h3, hl3, ho3, e9⟩ := H.overwrite_compare T (e := .back) (Or.inr hs) c.val3 hf h2
    simp only [nextMutOf] at e8
    refine ⟨s3, m3, ?_, h3, (ho.trans ho2).trans ho3⟩
    unfold Simulate.verify
    rw [H.compare T hf h hl]
    subst hs
    simp only [e1, e2, e3, e4, e5, e6, e7, e8, e9, except_bind_ok, if_true]
    rfl
  · refine Or.inr ⟨by omega, ?_⟩
    rw [if_neg (by omega)] at e4
    unfold Simulate.verify
    rw [H.compare T hf h hl]
    subst hs
    simp only [e1, e2, e3, e4, except_bind_ok, if_true, hlen]
    rfl

end Fits
end Sokoban.Simulate
