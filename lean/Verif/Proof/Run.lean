import Verif.Spec.Run
import Verif.Proof.Alloc

namespace Sokoban

theorem consume_nil {α : Type} : ∀ es : List End, consume ([] : List α) es = es.map (fun _ => none)
  | [] => rfl
  | .front :: es => by simp [consume, consume_nil es]
  | .back :: es => by simp [consume, consume_nil es]

theorem consume_map {α β : Type} (g : α → β) : ∀ (es : List End) (l : List α),
    consume (l.map g) es = (consume l es).map (Option.map g)
  | [], l => rfl
  | .front :: es, l => by
    simp only [consume, List.map_cons, List.head?_map]
    rw [← List.map_tail, consume_map g es]
  | .back :: es, l => by
    simp only [consume, List.map_cons, List.getLast?_map]
    rw [← List.map_dropLast, consume_map g es]

theorem consumeMut_nil {α : Type} : ∀ es : List (End × (α → α)),
    consumeMut ([] : List α) es = (es.map (fun _ => none), [])
  | [] => rfl
  | _ :: es => by simp [consumeMut, consumeMut_nil es]

theorem consumeMut_front {α : Type} (x : α) (l : List α) (f : α → α) (es : List (End × (α → α))) :
    consumeMut (x :: l) ((.front, f) :: es) =
      (some x :: (consumeMut l es).1, f x :: (consumeMut l es).2) := by
  simp only [consumeMut]

theorem consumeMut_back {α : Type} (x : α) (l : List α) (f : α → α) (es : List (End × (α → α))) :
    consumeMut (l ++ [x]) ((.back, f) :: es) =
      (some x :: (consumeMut l es).1, (consumeMut l es).2 ++ [f x]) := by
  cases h : l ++ [x] with
  | nil => simp at h
  | cons y m =>
    simp only [consumeMut]
    have h1 : (y :: m).dropLast = l := by rw [← h]; simp
    have h2 : (y :: m).getLast (by simp) = x := by simp [← h]
    rw [h1, h2]

theorem drive_spec {It α : Type} {next nextBack : It → R (It × Option α)} {Inv : It → List α → Prop}
    (hn : ∀ it l, Inv it l → ∃ it', next it = .ok (it', l.head?) ∧ Inv it' l.tail)
    (hb : ∀ it l, Inv it l → ∃ it', nextBack it = .ok (it', l.getLast?) ∧ Inv it' l.dropLast) :
    ∀ (es : List End) (it : It) (l : List α), Inv it l →
      ∃ it', drive next nextBack it es = .ok (it', consume l es)
  | [], it, l, _ => ⟨it, rfl⟩
  | .front :: es, it, l, h => by
    obtain ⟨it1, e1, h1⟩ := hn it l h
    obtain ⟨it2, e2⟩ := drive_spec hn hb es it1 _ h1
    exact ⟨it2, by simp [drive, e1, e2, consume]⟩
  | .back :: es, it, l, h => by
    obtain ⟨it1, e1, h1⟩ := hb it l h
    obtain ⟨it2, e2⟩ := drive_spec hn hb es it1 _ h1
    exact ⟨it2, by simp [drive, e1, e2, consume]⟩

/-- Generic correctness of mutable iteration. `Inv s it pre m post`: the structure holds the
elements `pre ++ m ++ post`, the iterator still has to yield `m`. -/
theorem driveMut_spec {S It P V α : Type} {next nextBack : S → It → R (It × Option P)}
    {read : S → P → R V} {write : S → P → V → R S}
    {slot : α → P} {val : α → V} {upd : (V → V) → α → α}
    {Inv : S → It → List α → List α → List α → Prop}
    (hn : ∀ s it pre m post, Inv s it pre m post →
      ∃ it', next s it = .ok (it', m.head?.map slot) ∧
        ∀ x l, m = x :: l → read s (slot x) = .ok (val x) ∧
          ∀ f, ∃ s', write s (slot x) (f (val x)) = .ok s' ∧ Inv s' it' (pre ++ [upd f x]) l post)
    (hb : ∀ s it pre m post, Inv s it pre m post →
      ∃ it', nextBack s it = .ok (it', m.getLast?.map slot) ∧
        ∀ x l, m = l ++ [x] → read s (slot x) = .ok (val x) ∧
          ∀ f, ∃ s', write s (slot x) (f (val x)) = .ok s' ∧ Inv s' it' pre l (upd f x :: post))
    (hn0 : ∀ s it it' pre post, Inv s it pre [] post → next s it = .ok (it', none) →
      Inv s it' pre [] post)
    (hb0 : ∀ s it it' pre post, Inv s it pre [] post → nextBack s it = .ok (it', none) →
      Inv s it' pre [] post) :
    ∀ (es : List (End × (V → V))) (s : S) (it : It) (pre m post : List α), Inv s it pre m post →
      ∃ s' it' pre' m' post',
        driveMut next nextBack read write s it es =
          .ok (s', it', (consumeMut m (es.map fun e => (e.1, upd e.2))).1.map
            (Option.map fun x => (slot x, val x))) ∧
        Inv s' it' pre' m' post' ∧
        pre' ++ m' ++ post' = pre ++ (consumeMut m (es.map fun e => (e.1, upd e.2))).2 ++ post
  | [], s, it, pre, m, post, h => ⟨s, it, pre, m, post, by simp [driveMut, consumeMut], h, by simp [consumeMut]⟩
  | (.front, f) :: es, s, it, pre, m, post, h => by
    obtain ⟨it1, e1, h1⟩ := hn s it pre m post h
    cases m with
    | nil =>
      simp at e1
      obtain ⟨s', it', pre', m', post', e, hi, hl⟩ :=
        driveMut_spec hn hb hn0 hb0 es s it1 pre [] post (hn0 _ _ _ _ _ h e1)
      refine ⟨s', it', pre', m', post', ?_, hi, ?_⟩
      · rw [driveMut]
        simp only [e1, except_bind_ok]
        simp [e, consumeMut_nil]
      · simpa [consumeMut_nil] using hl
    | cons x l =>
      obtain ⟨hr, hw⟩ := h1 x l rfl
      obtain ⟨s1, hw1, hi1⟩ := hw f
      obtain ⟨s', it', pre', m', post', e, hi, hl⟩ :=
        driveMut_spec hn hb hn0 hb0 es s1 it1 _ l post hi1
      refine ⟨s', it', pre', m', post', ?_, hi, ?_⟩
      · rw [driveMut]
        simp only [e1, except_bind_ok, List.head?_cons, Option.map_some]
        simp [e, hr, hw1, consumeMut_front]
      · simpa [consumeMut_front] using hl
  | (.back, f) :: es, s, it, pre, m, post, h => by
    obtain ⟨it1, e1, h1⟩ := hb s it pre m post h
    rcases List.eq_nil_or_concat m with rfl | ⟨l, x, rfl⟩
    · simp at e1
      obtain ⟨s', it', pre', m', post', e, hi, hl⟩ :=
        driveMut_spec hn hb hn0 hb0 es s it1 pre [] post (hb0 _ _ _ _ _ h e1)
      refine ⟨s', it', pre', m', post', ?_, hi, ?_⟩
      · rw [driveMut]
        simp only [e1, except_bind_ok]
        simp [e, consumeMut_nil]
      · simpa [consumeMut_nil] using hl
    · simp only [List.concat_eq_append] at *
      obtain ⟨hr, hw⟩ := h1 x l rfl
      obtain ⟨s1, hw1, hi1⟩ := hw f
      obtain ⟨s', it', pre', m', post', e, hi, hl⟩ :=
        driveMut_spec hn hb hn0 hb0 es s1 it1 pre l _ hi1
      refine ⟨s', it', pre', m', post', ?_, hi, ?_⟩
      · rw [driveMut]
        simp only [e1, except_bind_ok, List.getLast?_append, List.getLast?_singleton, Option.some_or,
          Option.map_some]
        simp [e, hr, hw1, consumeMut_back]
      · simpa [consumeMut_back] using hl

/-- Elements seen by a consuming script. -/
theorem consumeMut_length {α : Type} : ∀ (es : List (End × (α → α))) (l : List α),
    (consumeMut l es).2.length = l.length
  | [], l => by cases l <;> rfl
  | _ :: es, [] => by simp [consumeMut_nil]
  | (.front, f) :: es, x :: l => by simp [consumeMut_front, consumeMut_length es l]
  | (.back, f) :: es, x :: l => by
    rcases List.eq_nil_or_concat (x :: l) with h | ⟨m, y, h⟩
    · simp at h
    · rw [h]; simp [consumeMut_back, consumeMut_length es m]

/-- Mapping commutes with consumption. -/
theorem consumeMut_map {α β F : Type} (g : α → β) (u : F → α → α) (u' : F → β → β)
    (hu : ∀ f x, g (u f x) = u' f (g x)) : ∀ (es : List (End × F)) (l : List α),
    (consumeMut (l.map g) (es.map fun e => (e.1, u' e.2))).1 =
      (consumeMut l (es.map fun e => (e.1, u e.2))).1.map (Option.map g) ∧
    (consumeMut (l.map g) (es.map fun e => (e.1, u' e.2))).2 =
      (consumeMut l (es.map fun e => (e.1, u e.2))).2.map g
  | [], l => by cases l <;> simp [consumeMut]
  | (d, f) :: es, l => by
    cases d with
    | front =>
      cases l with
      | nil => simp [consumeMut_nil]
      | cons x l =>
        have ih := consumeMut_map g u u' hu es l
        simp [consumeMut_front, ih.1, ih.2, hu]
    | back =>
      rcases List.eq_nil_or_concat l with rfl | ⟨m, y, rfl⟩
      · simp [consumeMut_nil]
      · have ih := consumeMut_map g u u' hu es m
        simp [consumeMut_back, ih.1, ih.2, hu]

theorem consumeMut_id_snd {α : Type} : ∀ (l : List α) (es : List End),
    (consumeMut l (es.map fun e => (e, fun x => x))).2 = l
  | l, [] => by cases l <;> rfl
  | [], _ :: es => by simp [consumeMut_nil]
  | x :: l, .front :: es => by simp [consumeMut_front, consumeMut_id_snd l es]
  | x :: l, .back :: es => by
    rcases List.eq_nil_or_concat (x :: l) with h | ⟨m, y, h⟩
    · simp at h
    · rw [h]; simp [consumeMut_back, consumeMut_id_snd m es]

theorem _root_.List.zip_map_fst_snd' {α β : Type} : ∀ l : List (α × β),
    (l.map Prod.fst).zip (l.map Prod.snd) = l
  | [] => rfl
  | x :: l => by simp [List.zip_map_fst_snd' l]

/-- The elements handed out are part of the sequence, each taken at most once. -/
theorem consumeMut_sub {α : Type} : ∀ (es : List (End × (α → α))) (l : List α),
    ∃ rest, ((consumeMut l es).1.filterMap id ++ rest).Perm l
  | [], l => ⟨l, by cases l <;> simp [consumeMut]⟩
  | _ :: es, [] => by
    obtain ⟨rest, h⟩ := consumeMut_sub es []
    exact ⟨rest, by simpa [consumeMut_nil] using h⟩
  | (.front, f) :: es, x :: l => by
    obtain ⟨rest, h⟩ := consumeMut_sub es l
    exact ⟨rest, by simpa [consumeMut_front] using h⟩
  | (.back, f) :: es, x :: l => by
    rcases List.eq_nil_or_concat (x :: l) with h | ⟨m, y, h⟩
    · simp at h
    · obtain ⟨rest, h'⟩ := consumeMut_sub es m
      refine ⟨rest, ?_⟩
      rw [h]; simp only [List.concat_eq_append, consumeMut_back]
      simp
      exact (List.Perm.cons y h').trans (List.perm_append_singleton y m).symm

/-- Running a step that refines a specification step. -/
theorem run_append {S Op Out : Type} (step : S → Op → R (S × Out)) (s : S) (ops ops' : List Op) :
    run step s (ops ++ ops') = (do
      let (s, os) ← run step s ops
      let (s, os') ← run step s ops'
      return (s, os ++ os')) := by
  induction ops generalizing s with
  | nil => simp [run]; cases run step s ops' <;> simp
  | cons op ops ih =>
    simp only [List.cons_append, run]
    cases h : step s op with
    | error e => simp
    | ok p =>
      simp only [except_bind_ok]
      rw [ih]
      cases h2 : run step p.1 ops with
      | error e => simp
      | ok q =>
        simp only [except_bind_ok]
        cases h3 : run step q.1 ops' <;> simp [h3]

end Sokoban
