import Verif.Proof.HashTable

namespace Sokoban
open MapSpec

theorem consumeMutFwd_nil {α : Type} : ∀ es : List (End × (α → α)),
    consumeMutFwd ([] : List α) es = (es.map (fun _ => none), [])
  | [] => rfl
  | (.front, _) :: es => by simp [consumeMutFwd, consumeMutFwd_nil es]
  | (.back, _) :: es => by simp [consumeMutFwd, consumeMutFwd_nil es]

theorem consumeMutFwd_back {α : Type} (l : List α) (f : α → α) (es : List (End × (α → α))) :
    consumeMutFwd l ((.back, f) :: es) = (none :: (consumeMutFwd l es).1, (consumeMutFwd l es).2) := by
  cases l <;> simp [consumeMutFwd]

theorem consumeMutFwd_front {α : Type} (x : α) (l : List α) (f : α → α) (es : List (End × (α → α))) :
    consumeMutFwd (x :: l) ((.front, f) :: es) =
      (some x :: (consumeMutFwd l es).1, f x :: (consumeMutFwd l es).2) := by
  simp only [consumeMutFwd]

theorem consumeMutFwd_map {α β F : Type} (g : α → β) (u : F → α → α) (u' : F → β → β)
    (hu : ∀ f x, g (u f x) = u' f (g x)) : ∀ (es : List (End × F)) (l : List α),
    (consumeMutFwd (l.map g) (es.map fun e => (e.1, u' e.2))).1 =
      (consumeMutFwd l (es.map fun e => (e.1, u e.2))).1.map (Option.map g) ∧
    (consumeMutFwd (l.map g) (es.map fun e => (e.1, u' e.2))).2 =
      (consumeMutFwd l (es.map fun e => (e.1, u e.2))).2.map g
  | [], l => by cases l <;> simp [consumeMutFwd]
  | (.back, f) :: es, l => by
    have ih := consumeMutFwd_map g u u' hu es l
    simp [consumeMutFwd_back, ih.1, ih.2]
  | (.front, f) :: es, [] => by simp [consumeMutFwd_nil]
  | (.front, f) :: es, x :: l => by
    have ih := consumeMutFwd_map g u u' hu es l
    simp [consumeMutFwd_front, ih.1, ih.2, hu]

theorem consumeMutFwd_sub {α : Type} : ∀ (es : List (End × (α → α))) (l : List α),
    ∃ rest, (consumeMutFwd l es).1.filterMap id ++ rest = l
  | [], l => ⟨l, by cases l <;> simp [consumeMutFwd]⟩
  | (.back, f) :: es, l => by
    obtain ⟨rest, h⟩ := consumeMutFwd_sub es l
    exact ⟨rest, by simpa [consumeMutFwd_back] using h⟩
  | (.front, f) :: es, [] => by
    obtain ⟨rest, h⟩ := consumeMutFwd_sub es []
    exact ⟨rest, by simpa [consumeMutFwd_nil] using h⟩
  | (.front, f) :: es, x :: l => by
    obtain ⟨rest, h⟩ := consumeMutFwd_sub es l
    exact ⟨rest, by simpa [consumeMutFwd_front] using h⟩

theorem consumeMutFwd_snd_map {α β : Type} (g : α → β) : ∀ (es : List (End × (α → α))) (l : List α),
    (∀ e ∈ es, ∀ x, g (e.2 x) = g x) → (consumeMutFwd l es).2.map g = l.map g
  | [], l, _ => by cases l <;> rfl
  | (.back, f) :: es, l, h => by
    simp [consumeMutFwd_back, consumeMutFwd_snd_map g es l (fun e he => h e (by simp [he]))]
  | (.front, f) :: es, [], h => by simp [consumeMutFwd_nil]
  | (.front, f) :: es, x :: l, h => by
    have := h (.front, f) (by simp) x
    simp at this
    simp [consumeMutFwd_front, consumeMutFwd_snd_map g es l (fun e he => h e (by simp [he])), this]

theorem consumeMut_snd_map {α β : Type} (g : α → β) : ∀ (es : List (End × (α → α))) (l : List α),
    (∀ e ∈ es, ∀ x, g (e.2 x) = g x) → (consumeMut l es).2.map g = l.map g
  | [], l, _ => by cases l <;> rfl
  | _ :: es, [], h => by simp [consumeMut_nil]
  | (.back, f) :: es, x :: l, h => by
    rcases List.eq_nil_or_concat (x :: l) with h' | ⟨m, y, h'⟩
    · simp at h'
    · have := h (.back, f) (by simp) y
      simp at this
      rw [h']; simp [consumeMut_back, consumeMut_snd_map g es m (fun e he => h e (by simp [he])), this]
  | (.front, f) :: es, x :: l, h => by
    have := h (.front, f) (by simp) x
    simp at this
    simp [consumeMut_front, consumeMut_snd_map g es l (fun e he => h e (by simp [he])), this]

theorem consumeFwd_front {α : Type} : ∀ (n : Nat) (l : List α),
    consumeFwd l (List.replicate n .front) = consume l (List.replicate n .front)
  | 0, l => rfl
  | n + 1, l => by simp [List.replicate_succ, consumeFwd, consume, consumeFwd_front n]

theorem driveFwd_spec {It α : Type} {next nextBack : It → R (It × Option α)} {Inv : It → List α → Prop}
    (hn : ∀ it l, Inv it l → ∃ it', next it = .ok (it', l.head?) ∧ Inv it' l.tail)
    (hb : ∀ it, nextBack it = .ok (it, none)) :
    ∀ (es : List End) (it : It) (l : List α), Inv it l →
      ∃ it', drive next nextBack it es = .ok (it', consumeFwd l es)
  | [], it, l, _ => ⟨it, rfl⟩
  | .front :: es, it, l, h => by
    obtain ⟨it1, e1, h1⟩ := hn it l h
    obtain ⟨it2, e2⟩ := driveFwd_spec hn hb es it1 _ h1
    exact ⟨it2, by simp [drive, e1, e2, consumeFwd]⟩
  | .back :: es, it, l, h => by
    obtain ⟨it2, e2⟩ := driveFwd_spec hn hb es it _ h
    exact ⟨it2, by simp [drive, hb, e2, consumeFwd]⟩

theorem driveMutFwd_spec {S It V α : Type} {next nextBack : S → It → R (It × Option Nat)}
    {read : S → Nat → R V} {write : S → Nat → V → R S}
    {slot : α → Nat} {val : α → V} {upd : (V → V) → α → α}
    {Inv : S → It → List α → List α → Prop}
    (hn : ∀ s it pre m, Inv s it pre m →
      ∃ it', next s it = .ok (it', m.head?.map slot) ∧ (m = [] → Inv s it' pre []) ∧
        ∀ x l, m = x :: l → read s (slot x) = .ok (val x) ∧
          ∀ f, ∃ s', write s (slot x) (f (val x)) = .ok s' ∧ Inv s' it' (pre ++ [upd f x]) l)
    (hb : ∀ s it, nextBack s it = .ok (it, none)) :
    ∀ (es : List (End × (V → V))) (s : S) (it : It) (pre m : List α), Inv s it pre m →
      ∃ s' it' pre' m',
        driveMut next nextBack read write s it es =
          .ok (s', it', (consumeMutFwd m (es.map fun e => (e.1, upd e.2))).1.map
            (Option.map fun x => (slot x, val x))) ∧
        Inv s' it' pre' m' ∧
        pre' ++ m' = pre ++ (consumeMutFwd m (es.map fun e => (e.1, upd e.2))).2
  | [], s, it, pre, m, h => ⟨s, it, pre, m, by cases m <;> simp [driveMut, consumeMutFwd], h,
      by cases m <;> simp [consumeMutFwd]⟩
  | (.back, f) :: es, s, it, pre, m, h => by
    obtain ⟨s', it', pre', m', e, hi, hl⟩ := driveMutFwd_spec hn hb es s it pre m h
    refine ⟨s', it', pre', m', ?_, hi, ?_⟩
    · rw [driveMut]
      simp only [hb, except_bind_ok]
      simp [e, consumeMutFwd_back]
    · simpa [consumeMutFwd_back] using hl
  | (.front, f) :: es, s, it, pre, [], h => by
    obtain ⟨it1, e1, h0, _⟩ := hn s it pre [] h
    simp at e1
    obtain ⟨s', it', pre', m', e, hi, hl⟩ := driveMutFwd_spec hn hb es s it1 pre [] (h0 rfl)
    refine ⟨s', it', pre', m', ?_, hi, ?_⟩
    · rw [driveMut]
      simp only [e1, except_bind_ok]
      simp [e, consumeMutFwd_nil]
    · simpa [consumeMutFwd_nil] using hl
  | (.front, f) :: es, s, it, pre, x :: l, h => by
    obtain ⟨it1, e1, _, h1⟩ := hn s it pre _ h
    obtain ⟨hr, hw⟩ := h1 x l rfl
    obtain ⟨s1, hw1, hi1⟩ := hw f
    obtain ⟨s', it', pre', m', e, hi, hl⟩ := driveMutFwd_spec hn hb es s1 it1 _ l hi1
    refine ⟨s', it', pre', m', ?_, hi, ?_⟩
    · rw [driveMut]
      simp only [e1, except_bind_ok, List.head?_cons, Option.map_some]
      simp [e, hr, hw1, consumeMutFwd_front]
    · simpa [consumeMutFwd_front] using hl

namespace HashTable
open NodeAllocator
variable {kn : Known} {K V : Type} {B M : Nat} {st : Prop} {hash : K → Nat} {h : HashTable K V B M} {c : Nat → List (Ent K V)}

/-- entries of the buckets from `b` on -/
abbrev rest (B : Nat) (c : Nat → List (Ent K V)) (b : Nat) : List (Ent K V) :=
  (List.range' b (B - b)).flatMap c

theorem rest_succ (c : Nat → List (Ent K V)) {b : Nat} (hb : b < B) :
    rest B c b = c b ++ rest B c (b + 1) := by
  unfold rest
  rw [show B - b = (B - (b + 1)) + 1 by omega, List.range'_succ]; simp

theorem all_eq (c : Nat → List (Ent K V)) {b : Nat} (hb : b < B) :
    all B c = (List.range b).flatMap c ++ c b ++ rest B c (b + 1) := by
  have hr : List.range B = List.range b ++ List.range' b (B - b) := by
    conv => lhs; rw [show B = b + (B - b) by omega]
    rw [List.range_eq_range', List.range_eq_range', ← List.range'_append_1]; simp
  unfold all
  rw [hr, List.flatMap_append, List.append_assoc, ← rest_succ c hb]

theorem flatMap_updB_lt (c : Nat → List (Ent K V)) (b : Nat) (l : List (Ent K V)) :
    (List.range b).flatMap (updB c b l) = (List.range b).flatMap c := by
  apply flatMap_congr'
  intro x hx
  simp at hx
  simp [updB]; omega

theorem rest_updB (c : Nat → List (Ent K V)) (b : Nat) (l : List (Ent K V)) :
    rest B (updB c b l) (b + 1) = rest B c (b + 1) := by
  apply flatMap_congr'
  intro x hx
  simp [List.mem_range'_1] at hx
  simp [updB]; omega

/-- the iterator has passed `pre` and still has to yield `m` -/
def IterInv (B : Nat) (c : Nat → List (Ent K V)) (it : Iter) (pre m : List (Ent K V)) : Prop :=
  (it.bucket < B ∧ ∃ done r, c it.bucket = done ++ r ∧ it.node = (ids r).headD 0 ∧
    pre = (List.range it.bucket).flatMap c ++ done ∧ m = r ++ rest B c (it.bucket + 1)) ∨
  (it.bucket = B ∧ pre = all B c ∧ m = [])

theorem IterInv.total {it : Iter} {pre m : List (Ent K V)} (hI : IterInv B c it pre m) :
    pre ++ m = all B c := by
  rcases hI with ⟨hb, done, r, hc, _, rfl, rfl⟩ | ⟨_, rfl, rfl⟩
  · rw [all_eq c hb, hc]; simp
  · simp

theorem iter_ok (H : HHeld st hash h c) : ∃ it, h.iter = .ok it ∧ IterInv B c it [] (all B c) := by
  refine ⟨⟨0, (ids (c 0)).headD 0⟩, ?_, Or.inl ⟨H.pos, [], c 0, rfl, rfl, by simp, ?_⟩⟩
  · unfold iter
    rw [bucket_ok H H.pos]; rfl
  · rw [all_eq c H.pos]; simp

theorem skip_spec (H : HHeld st hash h c) : ∀ (fuel : Nat) (it : Iter) (pre m : List (Ent K V)),
    it.bucket < B → B - it.bucket < fuel → IterInv B c it pre m →
    (m = [] ∧ ∃ it', Iter.skip h fuel it = .ok (it', true) ∧ IterInv B c it' pre []) ∨
    ∃ e l, m = e :: l ∧ ∃ it', Iter.skip h fuel it = .ok (it', false) ∧ it'.node = e.1 ∧
      it'.bucket < B ∧ ∃ done r, c it'.bucket = done ++ e :: r ∧
      pre = (List.range it'.bucket).flatMap c ++ done ∧ l = r ++ rest B c (it'.bucket + 1)
  | 0, it, pre, m, _, hf, _ => by omega
  | fuel + 1, it, pre, m, hlt, hf, hI => by
    rcases hI with ⟨hb, done, r, hc, hnode, hpre, hm⟩ | ⟨hb, _⟩
    · cases r with
      | cons e r =>
        right
        refine ⟨e, r ++ rest B c (it.bucket + 1), by simpa using hm, it, ?_, by simpa using hnode, hb, done, r, hc,
          hpre, rfl⟩
        have : it.node ≠ 0 := by
          have := H.range hb (i := e.1) (by rw [hc]; simp)
          simp at hnode; omega
        unfold Iter.skip
        simp [SENTINEL, this]
      | nil =>
        simp at hnode hm hc
        unfold Iter.skip
        simp only [SENTINEL, hnode, ne_eq, not_true_eq_false, if_false]
        by_cases hend : it.bucket + 1 = B
        · left
          have hm' : m = [] := by rw [hm, hend]; simp
          refine ⟨hm', ⟨it.bucket + 1, 0⟩, ?_, Or.inr ⟨hend, ?_, rfl⟩⟩
          · simp only [hend, if_true]; rfl
          · rw [hpre, all_eq c hb, hc, hend]; simp
        · have hlt' : it.bucket + 1 < B := by omega
          have := skip_spec H fuel ⟨it.bucket + 1, (ids (c (it.bucket + 1))).headD 0⟩ pre m hlt'
            (by simp; omega) (Or.inl ⟨hlt', [], c (it.bucket + 1), rfl, rfl, ?_, ?_⟩)
          · simp only [hend, if_false, bucket_ok H hlt', except_bind_ok]
            exact this
          · rw [hpre, List.range_succ]; simp [hc]
          · rw [hm, rest_succ c hlt']
    · omega

theorem next_spec (H : HHeld st hash h c) {it : Iter} {pre m : List (Ent K V)} (hI : IterInv B c it pre m) :
    (m = [] ∧ ∃ it', Iter.next h it = .ok (it', none) ∧ Iter.nextMut h it = .ok (it', none) ∧
      IterInv B c it' pre []) ∨
    ∃ e l it' b done r, m = e :: l ∧ Iter.next h it = .ok (it', some e.2) ∧
      Iter.nextMut h it = .ok (it', some e.1) ∧ b < B ∧ it'.bucket = b ∧ it'.node = (ids r).headD 0 ∧
      c b = done ++ e :: r ∧ pre = (List.range b).flatMap c ++ done ∧ l = r ++ rest B c (b + 1) := by
  by_cases hlt : it.bucket < B
  · rcases skip_spec H (B + 1) it pre m hlt (by omega) hI with ⟨hm, it', e, hI'⟩ |
      ⟨e, l, hm, it', es, hn, hb, done, r, hc, hp, hl⟩
    · left
      refine ⟨hm, it', ?_, ?_, hI'⟩
      · unfold Iter.next; simp [hlt, e]
      · unfold Iter.nextMut; simp [hlt, e]
    · right
      have hv := H.vals _ hb e (by rw [hc]; simp)
      have hr := h.allocator.val?_range hv
      have hnx := (neighbours H hb hc).2
      refine ⟨e, l, ⟨it'.bucket, (ids r).headD 0⟩, it'.bucket, done, r, hm, ?_, ?_, hb, rfl, rfl, hc, hp, hl⟩
      · unfold Iter.next
        simp only [hlt, if_true, es, except_bind_ok, hn, getNode, getValue_ok _ hv, getNext, RIGHT,
          getRegister_ok _ hr.2 (by omega : 1 < 4), hnx]
        rfl
      · unfold Iter.nextMut
        simp only [hlt, if_true, es, except_bind_ok, hn, getNext, RIGHT,
          getRegister_ok _ hr.2 (by omega : 1 < 4), hnx]
        rfl
  · rcases hI with ⟨hb, _⟩ | ⟨hb, hp, hm⟩
    · omega
    · left
      refine ⟨hm, it, ?_, ?_, Or.inr ⟨hb, hp, rfl⟩⟩
      · unfold Iter.next; simp [hlt]
      · unfold Iter.nextMut; simp [hlt]

theorem drive_iter (H : HHeld st hash h c) (es : List End) :
    ∃ it it', h.iter = .ok it ∧ drive (Iter.next h) Iter.nextBack it es =
      .ok (it', consumeFwd (kvs (all B c)) es) := by
  obtain ⟨it, e, hI⟩ := iter_ok H
  obtain ⟨it', e'⟩ := driveFwd_spec (next := Iter.next h) (nextBack := Iter.nextBack)
    (Inv := fun it l => ∃ pre m, IterInv B c it pre m ∧ l = kvs m) (by
      rintro it l ⟨pre, m, hI, rfl⟩
      rcases next_spec H hI with ⟨rfl, it', e, _, hI'⟩ |
        ⟨x, l, it', b, done, r, rfl, e, _, hb, hbk, hn, hc, hp, hl⟩
      · exact ⟨it', by simpa using e, pre, [], hI', by simp⟩
      · refine ⟨it', by simpa using e, pre ++ [x], l, Or.inl ⟨by rw [hbk]; exact hb, done ++ [x], r, ?_, hn, ?_, ?_⟩, by simp⟩
        · rw [hbk, hc]; simp
        · rw [hp, hbk]; simp
        · rw [hl, hbk]) (fun it => rfl) es it (kvs (all B c)) ⟨[], _, hI, rfl⟩
  exact ⟨it, it', e, e'⟩

/-- writing a value keeps the place of an entry -/
theorem write_spec (H : HHeld st hash h c) {b : Nat} (hb : b < B) {done r : List (Ent K V)}
    {x : Ent K V} (hc : c b = done ++ x :: r) (y : V) :
    ∃ h', h.setNodeValue x.1 y = .ok h' ∧ HHeld st hash h' (updB c b (done ++ (x.1, x.2.1, y) :: r)) :=
  setNodeValue_held H hb (i := x.1) (k := x.2.1) (v := x.2.2) hc y

/-- the write done at an entry: only the value changes -/
abbrev updE (f : K × V → K × V) (x : Ent K V) : Ent K V := (x.1, x.2.1, (f x.2).2)

variable [BEq K]
open HashTableSpec

omit [BEq K] in
theorem iterMut_held (H : HHeld st hash h c) (es : List (End × (K → V → V))) :
    ∃ h' c' it', iterMut h es = .ok (h', it',
        (consumeMutFwd (all B c) (es.map fun e => (e.1, updE (MapSpec.upd e.2)))).1) ∧ HHeld st hash h' c' ∧
      (∀ b, (c' b).length = (c b).length) ∧
      all B c' = (consumeMutFwd (all B c) (es.map fun e => (e.1, updE (MapSpec.upd e.2)))).2 := by
  obtain ⟨it, e, hI⟩ := iter_ok H
  obtain ⟨s', it', pre', m', e', ⟨c', H', hn', hI'⟩, hl⟩ := driveMutFwd_spec
    (next := Iter.nextMut (K := K) (V := V) (numBuckets := B) (maxSize := M)) (nextBack := Iter.nextBackMut)
    (read := readSlot) (write := writeSlot) (slot := Prod.fst) (val := Prod.snd)
    (upd := updE)
    (Inv := fun h it pre m => ∃ c1, HHeld st hash h c1 ∧ (∀ b, (c1 b).length = (c b).length) ∧ IterInv B c1 it pre m) (by
      rintro h it pre m ⟨c, H, hlen, hI⟩
      rcases next_spec H hI with ⟨rfl, it', _, e, hI'⟩ |
        ⟨x, l, it', b, done, r, rfl, _, e, hb, hbk, hn, hc, hp, hl⟩
      · exact ⟨it', by simpa using e, fun _ => ⟨c, H, hlen, hI'⟩, by simp⟩
      · refine ⟨it', by simpa using e, by simp, ?_⟩
        rintro x' l' hx
        simp at hx
        obtain ⟨rfl, rfl⟩ := hx
        have hv := H.vals _ hb x (by rw [hc]; simp)
        refine ⟨by unfold readSlot getNode; rw [getValue_ok _ hv]; rfl, fun f => ?_⟩
        obtain ⟨h', ew, H'⟩ := write_spec H hb hc (f x.2).2
        refine ⟨h', ew, _, H', ?_, Or.inl ⟨by rw [hbk]; exact hb, done ++ [updE f x], r, ?_, hn, ?_, ?_⟩⟩
        · intro x'
          rw [← hlen x']
          by_cases hx : x' = b
          · subst hx; rw [hc]; simp [updB]
          · simp [updB, hx]
        · rw [hbk]; simp [updB]
        · rw [hp, hbk, flatMap_updB_lt]; simp
        · rw [hl, hbk, rest_updB]) (fun _ _ => rfl) (script es) h it [] (all B c) ⟨c, H, fun _ => rfl, hI⟩
  refine ⟨s', c', it', ?_, H', hn', ?_⟩
  · unfold iterMut
    rw [e]
    simp only [except_bind_ok]
    rw [e']
    have hid : (Option.map fun x : Ent K V => (x.1, x.2)) = id := by funext o; cases o <;> rfl
    rw [hid]
    simp [script, Function.comp_def]
  · rw [← hI'.total, hl]
    simp [script, Function.comp_def]

omit [BEq K] in
theorem HHeld.toRep (H : HHeld True hash h c) (hk : ((kvs (all B c)).map Prod.fst).Nodup) : HRep hash h c where
  toHHeld := H
  keys b hb := by
    obtain ⟨A, C, e, _⟩ := all_split c hb
    rw [e] at hk
    simp only [kvs, List.map_append, List.map_map] at hk
    exact (List.nodup_append.1 (List.nodup_append.1 hk).1).2.1

omit [BEq K] in
theorem iterMut_spec (H : HRep hash h c) (es : List (End × (K → V → V))) :
    ∃ h' c' it', iterMut h es = .ok (h', it',
        (consumeMutFwd (all B c) (es.map fun e => (e.1, updE (MapSpec.upd e.2)))).1) ∧ HRep hash h' c' ∧
      all B c' = (consumeMutFwd (all B c) (es.map fun e => (e.1, updE (MapSpec.upd e.2)))).2 := by
  obtain ⟨h', c', it', e, H', _, hall⟩ := iterMut_held H.toHHeld es
  refine ⟨h', c', it', e, H'.toRep ?_, hall⟩
  have := consumeMutFwd_snd_map (fun x : Ent K V => x.2.1)
    (es.map fun e => (e.1, updE (MapSpec.upd e.2))) (all B c) (by
      intro e he x
      obtain ⟨e', _, rfl⟩ := List.mem_map.1 he
      rfl)
  rw [← hall] at this
  have hn := H.keys_nodup
  simp only [kvs, List.map_map, Function.comp_def] at hn ⊢
  rw [this]
  exact hn

end HashTable
end Sokoban
