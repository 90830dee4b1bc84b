import Verif.Proof.Fuzz

/-
What follows from a run of the fuzzing harness that does not fail (helpers for C85), and a wrong map on which no run
fails.
-/
namespace Sokoban.Fuzz

theorem bind_ok_iff {α β : Type} {x : R α} {f : α → R β} {r : β} :
    (x >>= f) = .ok r ↔ ∃ a, x = .ok a ∧ f a = .ok r := by
  cases x with
  | error p => exact ⟨fun h => (by cases h), fun ⟨_, h, _⟩ => (by cases h)⟩
  | ok a => exact ⟨fun h => ⟨a, rfl, h⟩, fun ⟨_, h, h'⟩ => (by cases h; exact h')⟩

theorem assertEq_ok {V : Type} [DecidableEq V] {a b : V} {u : Unit} : assertEq a b = .ok u ↔ a = b := by
  unfold assertEq; split <;> simp [*]

theorem unwrap_ok {α : Type} {o : Option α} {a : α} : unwrap o = .ok a ↔ o = some a := by
  cases o <;> simp [unwrap]

theorem Yields.of_forEach {It α : Type} {next : It → R (It × Option α)} {body : α → R Unit} {u : Unit} :
    ∀ {fuel : Nat} {it : It}, Fuzz.forEach next body fuel it = .ok u →
      ∃ L, Yields next it L ∧ ∀ x ∈ L, body x = .ok ()
  | 0, _, h => by cases h
  | fuel + 1, it, h => by
    simp only [Fuzz.forEach] at h
    obtain ⟨⟨it', x⟩, e, h⟩ := bind_ok_iff.1 h
    cases x with
    | none => exact ⟨[], ⟨it', e⟩, by simp⟩
    | some x =>
      obtain ⟨⟨⟩, e1, h⟩ := bind_ok_iff.1 h
      obtain ⟨L, h1, h2⟩ := Yields.of_forEach h
      exact ⟨x :: L, ⟨it', e, h1⟩, by simpa [e1] using h2⟩

theorem Yields.drive {It α : Type} {next nextBack : It → R (It × Option α)} : ∀ {L : List α} {it : It},
    Yields next it L → ∃ it', drive next nextBack it (List.replicate (L.length + 1) .front) = .ok (it', L.map some ++ [none])
  | [], it, ⟨it', e⟩ => ⟨it', by simp only [List.length_nil, List.replicate, Sokoban.drive, e, except_bind_ok]; rfl⟩
  | x :: L, it, ⟨it', e, h⟩ => by
    obtain ⟨it'', e'⟩ := Yields.drive (nextBack := nextBack) h
    refine ⟨it'', ?_⟩
    rw [List.length_cons, List.replicate_succ]
    simp only [Sokoban.drive, e, except_bind_ok, e']
    rfl

theorem Yields.drive_back {It α : Type} {next nextBack : It → R (It × Option α)} : ∀ {L : List α} {it : It},
    Yields nextBack it L → ∃ it', Sokoban.drive next nextBack it (List.replicate (L.length + 1) .back) = .ok (it', L.map some ++ [none])
  | [], it, ⟨it', e⟩ => ⟨it', by simp only [List.length_nil, List.replicate, Sokoban.drive, e, except_bind_ok]; rfl⟩
  | x :: L, it, ⟨it', e, h⟩ => by
    obtain ⟨it'', e'⟩ := Yields.drive_back (next := next) h
    refine ⟨it'', ?_⟩
    rw [List.length_cons, List.replicate_succ]
    simp only [Sokoban.drive, e, except_bind_ok, e']
    rfl

section
variable {S K V It P : Type} [DecidableEq V] {D : DynMap S K V It P} {fuel : Nat} {s : S} {keys : List K}

theorem of_insert {k : K} {v : V} {n : Nat} {r : S × List K} (hg : D.get s k = .ok none)
    (h : performAction D fuel s keys (.insert k v) n = .ok r) :
    ∃ s' o, D.insert s k v = .ok (s', o) ∧ (o.isSome → D.get s' k = .ok (some v)) := by
  simp only [performAction, hg, except_bind_ok] at h
  obtain ⟨⟨s', o⟩, e, h⟩ := bind_ok_iff.1 h
  refine ⟨s', o, e, fun ho => ?_⟩
  rw [if_pos ho] at h
  obtain ⟨x, e1, h⟩ := bind_ok_iff.1 h
  obtain ⟨y, e2, h⟩ := bind_ok_iff.1 h
  obtain ⟨⟨⟩, e3, h⟩ := bind_ok_iff.1 h
  rw [assertEq_ok] at e3
  rw [unwrap_ok] at e2
  rw [e1, e2, e3]

theorem at_mem {α : Type} {l : List α} {k : α} (h : k ∈ l) : ∃ j, at! l (j % l.length) = .ok k ∧ ¬ l.length = 0 := by
  obtain ⟨j, hj, e⟩ := List.mem_iff_getElem.1 h
  exact ⟨j, by rw [Nat.mod_eq_of_lt hj, at_ok hj, e], by omega⟩

theorem of_upsert {k : K} {v : V} {n : Nat} {r : S × List K} (hk : at! keys (n % keys.length) = .ok k)
    (h0 : ¬ keys.length = 0) (h : performAction D fuel s keys (.upsert v) n = .ok r) :
    ∃ s' o, D.insert s k v = .ok (s', o) ∧ D.get s' k = .ok (some v) := by
  simp only [performAction, h0, if_false, hk, except_bind_ok] at h
  obtain ⟨⟨s', o⟩, e, h⟩ := bind_ok_iff.1 h
  obtain ⟨x, e1, h⟩ := bind_ok_iff.1 h
  obtain ⟨y, e2, h⟩ := bind_ok_iff.1 h
  obtain ⟨⟨⟩, e3, h⟩ := bind_ok_iff.1 h
  rw [assertEq_ok] at e3
  rw [unwrap_ok] at e2
  exact ⟨s', o, e, by rw [e1, e2, e3]⟩

theorem of_replace {k : K} {v : V} {n : Nat} {r : S × List K} (hk : at! keys (n % keys.length) = .ok k)
    (h0 : ¬ keys.length = 0) (h : performAction D fuel s keys (.replace v) n = .ok r) :
    ∃ s' i s'', D.getMut s k = .ok (s', some i) ∧ D.write s' i v = .ok s'' ∧ D.get s'' k = .ok (some v) := by
  simp only [performAction, h0, if_false, hk, except_bind_ok] at h
  obtain ⟨⟨s', o⟩, e, h⟩ := bind_ok_iff.1 h
  obtain ⟨i, e0, h⟩ := bind_ok_iff.1 h
  obtain ⟨s'', ew, h⟩ := bind_ok_iff.1 h
  obtain ⟨x, e1, h⟩ := bind_ok_iff.1 h
  obtain ⟨y, e2, h⟩ := bind_ok_iff.1 h
  obtain ⟨⟨⟩, e3, h⟩ := bind_ok_iff.1 h
  rw [assertEq_ok] at e3
  rw [unwrap_ok] at e2 e0
  simp only at e0
  exact ⟨s', i, s'', by rw [e, e0], ew, by rw [e1, e2, e3]⟩

theorem of_remove {k : K} {n : Nat} {r : S × List K} (hk : at! keys (n % keys.length) = .ok k)
    (h0 : ¬ keys.length = 0) (h : performAction D fuel s keys .remove n = .ok r) :
    ∃ v s', D.get s k = .ok (some v) ∧ D.remove s k = .ok (s', some v) := by
  simp only [performAction, h0, if_false, hk, except_bind_ok] at h
  obtain ⟨x, e1, h⟩ := bind_ok_iff.1 h
  obtain ⟨v, e2, h⟩ := bind_ok_iff.1 h
  obtain ⟨⟨s', o⟩, e, h⟩ := bind_ok_iff.1 h
  obtain ⟨y, e3, h⟩ := bind_ok_iff.1 h
  obtain ⟨⟨⟩, e4, h⟩ := bind_ok_iff.1 h
  rw [assertEq_ok] at e4
  rw [unwrap_ok] at e2 e3
  simp only at e3
  exact ⟨v, s', by rw [e1, e2], by rw [e, e3, e4]⟩

theorem body_ok {x : K × V} (h : (do assertEq (← unwrap (← D.get s x.1)) x.2 : R Unit) = .ok ()) :
    D.get s x.1 = .ok (some x.2) := by
  obtain ⟨o, e1, h⟩ := bind_ok_iff.1 h
  obtain ⟨v, e2, h⟩ := bind_ok_iff.1 h
  rw [assertEq_ok] at h
  rw [unwrap_ok] at e2
  rw [e1, e2, h]

theorem of_iter {n : Nat} {r : S × List K} (h : performAction D fuel s keys .iter n = .ok r) :
    ∃ it L, D.iter s = .ok it ∧ Yields (D.next s) it L ∧ ∀ x ∈ L, D.get s x.1 = .ok (some x.2) := by
  simp only [performAction] at h
  obtain ⟨it, e, h⟩ := bind_ok_iff.1 h
  obtain ⟨⟨⟩, e1, h⟩ := bind_ok_iff.1 h
  obtain ⟨L, h1, h2⟩ := Yields.of_forEach e1
  exact ⟨it, L, e, h1, fun x hx => body_ok (h2 x hx)⟩

theorem of_iterRev {n : Nat} {r : S × List K} (h : performAction D fuel s keys .iterRev n = .ok r) :
    ∃ it L, D.iter s = .ok it ∧ Yields (D.nextBack s) it L ∧ ∀ x ∈ L, D.get s x.1 = .ok (some x.2) := by
  simp only [performAction] at h
  obtain ⟨it, e, h⟩ := bind_ok_iff.1 h
  obtain ⟨⟨⟩, e1, h⟩ := bind_ok_iff.1 h
  obtain ⟨L, h1, h2⟩ := Yields.of_forEach e1
  exact ⟨it, L, e, h1, fun x hx => body_ok (h2 x hx)⟩

theorem target_check {check : S → R Unit} : ∀ {actions : List (Action K V × Nat)} {s : S} {keys : List K} {s' : S}
    {keys' : List K}, target D check fuel s keys actions = .ok (s', keys') → actions ≠ [] → check s' = .ok ()
  | [], _, _, _, _, _, hne => absurd rfl hne
  | (a, r) :: as, s, keys, s', keys', h, _ => by
    simp only [target] at h
    obtain ⟨⟨s1, keys1⟩, e, h⟩ := bind_ok_iff.1 h
    obtain ⟨⟨⟩, e1, h⟩ := bind_ok_iff.1 h
    cases as with
    | nil => cases h; exact e1
    | cons b bs => exact target_check h (by simp)

theorem next_ok {check : S → R Unit} {s0 : S} {keys0 : List K}
    (hpass : ∀ actions, ∃ r, target D check fuel s0 keys0 actions = .ok r)
    {actions : List (Action K V × Nat)} (hrun : target D check fuel s0 keys0 actions = .ok (s, keys)) (a : Action K V)
    (n : Nat) : ∃ r, performAction D fuel s keys a n = .ok r := by
  obtain ⟨r, h⟩ := hpass (actions ++ [(a, n)])
  rw [Good.target_append _ _ hrun] at h
  simp only [target] at h
  obtain ⟨p, e, _⟩ := bind_ok_iff.1 h
  exact ⟨p, e⟩

end

/-- A wrong map: it keeps the keys, but only one value, that of the last write. -/
def oneValue {K V : Type} [DecidableEq K] (M : Nat) : DynMap (List K × V) K V (List K) Nat where
  insert s k v := .ok (if k ∈ s.1 then ((s.1, v), some 1)
    else if s.1.length < M then ((s.1 ++ [k], v), some 1) else (s, none))
  remove s k := .ok ((s.1.erase k, s.2), if k ∈ s.1 then some s.2 else none)
  get s k := .ok (if k ∈ s.1 then some s.2 else none)
  getMut s k := .ok (s, if k ∈ s.1 then some 1 else none)
  write s _ v := .ok (s.1, v)
  iter s := .ok s.1
  next s it := .ok (it.tail, it.head?.map (·, s.2))
  nextBack s it := .ok (it.dropLast, it.getLast?.map (·, s.2))
  nextMut _ it := .ok (it.tail, it.head?.map fun _ => 1)
  nextBackMut _ it := .ok (it.dropLast, it.getLast?.map fun _ => 1)

section
variable {K V : Type} {M fuel : Nat}

/-- What holds throughout: the keys remembered are distinct and kept. -/
def Kept (M : Nat) (s : List K × V) (keys : List K) : Prop := keys.Nodup ∧ (∀ k ∈ keys, k ∈ s.1) ∧ s.1.length ≤ M

theorem yields_front (v : V) : ∀ l : List K, Yields (fun it : List K => .ok (it.tail, it.head?.map (·, v))) l (l.map (·, v))
  | [] => ⟨[], rfl⟩
  | _ :: l => ⟨l, rfl, yields_front v l⟩

theorem yields_back (v : V) (l : List K) :
    Yields (fun it : List K => .ok (it.dropLast, it.getLast?.map (·, v))) l (l.reverse.map (·, v)) := by
  generalize hr : l.reverse = r
  induction r generalizing l with
  | nil => rw [List.reverse_eq_nil_iff] at hr; subst hr; exact ⟨[], rfl⟩
  | cons k r ih =>
    have hl : l = r.reverse ++ [k] := by rw [← List.reverse_reverse l, hr, List.reverse_cons]
    subst hl
    exact ⟨r.reverse, by simp, ih _ (by simp)⟩

theorem yields_front' : ∀ l : List K, Yields (fun it : List K => .ok (it.tail, it.head?.map fun _ => 1)) l (l.map fun _ => 1)
  | [] => ⟨[], rfl⟩
  | _ :: l => ⟨l, rfl, yields_front' l⟩

theorem yields_back' (l : List K) :
    Yields (fun it : List K => .ok (it.dropLast, it.getLast?.map fun _ => 1)) l (l.reverse.map fun _ => 1) := by
  generalize hr : l.reverse = r
  induction r generalizing l with
  | nil => rw [List.reverse_eq_nil_iff] at hr; subst hr; exact ⟨[], rfl⟩
  | cons k r ih =>
    have hl : l = r.reverse ++ [k] := by rw [← List.reverse_reverse l, hr, List.reverse_cons]
    subst hl
    exact ⟨r.reverse, by simp, ih _ (by simp)⟩

variable [DecidableEq K] [DecidableEq V]

theorem oneValue_action (hf : M < fuel) {s : List K × V} {keys : List K} (h : Kept M s keys) (a : Action K V) (n : Nat) :
    ∃ s' keys', performAction (oneValue M) fuel s keys a n = .ok (s', keys') ∧ Kept M s' keys' := by
  obtain ⟨h1, h2, h3⟩ := h
  have hkey : ¬ keys.length = 0 → ∃ k, at! keys (n % keys.length) = .ok k ∧ k ∈ s.1 ∧ ∃ hj : n % keys.length < keys.length,
      keys[n % keys.length] = k := fun h0 => by
    have hj : n % keys.length < keys.length := Nat.mod_lt _ (by omega)
    exact ⟨_, at_ok hj, h2 _ (List.getElem_mem hj), hj, rfl⟩
  cases a with
  | insert k v =>
    simp only [performAction, oneValue, except_bind_ok]
    by_cases hk : k ∈ s.1
    · exact ⟨s, keys, by simp [hk], h1, h2, h3⟩
    · by_cases hl : s.1.length < M
      · refine ⟨(s.1 ++ [k], v), keys ++ [k], by simp [hk, hl, unwrap, assertEq], ?_, ?_, ?_⟩
        · rw [List.nodup_append]
          exact ⟨h1, by simp, fun a ha b hb => by rintro rfl; simp at hb; subst hb; exact hk (h2 _ ha)⟩
        · intro x hx
          rcases List.mem_append.1 hx with hx | hx
          · exact List.mem_append_left _ (h2 x hx)
          · exact List.mem_append_right _ hx
        · simp; omega
      · exact ⟨s, keys, by simp [hk, hl], h1, h2, h3⟩
  | upsert v =>
    by_cases h0 : keys.length = 0
    · exact ⟨s, keys, by simp only [performAction, h0, if_true]; rfl, h1, h2, h3⟩
    · obtain ⟨k, e, hk, _⟩ := hkey h0
      refine ⟨(s.1, v), keys, ?_, h1, h2, h3⟩
      simp only [performAction, h0, if_false, e, oneValue, except_bind_ok]
      simp [hk, unwrap, assertEq]
  | replace v =>
    by_cases h0 : keys.length = 0
    · exact ⟨s, keys, by simp only [performAction, h0, if_true]; rfl, h1, h2, h3⟩
    · obtain ⟨k, e, hk, _⟩ := hkey h0
      refine ⟨(s.1, v), keys, ?_, h1, h2, h3⟩
      simp only [performAction, h0, if_false, e, oneValue, except_bind_ok]
      simp [hk, unwrap, assertEq]
  | remove =>
    by_cases h0 : keys.length = 0
    · exact ⟨s, keys, by simp only [performAction, h0, if_true]; rfl, h1, h2, h3⟩
    · obtain ⟨k, e, hk, hj, hjk⟩ := hkey h0
      refine ⟨(s.1.erase k, s.2), swapRemove keys (n % keys.length), ?_, ?_, ?_, ?_⟩
      · simp only [performAction, h0, if_false, e, oneValue, except_bind_ok]
        simp [hk, unwrap, assertEq]
      · exact (List.nodup_cons.1 ((swapRemove_perm hj).nodup_iff.2 h1)).2
      · have hp := swapRemove_perm hj
        rw [hjk] at hp
        have hnd := List.nodup_cons.1 (hp.nodup_iff.2 h1)
        intro x hx
        have hxk : x ≠ k := by rintro rfl; exact hnd.1 hx
        exact (List.mem_erase_of_ne hxk).2 (h2 x (hp.mem_iff.1 (List.mem_cons_of_mem _ hx)))
      · simp only; rw [List.length_erase_of_mem hk]; omega
  | iter =>
    refine ⟨s, keys, ?_, h1, h2, h3⟩
    simp only [performAction, oneValue, except_bind_ok]
    rw [(yields_front s.2 s.1).forEach (by simpa using by omega) (by
      intro x hx
      obtain ⟨k, hk, rfl⟩ := List.mem_map.1 hx
      simp [hk, unwrap, assertEq])]
    rfl
  | iterRev =>
    refine ⟨s, keys, ?_, h1, h2, h3⟩
    simp only [performAction, oneValue, except_bind_ok]
    rw [(yields_back s.2 s.1).forEach (by simpa using by omega) (by
      intro x hx
      obtain ⟨k, hk, rfl⟩ := List.mem_map.1 hx
      rw [List.mem_reverse] at hk
      simp [hk, unwrap, assertEq])]
    rfl
  | iterMut =>
    refine ⟨s, keys, ?_, h1, h2, h3⟩
    simp only [performAction, oneValue, except_bind_ok]
    rw [(yields_front' s.1).forEach (by simpa using by omega) (fun _ _ => rfl)]
    rfl
  | iterMutRev =>
    refine ⟨s, keys, ?_, h1, h2, h3⟩
    simp only [performAction, oneValue, except_bind_ok]
    rw [(yields_back' s.1).forEach (by simpa using by omega) (fun _ _ => rfl)]
    rfl

theorem oneValue_target (hf : M < fuel) : ∀ (actions : List (Action K V × Nat)) {s : List K × V} {keys : List K},
    Kept M s keys → ∃ s' keys', target (oneValue M) (fun _ => .ok ()) fuel s keys actions = .ok (s', keys') ∧
      Kept M s' keys'
  | [], s, keys, h => ⟨s, keys, rfl, h⟩
  | (a, n) :: as, s, keys, h => by
    obtain ⟨s1, keys1, e, h1⟩ := oneValue_action hf h a n
    obtain ⟨s2, keys2, e2, h2⟩ := oneValue_target hf as h1
    exact ⟨s2, keys2, by simp only [target, e, except_bind_ok, e2], h2⟩

end

end Sokoban.Fuzz
