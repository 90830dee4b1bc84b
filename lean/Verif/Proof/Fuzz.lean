import Verif.Model.Fuzz
import Verif.Proof.RBLaws
import Verif.Proof.AVLLaws
import Verif.Proof.CritbitLaws
import Verif.Proof.HashTableHist

/-
The fuzzing harness on any structure that satisfies the laws `Good` below.
-/
namespace Sokoban.Fuzz
open MapSpec

/-! ### `for` loops -/

/-- the calls of `next` yield `L` and then `None` -/
def Yields {It α : Type} (next : It → R (It × Option α)) : It → List α → Prop
  | it, [] => ∃ it', next it = .ok (it', none)
  | it, x :: L => ∃ it', next it = .ok (it', some x) ∧ Yields next it' L

theorem Yields.forEach {It α : Type} {next : It → R (It × Option α)} {body : α → R Unit} :
    ∀ {L : List α} {it : It} {fuel : Nat}, Yields next it L → L.length < fuel → (∀ x ∈ L, body x = .ok ()) →
      forEach next body fuel it = .ok ()
  | _, _, 0, _, hf, _ => by omega
  | [], it, fuel + 1, ⟨it', e⟩, _, _ => by simp only [Fuzz.forEach, e, except_bind_ok]; rfl
  | x :: L, it, fuel + 1, ⟨it', e, h⟩, hf, hb => by
    simp only [Fuzz.forEach, e, except_bind_ok, hb x (by simp)]
    exact h.forEach (by simpa using hf) (fun y hy => hb y (by simp [hy]))

theorem Yields.of_drive {It α : Type} {next nextBack : It → R (It × Option α)} : ∀ {L : List α} {it it' : It},
    drive next nextBack it (List.replicate (L.length + 1) .front) =
      .ok (it', consume L (List.replicate (L.length + 1) .front)) → Yields next it L
  | [], it, it', h => by
    simp only [List.length_nil, List.replicate, consume, drive] at h
    cases e : next it with
    | error _ => rw [e] at h; cases h
    | ok p => obtain ⟨a, b⟩ := p; rw [e] at h; cases h; exact ⟨_, e⟩
  | x :: L, it, it', h => by
    rw [List.length_cons, List.replicate_succ] at h
    simp only [consume, drive, List.head?_cons, List.tail_cons] at h
    cases e : next it with
    | error _ => rw [e] at h; cases h
    | ok p =>
      rw [e, except_bind_ok] at h
      cases e' : drive next nextBack p.1 (List.replicate (L.length + 1) .front) with
      | error _ => simp only [e'] at h; cases h
      | ok q =>
        simp only [e', except_bind_ok] at h
        have h : Except.ok (q.1, p.2 :: q.2) = Except.ok (ε := Panic) (it', some x :: _) := h
        simp only [Except.ok.injEq, Prod.mk.injEq, List.cons.injEq] at h
        refine ⟨p.1, by rw [e, ← h.2.1], Yields.of_drive (nextBack := nextBack) (it' := q.1) ?_⟩
        rw [e', ← h.2.2]

theorem Yields.of_drive_back {It α : Type} {next nextBack : It → R (It × Option α)} : ∀ {L : List α} {it it' : It},
    drive next nextBack it (List.replicate (L.length + 1) .back) =
      .ok (it', consume L.reverse (List.replicate (L.length + 1) .back)) → Yields nextBack it L
  | [], it, it', h => by
    simp only [List.length_nil, List.replicate, consume, drive, List.reverse_nil] at h
    cases e : nextBack it with
    | error _ => rw [e] at h; cases h
    | ok p => obtain ⟨a, b⟩ := p; rw [e] at h; cases h; exact ⟨_, e⟩
  | x :: L, it, it', h => by
    rw [List.length_cons, List.replicate_succ] at h
    simp only [consume, drive, List.reverse_cons, List.getLast?_concat, List.dropLast_concat] at h
    cases e : nextBack it with
    | error _ => rw [e] at h; cases h
    | ok p =>
      rw [e, except_bind_ok] at h
      cases e' : drive next nextBack p.1 (List.replicate (L.length + 1) .back) with
      | error _ => simp only [e'] at h; cases h
      | ok q =>
        simp only [e', except_bind_ok] at h
        have h : Except.ok (q.1, p.2 :: q.2) = Except.ok (ε := Panic) (it', some x :: _) := h
        simp only [Except.ok.injEq, Prod.mk.injEq, List.cons.injEq] at h
        refine ⟨p.1, by rw [e, ← h.2.1], Yields.of_drive_back (next := next) (it' := q.1) ?_⟩
        rw [e', ← h.2.2]

/-! ### the list of keys -/

theorem swapRemove_perm {α : Type} {l : List α} {j : Nat} (hj : j < l.length) :
    (l[j] :: swapRemove l j).Perm l := by
  rcases List.eq_nil_or_concat l with rfl | ⟨l', x, rfl⟩
  · simp at hj
  · simp only [List.concat_eq_append] at hj ⊢
    have e : (l' ++ [x]).getLast? = some x := by simp
    simp only [swapRemove, e]
    by_cases h : j < l'.length
    · rw [List.set_append_left _ _ h, List.dropLast_concat, List.getElem_append_left h]
      have h1 : (l'[j] :: l'.set j x).Perm (x :: l') := by
        rw [List.set_eq_take_append_cons_drop, if_pos h]
        have h2 : l' = l'.take j ++ l'[j] :: l'.drop (j + 1) := by simp
        calc (l'[j] :: (l'.take j ++ x :: l'.drop (j + 1))).Perm (l'[j] :: x :: (l'.take j ++ l'.drop (j + 1))) :=
              List.perm_middle.cons _
          _ |>.Perm (x :: l'[j] :: (l'.take j ++ l'.drop (j + 1))) := List.Perm.swap _ _ _
          _ |>.Perm (x :: l') := by
              refine List.Perm.cons _ ?_
              conv => rhs; rw [h2]
              exact List.perm_middle.symm
      exact h1.trans (List.perm_append_singleton x l').symm
    · have hj' : j = l'.length := by simp at hj; omega
      subst hj'
      simp only [List.set_append_right _ _ (Nat.le_refl _), Nat.sub_self, List.set_cons_zero, List.dropLast_concat]
      simpa using (List.perm_append_singleton x l').symm

/-! ### laws -/

variable {S K V It P : Type} [DecidableEq K] [DecidableEq V]

/-- what the harness needs of a structure: it is a finite map that refuses some insertions -/
structure Good (D : DynMap S K V It P) (M : Nat) (refuses : FMap K V → K → Prop) (Inv : S → FMap K V → Prop) :
    Prop where
  get : ∀ {s m}, Inv s m → ∀ k, D.get s k = .ok (m.get k)
  insert : ∀ {s m}, Inv s m → ∀ k v, (refuses m k ∧ D.insert s k v = .ok (s, none)) ∨
    (¬ refuses m k ∧ ∃ s' i, D.insert s k v = .ok (s', some i) ∧ Inv s' (m.insert k v))
  remove : ∀ {s m}, Inv s m → ∀ k, ∃ s', D.remove s k = .ok (s', m.get k) ∧ Inv s' (m.erase k)
  getMut : ∀ {s m}, Inv s m → ∀ {k v}, m.get k = some v → ∃ s' i, D.getMut s k = .ok (s', some i) ∧
    ∀ w, ∃ s'', D.write s' i w = .ok s'' ∧ Inv s'' (m.insert k w)
  iter : ∀ {s m}, Inv s m → ∃ it, D.iter s = .ok it ∧
    (∃ L, Yields (D.next s) it L ∧ L.length ≤ M ∧ ∀ e ∈ L, m.get e.1 = some e.2) ∧
    (∃ L, Yields (D.nextBack s) it L ∧ L.length ≤ M ∧ ∀ e ∈ L, m.get e.1 = some e.2) ∧
    (∃ L, Yields (D.nextMut s) it L ∧ L.length ≤ M) ∧ (∃ L, Yields (D.nextBackMut s) it L ∧ L.length ≤ M)

/-- the keys that the harness remembers are those in the map -/
def Knows (keys : List K) (m : FMap K V) : Prop := keys.Nodup ∧ ∀ k, k ∈ keys ↔ (m.get k).isSome

theorem assertEq_self (v : V) : assertEq v v = .ok () := if_pos rfl

theorem at_ok {α : Type} {l : List α} {j : Nat} (hj : j < l.length) : at! l j = .ok l[j] := by
  simp [at!, hj]

namespace Good
variable {D : DynMap S K V It P} {M : Nat} {refuses : FMap K V → K → Prop} {Inv : S → FMap K V → Prop}
  (H : Good D M refuses Inv)
include H
variable {s : S} {m : FMap K V} {keys : List K}

/-- the failing action -/
def Fails (refuses : FMap K V → K → Prop) (m : FMap K V) (keys : List K) (a : Action K V) (r : Nat) : Prop :=
  ∃ v k w, a = .upsert v ∧ keys[r % keys.length]? = some k ∧ refuses m k ∧ m.get k = some w ∧ w ≠ v

/-- one action -/
theorem action (h : Inv s m) (hk : Knows keys m) {fuel : Nat} (hf : M < fuel) (a : Action K V) (r : Nat) :
    (¬ Fails refuses m keys a r ∧ ∃ s' keys' m', performAction D fuel s keys a r = .ok (s', keys') ∧ Inv s' m' ∧
      Knows keys' m') ∨
    (Fails refuses m keys a r ∧ performAction D fuel s keys a r = .error .assertion) := by
  have same : ∀ {s' : S}, Inv s' m → ∃ s'' keys' m', (Except.ok (s', keys) : R (S × List K)) = .ok (s'', keys') ∧
      Inv s'' m' ∧ Knows keys' m' := fun h' => ⟨_, _, m, rfl, h', hk⟩
  have pick : keys.length ≠ 0 → ∃ (hj : r % keys.length < keys.length) (v : V),
      m.get keys[r % keys.length] = some v := by
    intro h0
    have hj : r % keys.length < keys.length := Nat.mod_lt _ (by omega)
    exact ⟨hj, Option.isSome_iff_exists.1 ((hk.2 _).1 (List.getElem_mem hj))⟩
  have ins : ∀ {k : K} {v w : V}, m.get k = some w → Knows keys (m.insert k v) := by
    intro k v w hg
    refine ⟨hk.1, fun k' => ?_⟩
    rw [hk.2]; simp only [FMap.insert]
    split
    · subst k'; simp [hg]
    · rfl
  have no : ∀ a : Action K V, (∀ v, a ≠ .upsert v) → ¬ Fails refuses m keys a r :=
    fun a ha ⟨v, _, _, e, _⟩ => ha v e
  cases a with
  | insert k v =>
    left
    refine ⟨no _ (by simp), ?_⟩
    simp only [performAction, H.get h, except_bind_ok]
    cases hg : m.get k with
    | some w => exact same h
    | none =>
      simp only [Option.isSome_none, Bool.false_eq_true, if_false]
      rcases H.insert h k v with ⟨_, e⟩ | ⟨_, s', i, e, h'⟩
      · simp only [e, except_bind_ok, Option.isSome_none, Bool.false_eq_true, if_false]
        exact same h
      · simp only [e, except_bind_ok, Option.isSome_some, if_true, H.get h', FMap.insert, unwrap, assertEq_self]
        refine ⟨s', _, _, rfl, h', List.nodup_append.2 ⟨hk.1, by simp, ?_⟩, fun k' => ?_⟩
        · intro a ha b hb
          simp only [List.mem_singleton] at hb
          subst hb
          rintro rfl
          have := (hk.2 a).1 ha
          rw [hg] at this; cases this
        · simp only [List.mem_append, List.mem_singleton, hk.2, FMap.insert]
          split
          · subst k'; simp
          · next hne => simp [hne]
  | upsert v =>
    by_cases h0 : keys.length = 0
    · refine Or.inl ⟨?_, ?_⟩
      · rintro ⟨_, k, _, _, e, _⟩
        rw [List.length_eq_zero_iff] at h0
        subst h0; simp at e
      · simp only [performAction, h0, if_true]; exact same h
    obtain ⟨hj, w, hw⟩ := pick h0
    simp only [performAction, h0, if_false, at_ok hj, except_bind_ok]
    have hget : keys[r % keys.length]? = some keys[r % keys.length] := by simp [hj]
    rcases H.insert h keys[r % keys.length] v with ⟨hr, e⟩ | ⟨hr, s', i, e, h'⟩
    · simp only [e, except_bind_ok, H.get h, hw, unwrap]
      by_cases hv : w = v
      · subst hv
        refine Or.inl ⟨?_, ?_⟩
        · rintro ⟨v', k', w', ea, ek, _, eg, hne⟩
          rw [hget] at ek; cases ek; cases ea
          rw [hw] at eg; cases eg
          exact hne rfl
        · simp only [assertEq_self, except_bind_ok]; exact same h
      · exact Or.inr ⟨⟨v, _, w, rfl, hget, hr, hw, hv⟩, by simp only [assertEq, if_neg hv]; rfl⟩
    · refine Or.inl ⟨?_, ?_⟩
      · rintro ⟨v', k', w', _, ek, hr', _⟩
        rw [hget] at ek; cases ek
        exact hr hr'
      · simp only [e, except_bind_ok, H.get h', FMap.insert, if_true, unwrap, assertEq_self]
        exact ⟨s', keys, _, rfl, h', ins hw⟩
  | replace v =>
    refine Or.inl ⟨no _ (by simp), ?_⟩
    by_cases h0 : keys.length = 0
    · simp only [performAction, h0, if_true]; exact same h
    obtain ⟨hj, w, hw⟩ := pick h0
    simp only [performAction, h0, if_false, at_ok hj, except_bind_ok]
    obtain ⟨s', i, e, hwr⟩ := H.getMut h hw
    obtain ⟨s'', e', h'⟩ := hwr v
    simp only [e, except_bind_ok, unwrap, e', H.get h', FMap.insert, if_true, assertEq_self]
    exact ⟨s'', keys, _, rfl, h', ins hw⟩
  | remove =>
    refine Or.inl ⟨no _ (by simp), ?_⟩
    by_cases h0 : keys.length = 0
    · simp only [performAction, h0, if_true]; exact same h
    obtain ⟨hj, w, hw⟩ := pick h0
    simp only [performAction, h0, if_false, at_ok hj, except_bind_ok, H.get h, hw, unwrap]
    obtain ⟨s', e, h'⟩ := H.remove h keys[r % keys.length]
    simp only [e, hw, except_bind_ok, assertEq_self]
    have hp := swapRemove_perm hj
    have hn := List.nodup_cons.1 (hp.nodup_iff.2 hk.1)
    refine ⟨s', _, _, rfl, h', hn.2, fun k => ?_⟩
    simp only [FMap.erase]
    split
    · next hkk => subst hkk; simpa using hn.1
    · next hkk =>
      rw [← hk.2, ← hp.mem_iff]
      simp [hkk]
  | iter =>
    refine Or.inl ⟨no _ (by simp), ?_⟩
    obtain ⟨it, e, ⟨L, hL, hl, hm⟩, _⟩ := H.iter h
    simp only [performAction, e, except_bind_ok, H.get h]
    rw [hL.forEach (by omega) (fun x hx => by simp only [hm x hx, unwrap, except_bind_ok, assertEq_self])]
    exact same h
  | iterRev =>
    refine Or.inl ⟨no _ (by simp), ?_⟩
    obtain ⟨it, e, _, ⟨L, hL, hl, hm⟩, _⟩ := H.iter h
    simp only [performAction, e, except_bind_ok, H.get h]
    rw [hL.forEach (by omega) (fun x hx => by simp only [hm x hx, unwrap, except_bind_ok, assertEq_self])]
    exact same h
  | iterMut =>
    refine Or.inl ⟨no _ (by simp), ?_⟩
    obtain ⟨it, e, _, _, ⟨L, hL, hl⟩, _⟩ := H.iter h
    simp only [performAction, e, except_bind_ok]
    rw [hL.forEach (by omega) (fun x hx => rfl)]
    exact same h
  | iterMutRev =>
    refine Or.inl ⟨no _ (by simp), ?_⟩
    obtain ⟨it, e, _, _, _, ⟨L, hL, hl⟩⟩ := H.iter h
    simp only [performAction, e, except_bind_ok]
    rw [hL.forEach (by omega) (fun x hx => rfl)]
    exact same h

/-- a target either gets through, or fails at an action of which everything before went through -/
theorem target {check : S → R Unit} (hc : ∀ {s m}, Inv s m → check s = .ok ()) {fuel : Nat} (hf : M < fuel) :
    ∀ (as : List (Action K V × Nat)) {s : S} {m : FMap K V} {keys : List K}, Inv s m → Knows keys m →
      (∃ s' keys' m', Fuzz.target D check fuel s keys as = .ok (s', keys') ∧ Inv s' m' ∧ Knows keys' m') ∨
      (Fuzz.target D check fuel s keys as = .error .assertion ∧ ∃ pre a r post s' keys' m',
        as = pre ++ (a, r) :: post ∧ Fuzz.target D check fuel s keys pre = .ok (s', keys') ∧ Inv s' m' ∧
        Knows keys' m' ∧ Fails refuses m' keys' a r)
  | [], s, m, keys, h, hk => Or.inl ⟨s, keys, m, rfl, h, hk⟩
  | (a, r) :: as, s, m, keys, h, hk => by
    rcases H.action h hk hf a r with ⟨_, s', keys', m', e, h', hk'⟩ | ⟨hfail, e⟩
    · simp only [Fuzz.target, e, except_bind_ok, hc h']
      rcases target hc hf as h' hk' with hok | ⟨he, pre, a', r', post, s'', keys'', m'', rfl, e', hrest⟩
      · exact Or.inl hok
      · refine Or.inr ⟨he, (a, r) :: pre, a', r', post, s'', keys'', m'', rfl, ?_, hrest⟩
        simp only [Fuzz.target, e, except_bind_ok, hc h', e']
    · exact Or.inr ⟨by simp only [Fuzz.target, e]; rfl, [], a, r, as, s, keys, m, rfl, rfl, h, hk, hfail⟩

omit H [DecidableEq K] in
theorem target_append {check : S → R Unit} {fuel : Nat} : ∀ (as bs : List (Action K V × Nat)) {s s' : S}
    {keys keys' : List K}, Fuzz.target D check fuel s keys as = .ok (s', keys') →
    Fuzz.target D check fuel s keys (as ++ bs) = Fuzz.target D check fuel s' keys' bs
  | [], _, _, _, _, _, h => by cases h; rfl
  | (a, r) :: as, bs, s, s', keys, keys', h => by
    simp only [Fuzz.target, List.cons_append] at h ⊢
    cases e : performAction D fuel s keys a r with
    | error _ => rw [e] at h; cases h
    | ok p =>
      rw [e] at h
      simp only [except_bind_ok] at h ⊢
      cases ec : check p.1 with
      | error _ => rw [ec] at h; cases h
      | ok u =>
        rw [ec] at h
        exact target_append as bs h

/-- and conversely -/
theorem fails {check : S → R Unit} {fuel : Nat} (hf : M < fuel) (h : Inv s m) (hk : Knows keys m)
    {a : Action K V} {r : Nat} (ha : Fails refuses m keys a r) (as : List (Action K V × Nat)) :
    Fuzz.target D check fuel s keys ((a, r) :: as) = .error .assertion := by
  rcases H.action h hk hf a r with ⟨hn, _⟩ | ⟨_, e⟩
  · exact absurd ha hn
  · simp only [Fuzz.target, e]; rfl

/-- insertions of different keys with the same value, as many as there is room for -/
theorem fill {check : S → R Unit} (hc : ∀ {s m}, Inv s m → check s = .ok ()) (fuel : Nat) (v : V)
    (hr : ∀ (m : FMap K V) k, m.len < M → ¬ refuses m k) :
    ∀ (ks : List K) {s : S} {m : FMap K V} {keys : List K}, Inv s m → (∀ k ∈ ks, m.get k = none) → ks.Nodup →
      m.len + ks.length ≤ M → (∀ k w, m.get k = some w → w = v) →
      ∃ s' m', Fuzz.target D check fuel s keys (ks.map fun k => (.insert k v, 0)) = .ok (s', keys ++ ks) ∧ Inv s' m' ∧
        m'.len = m.len + ks.length ∧ (∀ k w, m'.get k = some w → w = v)
  | [], s, m, keys, h, _, _, _, hv => ⟨s, m, by simp [Fuzz.target], h, rfl, hv⟩
  | k :: ks, s, m, keys, h, hn, hd, hl, hv => by
    have hg := hn k (by simp)
    simp only [List.length_cons] at hl
    obtain ⟨hd1, hd2⟩ := List.nodup_cons.1 hd
    rcases H.insert h k v with ⟨hf, _⟩ | ⟨_, s1, i, e, h1⟩
    · exact absurd hf (hr m k (by omega))
    · have hlen : (m.insert k v).len = m.len + 1 := by simp [FMap.insert, hg]
      obtain ⟨s', m', e', h', hl', hv'⟩ := fill hc fuel v hr ks (keys := keys ++ [k]) h1 (fun k' hk' => by
        simp only [FMap.insert]
        have hne : k' ≠ k := by rintro rfl; exact hd1 hk'
        rw [if_neg hne]
        exact hn k' (by simp [hk'])) hd2 (by omega) (fun k' w hw => by
        simp only [FMap.insert] at hw
        split at hw
        · cases hw; rfl
        · exact hv k' w hw)
      refine ⟨s', m', ?_, h', by rw [hl', hlen, List.length_cons]; omega, hv'⟩
      have ea : performAction D fuel s keys (.insert k v) 0 = .ok (s1, keys ++ [k]) := by
        simp only [performAction, H.get h, hg, except_bind_ok, Option.isSome_none, Bool.false_eq_true, if_false, e,
          Option.isSome_some, if_true, H.get h1, FMap.insert, unwrap, assertEq_self]
        rfl
      simp only [List.map_cons, Fuzz.target, ea, except_bind_ok, hc h1]
      rw [e']; simp

end Good

/-! ### the four structures -/

/-- a structure with the functions of `Api` -/
def ofApi (A : Api S K V) : DynMap S K V A.Iter A.Ref where
  insert := A.insert
  remove := A.remove
  get := A.get
  getMut s k := do return (s, ← A.getMut s k)
  write := A.write
  iter s := .ok (A.iter s)
  next := A.next
  nextBack := A.nextBack
  nextMut := A.nextMut
  nextBackMut := A.nextBackMut

omit [DecidableEq V] in
theorem Good.ofLaws [LT K] {A : Api S K V} {M : Nat} {refuses : Ents K V → K → Prop}
    {Rep : S → Ents K V → Prop} {It : S → A.Iter → List A.Ref → Prop} (H : A.Laws M refuses Rep It)
    {ref : FMap K V → K → Prop}
    (hr : ∀ {E : Ents K V} {m : FMap K V} {k : K}, m.Lists (E.map Prod.snd) → (refuses E k ↔ ref m k)) :
    Good (ofApi A) M ref (fun s m => ∃ E, Rep s E ∧ m.Lists (E.map Prod.snd)) where
  get := fun ⟨_, h, hm⟩ k => H.get h hm k
  insert := by
    rintro s m ⟨E, h, hm⟩ k v
    rcases H.insert h k v with ⟨hf, e⟩ | ⟨hf, s', j, i, E', e, h', hi⟩
    · exact Or.inl ⟨(hr hm).1 hf, e⟩
    · exact Or.inr ⟨fun hc => hf ((hr hm).2 hc), s', j, e, E', h', hi.lists hm⟩
  remove := by
    rintro s m ⟨E, h, hm⟩ k
    rcases H.remove h k with ⟨ha, e⟩ | ⟨s', v, E', e, h', hd⟩
    · have hg := Ents.get_none hm ha
      exact ⟨s, by rw [hg]; exact e, E, h, by rw [FMap.erase_none hg]; exact hm⟩
    · obtain ⟨i, hi⟩ := hd.mem
      exact ⟨s', by rw [Ents.get_some hm hi]; exact e, E', h', hd.lists hm⟩
  getMut := by
    rintro s m ⟨E, h, hm⟩ k v hg
    rcases Ents.cases E k with ha | ⟨L1, i, v', L2, rfl⟩
    · rw [Ents.get_none hm ha] at hg; cases hg
    · refine ⟨s, i, ?_, fun w => ?_⟩
      · show (do return (s, ← A.getMut s k)) = _
        rw [H.getMut_some h (i := i) (k := k) (v := v') (by simp)]; rfl
      · obtain ⟨s', e, h', _⟩ := H.write h w
        refine ⟨s', e, _, h', ?_⟩
        simp only [List.map_append, List.map_cons] at hm ⊢
        exact hm.insert_old _
  iter := by
    rintro s m ⟨E, h, hm⟩
    have hle : (E.map Prod.snd).length ≤ M := by rw [List.length_map]; exact H.le h
    obtain ⟨l, hi, hl⟩ := H.it h
    have hle' : l.length ≤ M := by
      have := congrArg List.length hl
      simp only [List.length_map] at this hle; omega
    refine ⟨_, rfl, ⟨E.map Prod.snd, ?_, hle, fun e he => (hm.mem _ _).1 he⟩,
      ⟨(E.map Prod.snd).reverse, ?_, by simpa using hle, fun e he => (hm.mem _ _).1 (List.mem_reverse.1 he)⟩,
      ⟨l, ?_, hle'⟩, ⟨l.reverse, ?_, by simpa using hle'⟩⟩
    · obtain ⟨it', e⟩ := H.toWalks.drive h (List.replicate ((E.map Prod.snd).length + 1) .front)
      exact Yields.of_drive e
    · obtain ⟨it', e⟩ := H.toWalks.drive h (List.replicate ((E.map Prod.snd).reverse.length + 1) .back)
      exact Yields.of_drive_back (by rw [List.reverse_reverse]; exact e)
    · clear hl hle'
      show Yields (A.nextMut s) (A.iter s) l
      generalize A.iter s = it at hi
      induction l generalizing it with
      | nil => obtain ⟨it', e, _⟩ := H.nextMut h hi; exact ⟨it', e⟩
      | cons x l ih => obtain ⟨it', e, hi'⟩ := H.nextMut h hi; exact ⟨it', e, ih _ hi'⟩
    · clear hl hle'
      show Yields (A.nextBackMut s) (A.iter s) l.reverse
      generalize A.iter s = it at hi
      generalize hL : l.reverse = L
      obtain rfl : l = L.reverse := by rw [← hL, List.reverse_reverse]
      clear hL
      induction L generalizing it with
      | nil => obtain ⟨it', e, _⟩ := H.nextBackMut h hi; exact ⟨it', e⟩
      | cons x l ih =>
        obtain ⟨it', e, hi'⟩ := H.nextBackMut h hi
        simp only [List.reverse_cons, List.getLast?_concat, List.dropLast_concat] at e hi'
        exact ⟨it', e, ih _ hi'⟩

omit [DecidableEq V] in
theorem full_iff {M : Nat} {E : Ents K V} {m : FMap K V} {k : K} (hm : m.Lists (E.map Prod.snd)) :
    (E.Absent k ∧ E.length = M) ↔ (m.get k = none ∧ m.len = M) := by
  rw [Ents.absent_iff hm, hm.len, List.length_map]

theorem good_redBlack {K V : Type} [LinearOrder K] [DecidableEq V] {M : Nat} (hM : M + 1 < 2 ^ 32) (hM0 : 0 < M) :
    Good (redBlack : DynMap (RedBlackTree K V M) K V _ _) M (fun m k => m.get k = none ∧ m.len = M)
      (fun s m => ∃ E, RedBlackTree.Inv s E ∧ m.Lists (E.map Prod.snd)) :=
  Good.ofLaws (RedBlackTree.laws hM hM0) full_iff

theorem good_avl {K V : Type} [LinearOrder K] [DecidableEq V] {M : Nat} (hM : M + 1 < 2 ^ 32) (hM0 : 0 < M) :
    Good (avl : DynMap (AVLTree K V M) K V _ _) M (fun m k => m.get k = none ∧ m.len = M)
      (fun s m => ∃ E, AVLTree.Inv s E ∧ m.Lists (E.map Prod.snd)) :=
  Good.ofLaws (AVLTree.laws hM hM0) full_iff

theorem good_critbit {V : Type} [DecidableEq V] {N M : Nat} (hN : N + 1 < 2 ^ 32) (hNM : 2 * M ≤ N) (hM0 : 0 < M) :
    Good (critbit : DynMap (Critbit V N M) (BitVec 128) V _ _) M (fun m _ => m.len = M)
      (fun s m => ∃ E, Critbit.Inv s E ∧ m.Lists (E.map Prod.snd)) :=
  Good.ofLaws (Critbit.laws hN hNM hM0) (fun hm => by rw [hm.len, List.length_map])

section
open HashTable
variable {K V : Type} [DecidableEq K] [DecidableEq V] {B M : Nat} {hash : K → Nat}

omit [DecidableEq K] [DecidableEq V] in
theorem hash_yields {h : HashTable K V B M} {c : Nat → List (Ent K V)} (H : HHeld True hash h c) :
    ∀ (m : List (Ent K V)) {it : Iter} {pre : List (Ent K V)}, IterInv B c it pre m →
      Yields (Iter.nextMut h) it (m.map Prod.fst)
  | m, it, pre, hI => by
    rcases next_spec H hI with ⟨rfl, it', _, e, _⟩ | ⟨x, l, it', b, done, r, rfl, _, e, hb, hbk, hn, hc, hp, hl⟩
    · exact ⟨it', e⟩
    · refine ⟨it', e, hash_yields H l (pre := pre ++ [x]) (Or.inl ?_)⟩
      subst hbk
      exact ⟨hb, done ++ [x], r, by rw [hc]; simp, hn, by rw [hp]; simp, hl⟩

omit [DecidableEq V] in
theorem good_hashTable (hM : M + 1 < 2 ^ 32) :
    Good (hashTable hash : DynMap (HashTable K V B M) K V _ _) M (fun m k => m.get k = none ∧ m.len = M)
      (fun s m => ∃ c, HRep (kn := .nothing) hash s c ∧ m.Lists (kvs (all B c))) where
  get := by
    rintro s m ⟨c, H, hm⟩ k
    rcases lookup_spec H hm k with ⟨hg, _, e, _⟩ | ⟨i, v, hg, _, _, _, _, _, e, _⟩ <;> rw [hg] <;> exact e
  insert := by
    rintro s m ⟨c, H, hm⟩ k v
    rcases insert_spec H hM hm k v with ⟨hg, hl, e⟩ | ⟨h', i, c', hg, e, H', hm', _, _⟩
    · exact Or.inl ⟨⟨hg, hl⟩, e⟩
    · exact Or.inr ⟨hg, h', i, e, c', H', hm'⟩
  remove := by
    rintro s m ⟨c, H, hm⟩ k
    obtain ⟨h', c', o, e, H', hm', _⟩ := remove_spec H hm k
    exact ⟨h', e, c', by cases o <;> exact H'.forget, hm'⟩
  getMut := by
    rintro s m ⟨c, H, hm⟩ k v hg
    rcases getMut_spec H hm k with ⟨hg', _⟩ | ⟨h', c', i, v', _, e, H', hm', _, hmem⟩
    · rw [hg'] at hg; cases hg
    · refine ⟨h', i, e, fun w => ?_⟩
      obtain ⟨h'', c'', e', H'', hm'', _⟩ := setNodeValue_spec' H' hm' hmem w
      exact ⟨h'', e', c'', H'', hm''⟩
  iter := by
    rintro s m ⟨c, H, hm⟩
    obtain ⟨it, e, hI⟩ := iter_ok H.toHHeld
    have hle : (all B c).length ≤ M := H.toHHeld.le
    refine ⟨it, e, ⟨kvs (all B c), ?_, by simpa [kvs] using hle, fun e he => (hm.mem _ _).1 he⟩,
      ⟨[], ⟨it, rfl⟩, Nat.zero_le _, by simp⟩, ⟨_, hash_yields H.toHHeld _ hI, by simpa using hle⟩,
      ⟨[], ⟨it, rfl⟩, Nat.zero_le _⟩⟩
    obtain ⟨it0, it', e0, e'⟩ := drive_iter H.toHHeld (List.replicate ((kvs (all B c)).length + 1) .front)
    rw [e] at e0; cases e0
    rw [consumeFwd_front] at e'
    exact Yields.of_drive e'

end

end Sokoban.Fuzz
