import Verif.Spec.Local
import Verif.Proof.Interchange
import Verif.Proof.CapriceTruth

/-
Every key is a variable of its own; only the present map counts; calls on different keys commute.
-/
namespace Sokoban.MapSpec
variable {K V : Type} [DecidableEq K]

/-! ### one key -/

theorem Step.on {R : Rules K V} {m m' : FMap K V} {op : Op K V} {o : Out K V} {k : K} (h : Step R m op o m') (hk : op.On k)
    (hr : o.refusal = false) : cell (m.get k) op = (o, m'.get k) := by
  cases op with
  | insert k' v =>
    obtain rfl : k' = k := hk
    rcases h with ⟨_, rfl, _⟩ | ⟨_, rfl, rfl⟩
    · simp [Out.refusal] at hr
    · simp [cell, FMap.insert]
  | remove k' =>
    obtain rfl : k' = k := hk
    obtain ⟨rfl, rfl⟩ := h
    simp [cell, FMap.erase]
  | getMut k' f =>
    obtain rfl : k' = k := hk
    obtain ⟨rfl, rfl⟩ := h
    simp [cell, FMap.modify]
  | iterMut es => exact absurd hk id

theorem Step.off {R : Rules K V} {m m' : FMap K V} {op : Op K V} {o : Out K V} {k : K} (h : Step R m op o m')
    (hk : ¬ op.On k ∨ o.refusal = true) (hi : ∀ es, op ≠ .iterMut es) : m'.get k = m.get k := by
  cases op with
  | insert k' v =>
    rcases h with ⟨_, rfl, rfl⟩ | ⟨_, rfl, rfl⟩
    · rfl
    · have : k ≠ k' := by
        rintro rfl
        rcases hk with h | h
        · exact h rfl
        · simp [Out.refusal] at h
      simp [FMap.insert, this]
  | remove k' =>
    obtain ⟨rfl, rfl⟩ := h
    have : k ≠ k' := by
      rintro rfl
      rcases hk with h | h
      · exact h rfl
      · simp [Out.refusal] at h
    simp [FMap.erase, this]
  | getMut k' f =>
    obtain ⟨rfl, rfl⟩ := h
    have : k ≠ k' := by
      rintro rfl
      rcases hk with h | h
      · exact h rfl
      · simp [Out.refusal] at h
    simp [FMap.modify, this]
  | iterMut es => exact absurd rfl (hi es)

theorem Steps.cellRun {R : Rules K V} (k : K) : ∀ (ops : List (Op K V)) {outs : List (Out K V)} {m m' : FMap K V},
    NoIterMut ops → Steps R m ops outs m' →
    MapSpec.cellRun (m.get k) ((accepted k ops outs).map Prod.fst) = ((accepted k ops outs).map Prod.snd, m'.get k)
  | [], outs, m, m', _, h => by
    cases outs with
    | nil =>
      obtain rfl : m' = m := h
      rfl
    | cons _ _ => exact absurd h id
  | op :: ops, outs, m, m', hi, h => by
    cases outs with
    | nil => exact absurd h id
    | cons o os =>
      obtain ⟨m1, hs, ht⟩ := h
      have ih := Steps.cellRun k ops (fun es hc => hi es (List.mem_cons_of_mem _ hc)) ht
      by_cases hk : op.On k
      · cases hr : o.refusal with
        | false =>
          have hc := hs.on hk hr
          have : accepted k (op :: ops) (o :: os) = (op, o) :: accepted k ops os := by
            simp [accepted, hk, hr]
          rw [this]
          simp only [List.map_cons, MapSpec.cellRun]
          rw [hc]
          simp only [ih]
        | true =>
          have : accepted k (op :: ops) (o :: os) = accepted k ops os := by
            simp [accepted, hr]
          rw [this, ← ih, hs.off (.inr hr) (fun es he => hi es (by rw [he]; simp))]
      · have : accepted k (op :: ops) (o :: os) = accepted k ops os := by
          simp [accepted, hk]
        rw [this, ← ih, hs.off (.inl hk) (fun es he => hi es (by rw [he]; simp))]

/-- nothing refused: all calls on `k` are listed -/
theorem accepted_fst (k : K) : ∀ {ops : List (Op K V)} {outs : List (Out K V)}, outs.length = ops.length →
    (∀ o ∈ outs, o.refusal = false) → (accepted k ops outs).map Prod.fst = ops.filter fun op => decide (op.On k)
  | [], [], _, _ => rfl
  | [], _ :: _, h, _ => by simp at h
  | _ :: _, [], h, _ => by simp at h
  | op :: ops, o :: outs, h, hr => by
    have ih := accepted_fst k (ops := ops) (outs := outs) (by simpa using h) (fun o ho => hr o (List.mem_cons_of_mem _ ho))
    have h0 := hr o (by simp)
    by_cases hk : op.On k
    · have : accepted k (op :: ops) (o :: outs) = (op, o) :: accepted k ops outs := by simp [accepted, hk, h0]
      rw [this, List.map_cons, ih, List.filter_cons_of_pos (by simpa using hk)]
    · have : accepted k (op :: ops) (o :: outs) = accepted k ops outs := by simp [accepted, hk]
      rw [this, ih, List.filter_cons_of_neg (by simpa using hk)]

/-! ### two keys -/

omit [DecidableEq K] in
/-- the keys and the size go together -/
theorem len_pos {m : FMap K V} {L : List (K × V)} (hL : m.Lists L) {k : K} {v : V} (h : m.get k = some v) : 0 < m.len := by
  rw [hL.len]
  exact List.length_pos_of_mem ((hL.mem k v).2 h)

/-- a call does not change the other keys -/
theorem Step.get_other {R : Rules K V} {m m' : FMap K V} {op : Op K V} {o : Out K V} {k k' : K} (h : Step R m op o m')
    (hk : op.On k) (hn : k' ≠ k) : m'.get k' = m.get k' := by
  refine h.off (.inl ?_) ?_
  · intro h'
    cases op <;> simp only [Op.On] at hk h'
    all_goals exact hn (h'.symm.trans hk)
  · rintro es rfl; exact hk

section
variable {m : FMap K V} {k k' : K} (hn : k ≠ k')
include hn

theorem insert_insert (v v' : V) : (m.insert k v).insert k' v' = (m.insert k' v').insert k v := by
  unfold FMap.insert
  simp only [if_neg hn, if_neg hn.symm, FMap.mk.injEq]
  refine ⟨funext fun x => ?_, ?_⟩
  · by_cases h : x = k
    · subst h; simp [hn]
    · simp [h]
  · split <;> split <;> rfl

theorem insert_erase {L : List (K × V)} (hL : m.Lists L) (v : V) :
    (m.insert k v).erase k' = (m.erase k').insert k v := by
  unfold FMap.insert FMap.erase
  simp only [if_neg hn, if_neg hn.symm, FMap.mk.injEq]
  refine ⟨funext fun x => ?_, ?_⟩
  · by_cases h : x = k
    · subst h; simp [hn]
    · simp [h]
  · cases h : m.get k' with
    | none => simp
    | some w =>
      have := len_pos hL h
      simp only [Option.isSome_some, if_true]
      split
      · rfl
      · omega

theorem insert_modify (v : V) (f : V → V) : (m.insert k v).modify k' f = (m.modify k' f).insert k v := by
  unfold FMap.insert FMap.modify
  simp only [if_neg hn, if_neg hn.symm, FMap.mk.injEq, and_true]
  refine funext fun x => ?_
  by_cases h : x = k
  · subst h; simp [hn]
  · simp [h]

theorem erase_erase : (m.erase k).erase k' = (m.erase k').erase k := by
  unfold FMap.erase
  simp only [if_neg hn, if_neg hn.symm, FMap.mk.injEq]
  refine ⟨funext fun x => ?_, ?_⟩
  · by_cases h : x = k
    · subst h; simp
    · simp [h]
  · split <;> split <;> rfl

theorem erase_modify (f : V → V) : (m.erase k).modify k' f = (m.modify k' f).erase k := by
  unfold FMap.erase FMap.modify
  simp only [if_neg hn, if_neg hn.symm, FMap.mk.injEq, and_true]
  refine funext fun x => ?_
  by_cases h : x = k
  · subst h; simp [hn]
  · simp [h]

theorem modify_modify (f f' : V → V) : (m.modify k f).modify k' f' = (m.modify k' f').modify k f := by
  unfold FMap.modify
  simp only [if_neg hn, if_neg hn.symm, FMap.mk.injEq, and_true]
  refine funext fun x => ?_
  by_cases h : x = k
  · subst h; simp [hn]
  · simp [h]

end

/-- the same decision about `op` in two maps -/
def SameRoom (R : Rules K V) (m n : FMap K V) (op : Op K V) : Prop :=
  ∀ k v, op = .insert k v → (R.refuses m k ↔ R.refuses n k)

theorem Step.swap {R : Rules K V} {m m1 m2 n1 n2 : FMap K V} {op op' : Op K V} {o1 o1' o2 o2' : Out K V} {k k' : K}
    {L : List (K × V)} (hL : m.Lists L) (hk : op.On k) (hk' : op'.On k') (hn : k ≠ k')
    (h1 : Step R m op o1 m1) (h1' : Step R m1 op' o1' m2) (h2 : Step R m op' o2' n1) (h2' : Step R n1 op o2 n2) :
    ((o1 = o2 ∧ o1' = o2') ↔ (SameRoom R m n1 op ∧ SameRoom R m m1 op')) ∧ (o1 = o2 ∧ o1' = o2' → m2 = n2) := by
  have g1 := h1.get_other hk hn.symm
  have g2 := h2.get_other hk' hn
  have hroom : ∀ {m n a b : FMap K V} {op : Op K V} {o o' : Out K V} {k : K}, op.On k → m.get k = n.get k →
      Step R m op o a → Step R n op o' b → (o = o' ↔ SameRoom R m n op) := by
    intro m n a b op o o' k hk hg h h'
    cases op with
    | insert k2 v =>
      have : SameRoom R m n (.insert k2 v) ↔ (R.refuses m k2 ↔ R.refuses n k2) :=
        ⟨fun h => h k2 v rfl, fun h _ _ he => by cases he; exact h⟩
      rw [this]
      rcases h with ⟨h1, rfl, _⟩ | ⟨h1, rfl, _⟩ <;> rcases h' with ⟨h2, rfl, _⟩ | ⟨h2, rfl, _⟩ <;> simp [h1, h2]
    | remove k2 =>
      obtain rfl : k2 = k := hk
      obtain ⟨rfl, _⟩ := h
      obtain ⟨rfl, _⟩ := h'
      exact ⟨fun _ _ _ he => (by cases he), fun _ => (by rw [hg])⟩
    | getMut k2 f =>
      obtain rfl : k2 = k := hk
      obtain ⟨rfl, _⟩ := h
      obtain ⟨rfl, _⟩ := h'
      exact ⟨fun _ _ _ he => (by cases he), fun _ => (by rw [hg])⟩
    | iterMut es => exact absurd hk id
  refine ⟨?_, ?_⟩
  · rw [hroom hk g2.symm h1 h2', eq_comm (a := o1'), hroom hk' g1.symm h2 h1']
  · rintro ⟨rfl, rfl⟩
    cases op with
    | insert a v =>
      obtain rfl : a = k := hk
      rcases h1 with ⟨_, rfl, rfl⟩ | ⟨_, rfl, rfl⟩ <;> rcases h2' with ⟨_, e, rfl⟩ | ⟨_, e, rfl⟩ <;> try (cases e)
      · cases op' with
        | insert b w =>
          rcases h1' with ⟨_, rfl, rfl⟩ | ⟨_, rfl, rfl⟩ <;> rcases h2 with ⟨_, e, rfl⟩ | ⟨_, e, rfl⟩ <;>
            first | rfl | (cases e; done)
        | remove b => rw [h1'.2, h2.2]
        | getMut b g => rw [h1'.2, h2.2]
        | iterMut es => exact absurd hk' id
      · cases op' with
        | insert b w =>
          obtain rfl : b = k' := hk'
          rcases h1' with ⟨_, rfl, rfl⟩ | ⟨_, rfl, rfl⟩ <;> rcases h2 with ⟨_, e, rfl⟩ | ⟨_, e, rfl⟩ <;>
            first | rfl | (cases e; done) | exact insert_insert hn _ _
        | remove b =>
          obtain rfl : b = k' := hk'
          rw [h1'.2, h2.2, insert_erase hn hL]
        | getMut b g =>
          obtain rfl : b = k' := hk'
          rw [h1'.2, h2.2, insert_modify hn]
        | iterMut es => exact absurd hk' id
    | remove a =>
      obtain rfl : a = k := hk
      obtain rfl := h1.2
      obtain rfl := h2'.2
      cases op' with
      | insert b w =>
        obtain rfl : b = k' := hk'
        rcases h1' with ⟨_, rfl, rfl⟩ | ⟨_, rfl, rfl⟩ <;> rcases h2 with ⟨_, e, rfl⟩ | ⟨_, e, rfl⟩ <;>
            first | rfl | (cases e; done) | exact (insert_erase hn.symm hL _).symm
      | remove b =>
        obtain rfl : b = k' := hk'
        rw [h1'.2, h2.2, erase_erase hn]
      | getMut b g =>
        obtain rfl : b = k' := hk'
        rw [h1'.2, h2.2, erase_modify hn]
      | iterMut es => exact absurd hk' id
    | getMut a f =>
      obtain rfl : a = k := hk
      obtain rfl := h1.2
      obtain rfl := h2'.2
      cases op' with
      | insert b w =>
        obtain rfl : b = k' := hk'
        rcases h1' with ⟨_, rfl, rfl⟩ | ⟨_, rfl, rfl⟩ <;> rcases h2 with ⟨_, e, rfl⟩ | ⟨_, e, rfl⟩ <;>
            first | rfl | (cases e; done) | exact (insert_modify hn.symm _ _).symm
      | remove b =>
        obtain rfl : b = k' := hk'
        rw [h1'.2, h2.2, erase_modify hn.symm]
      | getMut b g =>
        obtain rfl : b = k' := hk'
        rw [h1'.2, h2.2, modify_modify hn]
      | iterMut es => exact absurd hk' id
    | iterMut es => exact absurd hk id

/-! ### who competes with whom -/

section
variable {R : Rules K V} {m n : FMap K V} {op op' : Op K V} {o : Out K V} {k k' : K} {L : List (K × V)} {cap : Nat}
  {get : K → Sokoban.R (Option V)} (hL : m.Lists L) (hle : m.len ≤ cap) (hget : ∀ x, get x = .ok (m.get x))
  (hk : op.On k) (hk' : op'.On k') (hn : k ≠ k') (h : Step R m op' o n)
include hL hle hget hk hk' hn h

theorem sameRoom_new (hR : ∀ m k, R.refuses m k ↔ m.get k = none ∧ m.len = cap) :
    SameRoom R m n op ↔ ¬ ((m.len + 1 = cap ∧ Brings get op ∧ Brings get op') ∨ (m.len = cap ∧ Brings get op ∧ Drops get op')) := by
  have hg := h.get_other hk' hn
  cases op with
  | insert a v =>
    obtain rfl : a = k := hk
    have hS : SameRoom R m n (.insert a v) ↔ (R.refuses m a ↔ R.refuses n a) :=
      ⟨fun h => h a v rfl, fun h _ _ he => by cases he; exact h⟩
    have hB : Brings get (.insert a v) ↔ m.get a = none :=
      ⟨fun ⟨_, _, e, h⟩ => by cases e; rw [hget] at h; injection h, fun h => ⟨a, v, rfl, by rw [hget, h]⟩⟩
    rw [hS, hB, hR, hR, hg]
    cases hma : m.get a with
    | some w => simp
    | none =>
      simp only [true_and]
      cases op' with
      | insert b w =>
        obtain rfl : b = k' := hk'
        have hB' : Brings get (.insert b w) ↔ m.get b = none :=
          ⟨fun ⟨_, _, e, h⟩ => by cases e; rw [hget] at h; injection h, fun h => ⟨b, w, rfl, by rw [hget, h]⟩⟩
        have hD' : ¬ Drops get (.insert b w) := fun ⟨_, _, e, _⟩ => by cases e
        rcases h with ⟨hr, _, rfl⟩ | ⟨hr, _, rfl⟩
        · rw [hR] at hr
          simp only [hD', and_false, or_false, true_iff]
          omega
        · rw [hR] at hr
          simp only [hD', hB', and_false, or_false, FMap.insert]
          cases hb : m.get b with
          | some x => simp
          | none =>
            have : m.len ≠ cap := fun hc => hr ⟨hb, hc⟩
            simp only [Option.isSome_none, Bool.false_eq_true, if_false, and_true]
            omega
      | remove b =>
        obtain rfl : b = k' := hk'
        obtain ⟨_, rfl⟩ := h
        have hB' : ¬ Brings get (.remove b) := fun ⟨_, _, e, _⟩ => by cases e
        have hD' : Drops get (.remove b) ↔ (m.get b).isSome :=
          ⟨fun ⟨_, _, e, h⟩ => by cases e; rw [hget] at h; injection h with h; rw [h]; rfl, fun h => by
            obtain ⟨x, hx⟩ := Option.isSome_iff_exists.1 h
            exact ⟨b, x, rfl, by rw [hget, hx]⟩⟩
        simp only [hB', hD', and_false, false_or, FMap.erase]
        cases hb : m.get b with
        | some x =>
          have := len_pos hL hb
          simp only [Option.isSome_some, if_true, and_true]
          omega
        | none => simp
      | getMut b f =>
        obtain ⟨_, rfl⟩ := h
        have hB' : ¬ Brings get (.getMut b f) := fun ⟨_, _, e, _⟩ => by cases e
        have hD' : ¬ Drops get (.getMut b f) := fun ⟨_, _, e, _⟩ => by cases e
        simp [hB', hD', FMap.modify]
      | iterMut es => exact absurd hk' id
  | remove a =>
    have hB : ¬ Brings get (.remove a) := fun ⟨_, _, e, _⟩ => by cases e
    simp only [hB, false_and, and_false, or_false, not_false_eq_true, iff_true]
    exact fun _ _ he => by cases he
  | getMut a f =>
    have hB : ¬ Brings get (.getMut a f) := fun ⟨_, _, e, _⟩ => by cases e
    simp only [hB, false_and, and_false, or_false, not_false_eq_true, iff_true]
    exact fun _ _ he => by cases he
  | iterMut es => exact absurd hk id

omit hn in
theorem sameRoom_any (hR : ∀ m k, R.refuses m k ↔ m.len = cap) :
    SameRoom R m n op ↔
      ¬ ((m.len + 1 = cap ∧ IsInsert op ∧ Brings get op') ∨ (m.len = cap ∧ IsInsert op ∧ Drops get op')) := by
  cases op with
  | insert a v =>
    have hS : SameRoom R m n (.insert a v) ↔ (R.refuses m a ↔ R.refuses n a) :=
      ⟨fun h => h a v rfl, fun h _ _ he => by cases he; exact h⟩
    have hB : IsInsert (.insert a v) := ⟨a, v, rfl⟩
    rw [hS, hR, hR]
    simp only [hB, true_and]
    cases op' with
    | insert b w =>
      have hB' : Brings get (.insert b w) ↔ m.get b = none :=
        ⟨fun ⟨_, _, e, h⟩ => by cases e; rw [hget] at h; injection h, fun h => ⟨b, w, rfl, by rw [hget, h]⟩⟩
      have hD' : ¬ Drops get (.insert b w) := fun ⟨_, _, e, _⟩ => by cases e
      rcases h with ⟨hr, _, rfl⟩ | ⟨hr, _, rfl⟩
      · rw [hR] at hr
        simp only [hD', and_false, or_false, true_iff]
        omega
      · rw [hR] at hr
        simp only [hD', hB', and_false, or_false, FMap.insert]
        cases hb : m.get b with
        | some x => simp
        | none =>
          simp only [Option.isSome_none, Bool.false_eq_true, if_false, and_true]
          omega
    | remove b =>
      obtain ⟨_, rfl⟩ := h
      have hB' : ¬ Brings get (.remove b) := fun ⟨_, _, e, _⟩ => by cases e
      have hD' : Drops get (.remove b) ↔ (m.get b).isSome :=
        ⟨fun ⟨_, _, e, h⟩ => by cases e; rw [hget] at h; injection h with h; rw [h]; rfl, fun h => by
          obtain ⟨x, hx⟩ := Option.isSome_iff_exists.1 h
          exact ⟨b, x, rfl, by rw [hget, hx]⟩⟩
      simp only [hB', hD', and_false, false_or, FMap.erase]
      cases hb : m.get b with
      | some x =>
        have := len_pos hL hb
        simp only [Option.isSome_some, if_true, and_true]
        omega
      | none => simp
    | getMut b f =>
      obtain ⟨_, rfl⟩ := h
      have hB' : ¬ Brings get (.getMut b f) := fun ⟨_, _, e, _⟩ => by cases e
      have hD' : ¬ Drops get (.getMut b f) := fun ⟨_, _, e, _⟩ => by cases e
      simp [hB', hD', FMap.modify]
    | iterMut es => exact absurd hk' id
  | remove a =>
    have hB : ¬ IsInsert (.remove a : Op K V) := fun ⟨_, _, e⟩ => by cases e
    simp only [hB, false_and, and_false, or_false, not_false_eq_true, iff_true]
    exact fun _ _ he => by cases he
  | getMut a f =>
    have hB : ¬ IsInsert (.getMut a f : Op K V) := fun ⟨_, _, e⟩ => by cases e
    simp only [hB, false_and, and_false, or_false, not_false_eq_true, iff_true]
    exact fun _ _ he => by cases he
  | iterMut es => exact absurd hk id

end

/-! ### from the finite maps to the structures -/

/-- What is needed of a structure: its states stand for finite maps, calls follow the rules, `get` and `len` show the map. -/
structure Model {S : Type} (R : Rules K V) (cap : Nat) (call : S → Op K V → Sokoban.R (S × Out K V))
    (get : S → K → Sokoban.R (Option V)) (len : S → Nat) (Rep : S → FMap K V → Prop) : Prop where
  call : ∀ s m op, Rep s m → ∃ s' o m', call s op = .ok (s', o) ∧ Rep s' m' ∧ Step R m op o m'
  lists : ∀ s m, Rep s m → ∃ L, m.Lists L
  get : ∀ s m k, Rep s m → get s k = .ok (m.get k)
  len : ∀ s m, Rep s m → len s = m.len
  le : ∀ s m, Rep s m → m.len ≤ cap

namespace Model
variable {S : Type} {R : Rules K V} {cap : Nat} {call : S → Op K V → Sokoban.R (S × Out K V)}
  {get : S → K → Sokoban.R (Option V)} {len : S → Nat} {Rep : S → FMap K V → Prop} (H : Model R cap call get len Rep)
include H

theorem run : ∀ (ops : List (Op K V)) {s : S} {m : FMap K V}, Rep s m →
    ∃ s' os m', Sokoban.run call s ops = .ok (s', os) ∧ Rep s' m' ∧ Steps R m ops os m'
  | [], s, m, h => ⟨s, [], m, rfl, h, rfl⟩
  | op :: ops, s, m, h => by
    obtain ⟨s1, o, m1, e1, h1, hs⟩ := H.call s m op h
    obtain ⟨s2, os, m2, e2, h2, ht⟩ := run ops h1
    exact ⟨s2, o :: os, m2, by simp only [Sokoban.run, e1, e2, except_bind_ok]; rfl, h2, m1, hs, ht⟩

theorem same {s s' : S} {m m' : FMap K V} (h : Rep s m) (h' : Rep s' m') (hg : ∀ k, get s k = get s' k) : m = m' := by
  obtain ⟨L, hL⟩ := H.lists s m h
  obtain ⟨L', hL'⟩ := H.lists s' m' h'
  have hmm : m.get = m'.get := by
    funext k
    have := hg k
    rw [H.get s m k h, H.get s' m' k h'] at this
    injection this
  have : m.Lists L' := by
    refine ⟨hL'.nodup, fun k v => by rw [hL'.mem, hmm], ?_⟩
    have hp : L.Perm L' := by
      have h1 : m'.Lists L' := hL'
      refine (List.perm_ext_iff_of_nodup ?_ ?_).2 ?_
      · exact List.Nodup.of_map _ hL.nodup
      · exact List.Nodup.of_map _ hL'.nodup
      · rintro ⟨k, v⟩
        rw [hL.mem, hL'.mem, hmm]
    rw [hL.len, hp.length_eq]
  exact this.unique hL'

theorem only_map {Q : Op K V → Prop} (hdet : ∀ {m m1 m2 : FMap K V} {op : Op K V} {o o' : Out K V}, Q op →
      Step R m op o m1 → Step R m op o' m2 → o = o' ∧ m1 = m2) {s s' : S} {m m' : FMap K V} (h : Rep s m) (h' : Rep s' m') (hg : ∀ k, get s k = get s' k) {ops : List (Op K V)}
    (hQ : ∀ op ∈ ops, Q op) :
    ∃ t t' os n, Sokoban.run call s ops = .ok (t, os) ∧ Sokoban.run call s' ops = .ok (t', os) ∧ Rep t n ∧ Rep t' n := by
  obtain rfl := H.same h h' hg
  obtain ⟨t, os, n, e, ht, hs⟩ := H.run ops h
  obtain ⟨t', os', n', e', ht', hs'⟩ := H.run ops h'
  obtain ⟨rfl, rfl⟩ := steps_agree (P := fun _ ops => ∀ op ∈ ops, Q op)
    (fun m op ops o m1 o' m2 hQ h h' => by
      obtain ⟨h1, h2⟩ := hdet (hQ op (by simp)) h h'
      exact ⟨h1, h2, fun op hop => hQ op (List.mem_cons_of_mem _ hop)⟩) ops hQ hs hs'
  exact ⟨t, t', os, n, e, e', ht, ht'⟩

theorem commute {s : S} {m : FMap K V} (h : Rep s m) {k k' : K} (hn : k ≠ k') {op op' : Op K V} (hk : op.On k) (hk' : op'.On k')
    {C : Prop} (hC : ∀ m1 n1 o o', Step R m op o m1 → Step R m op' o' n1 →
      ((SameRoom R m n1 op ∧ SameRoom R m m1 op') ↔ ¬ C)) :
    ∃ s1 s2 o1 o1' o2 o2', Sokoban.run call s [op, op'] = .ok (s1, [o1, o1']) ∧
      Sokoban.run call s [op', op] = .ok (s2, [o2', o2]) ∧
      ((o1 = o2 ∧ o1' = o2') ↔ ¬ C) ∧ (¬ C → ∀ x, get s1 x = get s2 x) := by
  obtain ⟨L, hL⟩ := H.lists s m h
  obtain ⟨a, o1, m1, e1, h1, hs1⟩ := H.call s m op h
  obtain ⟨s1, o1', m2, e1', h1', hs1'⟩ := H.call a m1 op' h1
  obtain ⟨b, o2', n1, e2, h2, hs2⟩ := H.call s m op' h
  obtain ⟨s2, o2, n2, e2', h2', hs2'⟩ := H.call b n1 op h2
  obtain ⟨q1, q2⟩ := Step.swap hL hk hk' hn hs1 hs1' hs2 hs2'
  rw [hC _ _ _ _ hs1 hs2] at q1
  refine ⟨s1, s2, o1, o1', o2, o2', by simp only [Sokoban.run, e1, e1', except_bind_ok]; rfl,
    by simp only [Sokoban.run, e2, e2', except_bind_ok]; rfl, q1, fun hc x => ?_⟩
  rw [H.get _ _ x h1', H.get _ _ x h2', q2 (q1.2 hc)]

theorem commute_new (hR : ∀ m k, R.refuses m k ↔ m.get k = none ∧ m.len = cap) {s : S} {m : FMap K V} (h : Rep s m) {k k' : K}
    (hn : k ≠ k') {op op' : Op K V} (hk : op.On k) (hk' : op'.On k') :
    ∃ s1 s2 o1 o1' o2 o2', Sokoban.run call s [op, op'] = .ok (s1, [o1, o1']) ∧
      Sokoban.run call s [op', op] = .ok (s2, [o2', o2]) ∧
      ((o1 = o2 ∧ o1' = o2') ↔ ¬ Compete (get s) (len s) cap op op') ∧
      (¬ Compete (get s) (len s) cap op op' → ∀ x, get s1 x = get s2 x) := by
  obtain ⟨L, hL⟩ := H.lists s m h
  refine H.commute h hn hk hk' fun m1 n1 o o' h1 h2 => ?_
  rw [sameRoom_new hL (H.le s m h) (fun x => H.get s m x h) hk hk' hn h2 hR,
    sameRoom_new hL (H.le s m h) (fun x => H.get s m x h) hk' hk hn.symm h1 hR, H.len s m h]
  unfold Compete
  tauto

theorem commute_any (hR : ∀ m k, R.refuses m k ↔ m.len = cap) {s : S} {m : FMap K V} (h : Rep s m) {k k' : K}
    (hn : k ≠ k') {op op' : Op K V} (hk : op.On k) (hk' : op'.On k') :
    ∃ s1 s2 o1 o1' o2 o2', Sokoban.run call s [op, op'] = .ok (s1, [o1, o1']) ∧
      Sokoban.run call s [op', op] = .ok (s2, [o2', o2]) ∧
      ((o1 = o2 ∧ o1' = o2') ↔ ¬ CompeteAny (get s) (len s) cap op op') ∧
      (¬ CompeteAny (get s) (len s) cap op op' → ∀ x, get s1 x = get s2 x) := by
  obtain ⟨L, hL⟩ := H.lists s m h
  refine H.commute h hn hk hk' fun m1 n1 o o' h1 h2 => ?_
  rw [sameRoom_any hL (H.le s m h) (fun x => H.get s m x h) hk hk' h2 hR,
    sameRoom_any hL (H.le s m h) (fun x => H.get s m x h) hk' hk h1 hR, H.len s m h]
  unfold CompeteAny
  tauto

theorem local_key {s s' : S} {m : FMap K V} (h : Rep s m) {ops : List (Op K V)} (hi : NoIterMut ops) {outs : List (Out K V)}
    (e : Sokoban.run call s ops = .ok (s', outs)) (k : K) :
    ∃ c', cellRun (m.get k) ((accepted k ops outs).map Prod.fst) = ((accepted k ops outs).map Prod.snd, c') ∧
      get s' k = .ok c' := by
  obtain ⟨t, os, n, e', ht, hs⟩ := H.run ops h
  rw [e] at e'; cases e'
  exact ⟨n.get k, Steps.cellRun k ops hi hs, H.get _ _ k ht⟩

theorem reorder {s t t' : S} {m : FMap K V} (h : Rep s m) {ops ops' : List (Op K V)} (hi : NoIterMut ops) (hi' : NoIterMut ops')
    {outs outs' : List (Out K V)} (e : Sokoban.run call s ops = .ok (t, outs)) (e' : Sokoban.run call s ops' = .ok (t', outs'))
    (hr : ∀ o ∈ outs, o.refusal = false) (hr' : ∀ o ∈ outs', o.refusal = false) (k : K)
    (hk : (ops.filter fun op => decide (op.On k)) = ops'.filter fun op => decide (op.On k)) :
    (accepted k ops outs) = (accepted k ops' outs') ∧ get t k = get t' k := by
  obtain ⟨c, h1, h2⟩ := H.local_key h hi e k
  obtain ⟨c', h1', h2'⟩ := H.local_key h hi' e' k
  have hf : (accepted k ops outs).map Prod.fst = (accepted k ops' outs').map Prod.fst := by
    rw [accepted_fst k (Caprice.run_length e) hr, accepted_fst k (Caprice.run_length e') hr', hk]
  rw [← hf, h1] at h1'
  injection h1' with h3 h4
  refine ⟨?_, by rw [h2, h2', h4]⟩
  have : ∀ (l l' : List (Op K V × Out K V)), l.map Prod.fst = l'.map Prod.fst → l.map Prod.snd = l'.map Prod.snd → l = l' := by
    intro l
    induction l with
    | nil => intro l' h _; cases l' with
      | nil => rfl
      | cons _ _ => simp at h
    | cons x l ih => intro l' h h'; cases l' with
      | nil => simp at h
      | cons y l' =>
        simp only [List.map_cons, List.cons.injEq] at h h'
        rw [ih l' h.2 h'.2, Prod.ext h.1 h'.1]
  exact this _ _ hf h3

end Model

theorem tree_det [LinearOrder K] {M : Nat} {m m1 m2 : FMap K V} {op : Op K V} {o o' : Out K V}
    (h : Step (treeRules K V M) m op o m1) (h' : Step (treeRules K V M) m op o' m2) : o = o' ∧ m1 = m2 :=
  step_agree (fun _ _ _ => Iff.rfl) (fun es _ L L' hL hL' ho ho' => by rw [sorted_unique hL hL' ho ho']) h h'

theorem critbit_det [LinearOrder K] {M : Nat} {m m1 m2 : FMap K V} {op : Op K V} {o o' : Out K V}
    (h : Step (critbitRules K V M) m op o m1) (h' : Step (critbitRules K V M) m op o' m2) : o = o' ∧ m1 = m2 :=
  step_agree (fun _ _ _ => Iff.rfl) (fun es _ L L' hL hL' ho ho' => by rw [sorted_unique hL hL' ho ho']) h h'

theorem hash_det {M : Nat} {m m1 m2 : FMap K V} {op : Op K V} {o o' : Out K V} (hi : ∀ es, op ≠ .iterMut es)
    (h : Step (hashRules K V M) m op o m1) (h' : Step (hashRules K V M) m op o' m2) : o = o' ∧ m1 = m2 :=
  step_agree (fun _ _ _ => Iff.rfl) (fun es he => absurd he (hi es)) h h'

end Sokoban.MapSpec

namespace Sokoban
open MapSpec
variable {K V : Type} {B N M : Nat}

/-- the states of a red-black tree -/
theorem RedBlackTree.model [LinearOrder K] (hM : M + 1 < 2 ^ 32) (hM0 : 0 < M) :
    Model (treeRules K V M) M RedBlackSpec.api.call RedBlackTree.get RedBlackTree.len
      (fun (s : RedBlackTree K V M) m => ∃ E, RedBlackTree.Inv s E ∧ m.Lists (E.map Prod.snd)) where
  call s m op := fun ⟨E, h, hm⟩ => by
    obtain ⟨s', o, E', m', e, h', hm', hst, _⟩ := (RedBlackTree.laws hM hM0).call_spec (Rl := treeRules K V M)
      (by
        intro E m k hm
        rw [Ents.absent_iff hm]
        simp only [treeRules, hm.len, List.length_map])
      (fun _ h => h) rfl s E m op h hm
    exact ⟨s', o, m', e, ⟨E', h', hm'⟩, hst⟩
  lists s m := fun ⟨E, _, hm⟩ => ⟨_, hm⟩
  get s m k := fun ⟨E, h, hm⟩ => ((RedBlackTree.laws hM hM0).observe h hm).1 k
  len s m := fun ⟨E, h, hm⟩ => ((RedBlackTree.laws hM hM0).observe h hm).2.2.2.1
  le s m := fun ⟨E, h, hm⟩ => ((RedBlackTree.laws hM hM0).observe h hm).2.2.2.2.1

/-- the states of an AVL tree -/
theorem AVLTree.model [LinearOrder K] (hM : M + 1 < 2 ^ 32) (hM0 : 0 < M) :
    Model (treeRules K V M) M AVLSpec.call AVLTree.get AVLTree.len
      (fun (s : AVLTree K V M) m => ∃ E, AVLTree.Inv s E ∧ m.Lists (E.map Prod.snd)) where
  call s m op := fun ⟨E, h, hm⟩ => by
    obtain ⟨s', o, E', m', e, h', hm', hst, _⟩ := AVLTree.call_spec hM hM0 s E m op h hm
    exact ⟨s', o, m', e, ⟨E', h', hm'⟩, hst⟩
  lists s m := fun ⟨E, _, hm⟩ => ⟨_, hm⟩
  get s m k := fun ⟨E, h, hm⟩ => ((AVLTree.laws hM hM0).observe h hm).1 k
  len s m := fun ⟨E, h, hm⟩ => ((AVLTree.laws hM hM0).observe h hm).2.2.2.1
  le s m := fun ⟨E, h, hm⟩ => ((AVLTree.laws hM hM0).observe h hm).2.2.2.2.1

/-- the states of a critbit tree -/
theorem Critbit.model (hN : N + 1 < 2 ^ 32) (hNM : 2 * M ≤ N) (hM0 : 0 < M) :
    Model (critbitRules (BitVec 128) V M) M CritbitSpec.call Critbit.get Critbit.len
      (fun (s : Critbit V N M) m => ∃ E, Critbit.Inv s E ∧ m.Lists (E.map Prod.snd)) where
  call s m op := fun ⟨E, h, hm⟩ => by
    obtain ⟨s', o, E', m', e, h', hm', hst, _⟩ := Critbit.call_spec hN hNM hM0 s E m op h hm
    exact ⟨s', o, m', e, ⟨E', h', hm'⟩, hst⟩
  lists s m := fun ⟨E, _, hm⟩ => ⟨_, hm⟩
  get s m k := fun ⟨E, h, hm⟩ => ((Critbit.laws hN hNM hM0).observe h hm).1 k
  len s m := fun ⟨E, h, hm⟩ => ((Critbit.laws hN hNM hM0).observe h hm).2.2.2.1
  le s m := fun ⟨E, h, hm⟩ => ((Critbit.laws hN hNM hM0).observe h hm).2.2.2.2.1

/-- the states of a hash table -/
theorem HashTable.model [DecidableEq K] (hM : M + 1 < 2 ^ 32) (hash : K → Nat) :
    Model (hashRules K V M) M (HashTableSpec.call hash) (fun h => h.get hash) HashTable.len
      (fun (s : HashTable K V B M) m => ∃ c, HashTable.HRep hash s c ∧ m.Lists (HashTable.kvs (HashTable.all B c))) where
  call s m op := fun ⟨c, h, hm⟩ => by
    obtain ⟨s', o, E', m', e, ⟨c', h', rfl⟩, hm', hst, _⟩ := HashTable.call_spec hM s _ m op ⟨c, h, rfl⟩ hm
    exact ⟨s', o, m', e, ⟨c', h', hm'⟩, hst⟩
  lists s m := fun ⟨E, _, hm⟩ => ⟨_, hm⟩
  get s m k := fun ⟨c, H, hm⟩ => by
    rcases HashTable.lookup_spec H hm k with ⟨hg, _, e1, e2⟩ | ⟨i, v, hg, _, _, _, _, _, e1, e2⟩ <;> rw [e1, hg]
  len s m := fun ⟨c, H, hm⟩ => by rw [H.len, hm.len]; simp only [HashTable.kvs, List.length_map]
  le s m := fun ⟨c, H, hm⟩ => by
    have := H.le
    rw [hm.len]
    simpa only [HashTable.kvs, List.length_map] using this

end Sokoban
