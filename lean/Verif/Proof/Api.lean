import Verif.Spec.Api
import Verif.Proof.Map
import Verif.Proof.HashTableIter

/-
Histories of calls on any structure which satisfies the laws `Api.Laws` below: it refines a finite
map. The laws are proved for each tree separately.
-/
namespace Sokoban
open MapSpec

/-- entries with their slot: (slot, key, value) -/
abbrev Ents (K V : Type) := List (Nat × K × V)

namespace Ents
variable {K V : Type}

/-- the key is not in the list -/
def Absent (E : Ents K V) (k : K) : Prop := ∀ e ∈ E, e.2.1 ≠ k

/-- ascending keys -/
def Sorted [LT K] (E : Ents K V) : Prop := E.Pairwise (fun a b => a.2.1 < b.2.1)

/-- `E'` is `E` with `k` bound to `v` in slot `i`, in place if `k` was there -/
def Ins (E : Ents K V) (k : K) (v : V) (i : Nat) (E' : Ents K V) : Prop :=
  (∃ L1 v0 L2, E = L1 ++ (i, k, v0) :: L2 ∧ E' = L1 ++ (i, k, v) :: L2) ∨
  (E.Absent k ∧ i ∉ E.map Prod.fst ∧ ∃ L1 L2, E = L1 ++ L2 ∧ E' = L1 ++ (i, k, v) :: L2)

/-- `E'` is `E` without the entry of `k` -/
def Del (E : Ents K V) (k : K) (v : V) (E' : Ents K V) : Prop :=
  ∃ L1 i L2, E = L1 ++ (i, k, v) :: L2 ∧ E' = L1 ++ L2

theorem cases [DecidableEq K] (E : Ents K V) (k : K) :
    E.Absent k ∨ ∃ L1 i v L2, E = L1 ++ (i, k, v) :: L2 := by
  by_cases h : ∃ e ∈ E, e.2.1 = k
  · right
    obtain ⟨⟨i, k', v⟩, he, rfl⟩ := h
    obtain ⟨L1, L2, rfl⟩ := List.append_of_mem he
    exact ⟨L1, i, v, L2, rfl⟩
  · left
    intro e he hk
    exact h ⟨e, he, hk⟩

variable {E E' : Ents K V} {m : FMap K V} {k : K} {v : V} {i : Nat}

theorem get_none (hm : m.Lists (E.map Prod.snd)) (h : E.Absent k) : m.get k = none := by
  cases hg : m.get k with
  | none => rfl
  | some v =>
    obtain ⟨e, he, hek⟩ := List.mem_map.1 ((hm.mem k v).2 hg)
    exact absurd (by rw [hek]) (h e he)

theorem get_some (hm : m.Lists (E.map Prod.snd)) (h : (i, k, v) ∈ E) : m.get k = some v :=
  (hm.mem k v).1 (List.mem_map_of_mem (f := Prod.snd) h)

theorem absent_iff [DecidableEq K] (hm : m.Lists (E.map Prod.snd)) : E.Absent k ↔ m.get k = none := by
  refine ⟨get_none hm, fun h => ?_⟩
  rcases cases E k with h' | ⟨L1, i, v, L2, rfl⟩
  · exact h'
  · rw [get_some hm (i := i) (v := v) (by simp)] at h; cases h

theorem slot_unique (hm : m.Lists (E.map Prod.snd)) {i' : Nat} {v' : V} (h : (i, k, v) ∈ E)
    (h' : (i', k, v') ∈ E) : i = i' ∧ v = v' := by
  have hn := hm.nodup
  rw [List.map_map] at hn
  obtain ⟨L1, L2, rfl⟩ := List.append_of_mem h
  simp only [List.map_append, List.map_cons, Function.comp_apply] at hn
  obtain ⟨_, hn2, hn3⟩ := List.nodup_append.1 hn
  simp only [List.mem_append, List.mem_cons, Prod.mk.injEq] at h'
  rcases h' with h' | ⟨rfl, _, rfl⟩ | h'
  · exact absurd rfl (hn3 k (List.mem_map_of_mem (f := Prod.fst ∘ Prod.snd) h') k (by simp))
  · exact ⟨rfl, rfl⟩
  · exact absurd (List.mem_map_of_mem (f := Prod.fst ∘ Prod.snd) h') (List.nodup_cons.1 hn2).1

theorem Ins.mem (h : Ins E k v i E') : (i, k, v) ∈ E' := by
  rcases h with ⟨L1, v0, L2, _, rfl⟩ | ⟨_, _, L1, L2, _, rfl⟩ <;> simp

theorem Ins.kept (h : Ins E k v i E') : Kept (.insert k v) E E' := by
  intro i' k' v' he _
  rcases h with ⟨L1, v0, L2, rfl, rfl⟩ | ⟨_, _, L1, L2, rfl, rfl⟩
  · simp only [List.mem_append, List.mem_cons, Prod.mk.injEq] at he ⊢
    rcases he with h | ⟨rfl, rfl, rfl⟩ | h
    · exact ⟨v', Or.inl h⟩
    · exact ⟨v, Or.inr (Or.inl ⟨rfl, rfl, rfl⟩)⟩
    · exact ⟨v', Or.inr (Or.inr h)⟩
  · simp only [List.mem_append, List.mem_cons] at he ⊢
    exact ⟨v', he.imp_right Or.inr⟩

theorem Ins.lists [DecidableEq K] (h : Ins E k v i E') (hm : m.Lists (E.map Prod.snd)) :
    (m.insert k v).Lists (E'.map Prod.snd) := by
  rcases h with ⟨L1, v0, L2, rfl, rfl⟩ | ⟨ha, _, L1, L2, rfl, rfl⟩
  · simp only [List.map_append, List.map_cons] at hm ⊢
    exact hm.insert_old v
  · refine (hm.insert_new v (get_none hm ha)).perm ?_
    simp only [List.map_append, List.map_cons]
    exact List.perm_middle.symm

theorem Del.mem (h : Del E k v E') : ∃ i, (i, k, v) ∈ E := by
  obtain ⟨L1, i, L2, rfl, _⟩ := h
  exact ⟨i, by simp⟩

theorem Del.kept' (h : Del E k v E') {i' : Nat} {k' : K} {v' : V} (he : (i', k', v') ∈ E)
    (hk : k' ≠ k) : (i', k', v') ∈ E' := by
  obtain ⟨L1, i, L2, rfl, rfl⟩ := h
  simp only [List.mem_append, List.mem_cons, Prod.mk.injEq] at he ⊢
  rcases he with h | ⟨_, rfl, _⟩ | h
  · exact Or.inl h
  · exact absurd rfl hk
  · exact Or.inr h

theorem Del.lists [DecidableEq K] (h : Del E k v E') (hm : m.Lists (E.map Prod.snd)) :
    (m.erase k).Lists (E'.map Prod.snd) := by
  obtain ⟨L1, i, L2, rfl, rfl⟩ := h
  simp only [List.map_append, List.map_cons] at hm ⊢
  exact hm.erase

end Ents

namespace Api
variable {S K V : Type}
open Ents

/-- the item of an iterator: what is read through the references -/
def item (A : Api S K V) (s : S) : A.Iter × Option A.Ref → R (A.Iter × Option (K × V))
  | (it, none) => .ok (it, none)
  | (it, some r) => do
    let e ← A.read s r
    return (it, some e)

/-- what iteration has to satisfy; `Rep s E`: the state `s` holds the entries `E` in this order,
`It s it l`: the iterator `it` still has to yield the references `l` -/
structure Walks (A : Api S K V) (M : Nat) (Rep : S → Ents K V → Prop) (It : S → A.Iter → List A.Ref → Prop) : Prop where
  slots : ∀ {s E}, Rep s E → (E.map Prod.fst).Nodup
  range : ∀ {s E}, Rep s E → ∀ {i}, i ∈ E.map Prod.fst → 1 ≤ i ∧ i ≤ M
  le : ∀ {s E}, Rep s E → E.length ≤ M
  len : ∀ {s E}, Rep s E → A.len s = E.length
  empty : ∀ s, A.isEmpty s = decide (A.len s = 0)
  contains : ∀ {s k r}, A.get s k = .ok r → A.contains s k = .ok r.isSome
  index : ∀ {s k r}, A.get s k = .ok r → A.index s k = unwrap r
  readVal : ∀ {s E}, Rep s E → ∀ {i k v}, (i, k, v) ∈ E → A.readVal s i = .ok v
  read : ∀ {s E it l}, Rep s E → It s it l → ∀ {r k v}, r ∈ l → (A.slot r, k, v) ∈ E → A.read s r = .ok (k, v)
  write : ∀ {s L1 i k v L2}, Rep s (L1 ++ (i, k, v) :: L2) → ∀ w, ∃ s', A.write s i w = .ok s' ∧
    Rep s' (L1 ++ (i, k, w) :: L2) ∧ ∀ it l, It s it l → It s' it l
  it : ∀ {s E}, Rep s E → ∃ l, It s (A.iter s) l ∧ l.map A.slot = E.map Prod.fst
  nextMut : ∀ {s E it l}, Rep s E → It s it l →
    ∃ it', A.nextMut s it = .ok (it', l.head?) ∧ It s it' l.tail
  nextBackMut : ∀ {s E it l}, Rep s E → It s it l →
    ∃ it', A.nextBackMut s it = .ok (it', l.getLast?) ∧ It s it' l.dropLast
  next : ∀ s it, A.next s it = (A.nextMut s it >>= item A s)
  nextBack : ∀ s it, A.nextBack s it = (A.nextBackMut s it >>= item A s)

/-- what a structure has to satisfy -/
structure Laws [LT K] (A : Api S K V) (M : Nat) (refuses : Ents K V → K → Prop)
    (Rep : S → Ents K V → Prop) (It : S → A.Iter → List A.Ref → Prop) : Prop extends Walks A M Rep It where
  sorted : ∀ {s E}, Rep s E → E.Sorted
  keys : ∀ {s E}, Rep s E → (E.map fun e => e.2.1).Nodup
  insert : ∀ {s E}, Rep s E → ∀ k v, (refuses E k ∧ A.insert s k v = .ok (s, none)) ∨
    (¬ refuses E k ∧ ∃ s' j i E', A.insert s k v = .ok (s', some j) ∧ Rep s' E' ∧ Ins E k v i E')
  remove : ∀ {s E}, Rep s E → ∀ k, (Absent E k ∧ A.remove s k = .ok (s, none)) ∨
    (∃ s' v E', A.remove s k = .ok (s', some v) ∧ Rep s' E' ∧ Del E k v E')
  get_none : ∀ {s E}, Rep s E → ∀ {k}, Absent E k → A.get s k = .ok none
  get_some : ∀ {s E}, Rep s E → ∀ {i k v}, (i, k, v) ∈ E → A.get s k = .ok (some v)
  getMut_none : ∀ {s E}, Rep s E → ∀ {k}, Absent E k → A.getMut s k = .ok none
  getMut_some : ∀ {s E}, Rep s E → ∀ {i k v}, (i, k, v) ∈ E → A.getMut s k = .ok (some i)

/-- the same structure, `n` elements not counted -/
def less (A : Api S K V) (n : Nat) : Api S K V :=
  { A with len := fun s => A.len s - n, isEmpty := fun s => decide (A.len s - n = 0) }

theorem less_item (A : Api S K V) (n : Nat) (s : S) : (A.less n).item s = A.item s := by
  funext ⟨it, r⟩
  cases r <;> rfl

theorem Walks.plain {A : Api S K V} {M n : Nat} {Rep : S → Ents K V → Prop} {It : S → A.Iter → List A.Ref → Prop}
    (H : (A.less n).Walks M Rep It) (hn : n = 0) (he : ∀ s, A.isEmpty s = decide (A.len s = 0)) : A.Walks M Rep It where
  slots := H.slots
  range := H.range
  le := H.le
  len h := by have := H.len h; subst hn; exact this
  empty := he
  contains := H.contains
  index := H.index
  readVal := H.readVal
  read := H.read
  write := H.write
  it := H.it
  nextMut := H.nextMut
  nextBackMut := H.nextBackMut
  next s it := (H.next s it).trans (congrArg (A.nextMut s it >>= ·) (less_item A n s))
  nextBack s it := (H.nextBack s it).trans (congrArg (A.nextBackMut s it >>= ·) (less_item A n s))

theorem Laws.plain [LT K] {A : Api S K V} {M n : Nat} {refuses : Ents K V → K → Prop} {Rep : S → Ents K V → Prop}
    {It : S → A.Iter → List A.Ref → Prop} (H : (A.less n).Laws M refuses Rep It) (hn : n = 0)
    (he : ∀ s, A.isEmpty s = decide (A.len s = 0)) : A.Laws M refuses Rep It where
  toWalks := H.toWalks.plain hn he
  sorted := H.sorted
  keys := H.keys
  insert := H.insert
  remove := H.remove
  get_none := H.get_none
  get_some := H.get_some
  getMut_none := H.getMut_none
  getMut_some := H.getMut_some

/-- the panic of a full allocator turned into a refusal -/
def refuse (s : S) : R (S × Option Nat) → R (S × Option Nat)
  | .error .bufferFull => .ok (s, none)
  | r => r

theorem refuse_of {s : S} {r : R (S × Option Nat)} (h : r ≠ .error .bufferFull) : refuse s r = r := by
  unfold refuse
  split
  · exact absurd rfl h
  · rfl

/-- the same structure, the panic of a full allocator in `insert` turned into a refusal -/
def soft (A : Api S K V) : Api S K V := { A with insert := fun s k v => refuse s (A.insert s k v) }

theorem soft_item (A : Api S K V) (s : S) : A.soft.item s = A.item s := by
  funext ⟨it, r⟩
  cases r <;> rfl

theorem Walks.soft {A : Api S K V} {M : Nat} {Rep : S → Ents K V → Prop} {It : S → A.Iter → List A.Ref → Prop}
    (H : A.Walks M Rep It) : A.soft.Walks M Rep It where
  slots := H.slots
  range := H.range
  le := H.le
  len := H.len
  empty := H.empty
  contains := H.contains
  index := H.index
  readVal := H.readVal
  read := H.read
  write := H.write
  it := H.it
  nextMut := H.nextMut
  nextBackMut := H.nextBackMut
  next s it := (H.next s it).trans (congrArg (A.nextMut s it >>= ·) (soft_item A s).symm)
  nextBack s it := (H.nextBack s it).trans (congrArg (A.nextBackMut s it >>= ·) (soft_item A s).symm)

/-- when `insert` does not panic -/
theorem Laws.firm [LT K] {A : Api S K V} {M : Nat} {refuses : Ents K V → K → Prop} {Rep : S → Ents K V → Prop}
    {It : S → A.Iter → List A.Ref → Prop} (H : A.soft.Laws M refuses Rep It) (W : A.Walks M Rep It)
    (hi : ∀ {s E}, Rep s E → ∀ k v, A.insert s k v ≠ .error .bufferFull) : A.Laws M refuses Rep It where
  toWalks := W
  sorted := H.sorted
  keys := H.keys
  insert {s E} h k v := by
    have e : A.soft.insert s k v = A.insert s k v := refuse_of (hi h k v)
    rw [← e]; exact H.insert h k v
  remove := H.remove
  get_none := H.get_none
  get_some := H.get_some
  getMut_none := H.getMut_none
  getMut_some := H.getMut_some

/-- a call is the softened one unless the allocator is full -/
theorem soft_call (A : Api S K V) (s : S) (op : Op K V) :
    A.call s op = A.soft.call s op ∨ ∃ k v, op = .insert k v ∧ A.insert s k v = .error .bufferFull := by
  cases op with
  | insert k v =>
    by_cases h : A.insert s k v = .error .bufferFull
    · exact Or.inr ⟨k, v, rfl, h⟩
    · left
      have e : A.soft.insert s k v = A.insert s k v := refuse_of h
      show (do let (s, i) ← A.insert s k v; return (s, Out.inserted i.isSome)) =
        (do let (s, i) ← A.soft.insert s k v; return (s, Out.inserted i.isSome))
      rw [e]
  | remove k => exact Or.inl rfl
  | getMut k f => exact Or.inl rfl
  | iterMut es => exact Or.inl rfl

section walks
variable {A : Api S K V} {M : Nat} {Rep : S → Ents K V → Prop} {It : S → A.Iter → List A.Ref → Prop}
  (H : Walks A M Rep It)
include H
variable {s : S} {E : Ents K V}

/-- the references of a new iterator paired with the entries -/
theorem Walks.refs (h : Rep s E) : ∃ R : List (A.Ref × Nat × K × V), R.map Prod.snd = E ∧
    It s (A.iter s) (R.map Prod.fst) ∧ ∀ x ∈ R, A.slot x.1 = x.2.1 := by
  obtain ⟨l, hi, hl⟩ := H.it h
  have hlen : l.length = E.length := by simpa using congrArg List.length hl
  refine ⟨l.zip E, List.map_snd_zip (by omega), by rwa [List.map_fst_zip (by omega)], ?_⟩
  clear hi h
  induction l generalizing E with
  | nil => simp
  | cons r l ih =>
    cases E with
    | nil => simp at hlen
    | cons e E =>
      simp only [List.map_cons, List.cons.injEq] at hl
      simp only [List.zip_cons_cons, List.mem_cons, forall_eq_or_imp]
      exact ⟨hl.1, ih hl.2 (by simpa using hlen)⟩

/-- reading with an iterator -/
theorem Walks.drive (h : Rep s E) (es : List End) :
    ∃ it', drive (A.next s) (A.nextBack s) (A.iter s) es = .ok (it', consume (E.map Prod.snd) es) := by
  obtain ⟨R0, hR, hi0, hs0⟩ := H.refs h
  refine drive_spec (Inv := fun it l => ∃ m : List (A.Ref × Nat × K × V), It s it (m.map Prod.fst) ∧
      l = m.map (fun x => x.2.2) ∧ (∀ e ∈ m, e.2 ∈ E) ∧ ∀ x ∈ m, A.slot x.1 = x.2.1)
    ?_ ?_ es _ _ ⟨R0, hi0, by rw [← hR, List.map_map]; rfl, fun e he => hR ▸ List.mem_map_of_mem he, hs0⟩
  · rintro it l ⟨m, hi, rfl, hsub, hs⟩
    obtain ⟨it', e, hi'⟩ := H.nextMut h hi
    refine ⟨it', ?_, m.tail, by simpa using hi', by simp, fun e he => hsub e (List.mem_of_mem_tail he),
      fun e he => hs e (List.mem_of_mem_tail he)⟩
    rw [H.next, e]
    cases m with
    | nil => rfl
    | cons x m =>
      show (A.read s x.1 >>= _) = _
      rw [H.read h hi (r := x.1) (k := x.2.2.1) (v := x.2.2.2) (by simp)
        (by rw [hs x (by simp)]; exact hsub x (by simp))]
      rfl
  · rintro it l ⟨m, hi, rfl, hsub, hs⟩
    obtain ⟨it', e, hi'⟩ := H.nextBackMut h hi
    refine ⟨it', ?_, m.dropLast, by simpa using hi', by simp, fun e he => hsub e (List.dropLast_subset _ he),
      fun e he => hs e (List.dropLast_subset _ he)⟩
    rw [H.nextBack, e]
    rcases List.eq_nil_or_concat m with rfl | ⟨m, x, rfl⟩
    · rfl
    · simp only [List.concat_eq_append] at *
      simp only [List.map_append, List.map_cons, List.map_nil, List.getLast?_concat]
      show (A.read s x.1 >>= _) = _
      rw [H.read h hi (r := x.1) (k := x.2.2.1) (v := x.2.2.2) (by simp)
        (by rw [hs x (by simp)]; exact hsub x (by simp))]
      rfl

/-- only the value changes -/
def updV (f : K × V → K × V) (x : Nat × K × V) : Nat × K × V := (x.1, x.2.1, (f x.2).2)

/-- `updV` under the reference -/
def updR {P : Type} (f : K × V → K × V) (x : P × Nat × K × V) : P × Nat × K × V := (x.1, updV f x.2)

/-- writing with an iterator -/
theorem Walks.iterMut (h : Rep s E) (es : List (End × (K → V → V))) :
    ∃ s' it', A.iterMut s es = .ok (s', it',
        (consumeMut E (es.map fun e => (e.1, updV (MapSpec.upd e.2)))).1) ∧
      Rep s' (consumeMut E (es.map fun e => (e.1, updV (MapSpec.upd e.2)))).2 := by
  obtain ⟨R0, hR, hi0, hs0⟩ := H.refs h
  obtain ⟨s', it', pre', m', post', e', ⟨h', _⟩, hl⟩ := driveMut_spec
    (next := A.nextMut) (nextBack := A.nextBackMut) (read := A.read)
    (write := fun s r e => A.write s (A.slot r) e.2)
    (slot := (Prod.fst : A.Ref × Nat × K × V → A.Ref)) (val := fun x => x.2.2) (upd := updR)
    (Inv := fun s it pre m post => Rep s ((pre ++ m ++ post).map Prod.snd) ∧ It s it (m.map Prod.fst) ∧
      ∀ x ∈ m, A.slot x.1 = x.2.1) (by
      rintro s it pre m post ⟨h, hi, hs⟩
      obtain ⟨it', e, hi'⟩ := H.nextMut h hi
      refine ⟨it', by simpa using e, ?_⟩
      rintro ⟨r, i, k, v⟩ l rfl
      obtain rfl : A.slot r = i := hs (r, i, k, v) (by simp)
      refine ⟨H.read h hi (by simp) (by simp), fun f => ?_⟩
      obtain ⟨s', ew, h', hit⟩ := H.write (L1 := pre.map Prod.snd) (i := A.slot r) (k := k) (v := v)
        (L2 := (l ++ post).map Prod.snd) (by simpa using h) (f (k, v)).2
      exact ⟨s', ew, by simpa [updV, updR] using h', hit _ _ (by simpa using hi'),
        fun x hx => hs x (by simp [hx])⟩) (by
      rintro s it pre m post ⟨h, hi, hs⟩
      obtain ⟨it', e, hi'⟩ := H.nextBackMut h hi
      refine ⟨it', by simpa using e, ?_⟩
      rintro ⟨r, i, k, v⟩ l rfl
      obtain rfl : A.slot r = i := hs (r, i, k, v) (by simp)
      refine ⟨H.read h hi (by simp) (by simp), fun f => ?_⟩
      obtain ⟨s', ew, h', hit⟩ := H.write (L1 := (pre ++ l).map Prod.snd) (i := A.slot r) (k := k) (v := v)
        (L2 := post.map Prod.snd) (by simpa using h) (f (k, v)).2
      exact ⟨s', ew, by simpa [updV, updR] using h', hit _ _ (by simpa using hi'),
        fun x hx => hs x (by simp [hx])⟩)
    (by
      rintro s it it' pre post ⟨h, hi, hs⟩ e
      obtain ⟨it1, e1, hi'⟩ := H.nextMut h hi
      rw [e] at e1; cases e1
      exact ⟨h, by simpa using hi', hs⟩)
    (by
      rintro s it it' pre post ⟨h, hi, hs⟩ e
      obtain ⟨it1, e1, hi'⟩ := H.nextBackMut h hi
      rw [e] at e1; cases e1
      exact ⟨h, by simpa using hi', hs⟩)
    (script es) s (A.iter s) [] R0 [] ⟨by simpa [hR] using h, hi0, hs0⟩
  have hmap := consumeMut_map (Prod.snd : A.Ref × Nat × K × V → Nat × K × V)
    (fun f => updR (MapSpec.upd f)) (fun f => updV (MapSpec.upd f)) (fun _ _ => rfl) es R0
  rw [hR] at hmap
  have hsc : (script es).map (fun e => (e.1, updR (P := A.Ref) e.2)) =
      es.map (fun e => (e.1, updR (MapSpec.upd e.2))) := by
    simp [script, Function.comp_def]
  rw [hsc] at e' hl
  refine ⟨s', it', ?_, ?_⟩
  · unfold Api.iterMut
    rw [e', except_bind_ok]
    refine congrArg (fun x => Except.ok (s', it', x)) ?_
    rw [hmap.1, List.map_map]
    refine List.map_congr_left fun o ho => ?_
    cases o with
    | none => rfl
    | some x =>
      obtain ⟨rest, hsub⟩ := consumeMut_sub (es.map fun e => (e.1, updR (P := A.Ref) (MapSpec.upd e.2))) R0
      have : x ∈ R0 := hsub.mem_iff.1 (List.mem_append_left _ (by simpa using ho))
      simp [hs0 x this]
  · rw [hl] at h'
    rw [hmap.2]
    simpa using h'

end walks

variable [LT K] {A : Api S K V} {M : Nat} {refuses : Ents K V → K → Prop}
  {Rep : S → Ents K V → Prop} {It : S → A.Iter → List A.Ref → Prop} (H : Laws A M refuses Rep It)
include H
variable {s : S} {E : Ents K V} {m : FMap K V}

theorem Laws.lists [DecidableEq K] (h : Rep s E) : (FMap.ofList (E.map Prod.snd)).Lists (E.map Prod.snd) :=
  FMap.lists_ofList (by rw [List.map_map]; exact H.keys h)

theorem Laws.get [DecidableEq K] (h : Rep s E) (hm : m.Lists (E.map Prod.snd)) (k : K) :
    A.get s k = .ok (m.get k) := by
  rcases cases E k with ha | ⟨L1, i, v, L2, rfl⟩
  · rw [H.get_none h ha, Ents.get_none hm ha]
  · rw [H.get_some h (i := i) (v := v) (by simp), Ents.get_some hm (i := i) (v := v) (by simp)]

theorem Laws.len' (h : Rep s E) (hm : m.Lists (E.map Prod.snd)) : A.len s = m.len := by
  rw [H.len h, hm.len, List.length_map]

theorem Laws.getMutWrite [DecidableEq K] (h : Rep s E) (hm : m.Lists (E.map Prod.snd)) (k : K) (f : V → V) :
    ∃ s' E', A.getMutWrite s k f = .ok (s', m.get k) ∧ Rep s' E' ∧
      (m.modify k f).Lists (E'.map Prod.snd) ∧ E'.map (fun e => (e.1, e.2.1)) = E.map (fun e => (e.1, e.2.1)) := by
  rcases cases E k with ha | ⟨L1, i, v, L2, rfl⟩
  · have hg := Ents.get_none hm ha
    refine ⟨s, E, ?_, h, by rwa [FMap.modify_none f hg], rfl⟩
    unfold Api.getMutWrite
    rw [H.getMut_none h ha, hg]; rfl
  · have hg := Ents.get_some hm (i := i) (k := k) (v := v) (by simp)
    obtain ⟨s', e, h', _⟩ := H.write h (f v)
    refine ⟨s', _, ?_, h', ?_, by simp⟩
    · unfold Api.getMutWrite
      simp only [H.getMut_some h (i := i) (k := k) (v := v) (by simp), except_bind_ok,
        H.readVal h (i := i) (k := k) (v := v) (by simp), e, hg]
      rfl
    · rw [FMap.modify_some f hg]
      simp only [List.map_append, List.map_cons] at hm ⊢
      exact hm.insert_old _

/-- One call on the structure is one step of a bounded finite map. -/
theorem Laws.call_spec [DecidableEq K] {Rl : Rules K V}
    (hr : ∀ {E : Ents K V} {m : FMap K V} {k : K}, m.Lists (E.map Prod.snd) → (refuses E k ↔ Rl.refuses m k))
    (ho : ∀ L, L.Pairwise (fun a b => a.1 < b.1) → Rl.ordered L) (hv : Rl.visit = consumeMut)
    (s : S) (E : Ents K V) (m : FMap K V) (op : Op K V) (h : Rep s E) (hm : m.Lists (E.map Prod.snd)) :
    ∃ s' o E' m', A.call s op = .ok (s', o) ∧ Rep s' E' ∧ m'.Lists (E'.map Prod.snd) ∧
      Step Rl m op o m' ∧ Kept op E E' := by
  cases op with
  | insert k v =>
    rcases H.insert h k v with ⟨hf, e⟩ | ⟨hf, s', j, i, E', e, h', hi⟩
    · exact ⟨s, .inserted false, E, m, by simp only [call, e]; rfl, h, hm,
        Or.inl ⟨(hr hm).1 hf, rfl, rfl⟩, fun i k v he _ => ⟨v, he⟩⟩
    · exact ⟨s', .inserted true, E', _, by simp only [call, e]; rfl, h', hi.lists hm,
        Or.inr ⟨fun hc => hf ((hr hm).2 hc), rfl, rfl⟩, hi.kept⟩
  | remove k =>
    rcases H.remove h k with ⟨ha, e⟩ | ⟨s', v, E', e, h', hd⟩
    · have hg := Ents.get_none hm ha
      exact ⟨s, .removed none, E, m, by simp only [call, e]; rfl, h, hm,
        ⟨by rw [hg], (FMap.erase_none hg).symm⟩, fun i k v he _ => ⟨v, he⟩⟩
    · obtain ⟨i, hi⟩ := hd.mem
      refine ⟨s', .removed (some v), E', _, by simp only [call, e]; rfl, h', hd.lists hm,
        ⟨by rw [Ents.get_some hm hi], rfl⟩, ?_⟩
      intro i' k' v' he hk
      exact ⟨v', hd.kept' he (fun hc => hk k rfl hc.symm)⟩
  | getMut k f =>
    obtain ⟨s', E', e, h', hm', hids⟩ := H.getMutWrite h hm k f
    refine ⟨s', .got (m.get k), E', _, by simp only [call, e]; rfl, h', hm', ⟨rfl, rfl⟩, ?_⟩
    intro i k' v he _
    exact all_of_ids hids he
  | iterMut es =>
    obtain ⟨s', it', e, h'⟩ := H.iterMut h es
    have hmap := consumeMut_map (Prod.snd : Nat × K × V → K × V)
      (fun f => updV (MapSpec.upd f)) (fun f => MapSpec.upd f) (fun _ _ => rfl) es E
    have hids := consumeMut_snd_map (fun e : Nat × K × V => (e.1, e.2.1))
      (es.map fun e => (e.1, updV (MapSpec.upd e.2))) E (by
        intro e he x
        obtain ⟨e', _, rfl⟩ := List.mem_map.1 he
        rfl)
    refine ⟨s', _, _, _, by simp only [call, e]; rfl, h', H.lists h', ?_, ?_⟩
    · refine ⟨E.map Prod.snd, hm, ho _ ?_, ?_, ?_⟩
      · rw [List.pairwise_map]; exact H.sorted h
      · rw [hv]; unfold script; rw [hmap.1]
      · rw [hv]; unfold script; rw [hmap.2]; exact H.lists h'
    · intro i k' v he _
      exact all_of_ids hids he

/-! ### observations on one state -/

theorem Laws.observe [DecidableEq K] (h : Rep s E) (hm : m.Lists (E.map Prod.snd)) :
    (∀ k, A.get s k = .ok (m.get k)) ∧ (∀ k, A.contains s k = .ok (m.get k).isSome) ∧
    (∀ k, A.index s k = unwrap (m.get k)) ∧ A.len s = m.len ∧ m.len ≤ M ∧
    A.isEmpty s = decide (m.len = 0) := by
  have hg := fun k => H.get h hm k
  have hl := H.len' h hm
  refine ⟨hg, fun k => H.contains (hg k), fun k => H.index (hg k), hl, ?_, by rw [H.empty, hl]⟩
  rw [← hl, H.len h]; exact H.le h

theorem Laws.mem_iff [DecidableEq K] (h : Rep s E) (k : K) (v : V) :
    (k, v) ∈ E.map Prod.snd ↔ A.get s k = .ok (some v) := by
  have hm := H.lists h
  rw [hm.mem, H.get h hm]; simp

theorem Laws.getMut_iff [DecidableEq K] (h : Rep s E) (k : K) (i : Nat) :
    A.getMut s k = .ok (some i) ↔ ∃ v, (i, k, v) ∈ E := by
  rcases cases E k with ha | ⟨L1, j, v, L2, rfl⟩
  · rw [H.getMut_none h ha]
    simp only [Except.ok.injEq, reduceCtorEq, false_iff, not_exists]
    exact fun v hi => ha _ hi rfl
  · have hj : (j, k, v) ∈ L1 ++ (j, k, v) :: L2 := by simp
    rw [H.getMut_some h hj]
    simp only [Except.ok.injEq, Option.some.injEq]
    constructor
    · rintro rfl; exact ⟨v, hj⟩
    · rintro ⟨w, hw⟩; exact (slot_unique (H.lists h) hj hw).1

theorem Laws.insert_obs [DecidableEq K] (h : Rep s E) (k : K) (v : V) :
    ∃ s' r, A.insert s k v = .ok (s', r) ∧ (r = none ↔ refuses E k) ∧ (r = none → s' = s) ∧
      (r ≠ none → A.get s' k = .ok (some v) ∧ (∀ k', k' ≠ k → A.get s' k' = A.get s k') ∧
        (A.get s k = .ok none → A.len s' = A.len s + 1) ∧ (A.get s k ≠ .ok none → A.len s' = A.len s)) := by
  have hm := H.lists h
  rcases H.insert h k v with ⟨hf, e⟩ | ⟨hf, s', j, i, E', e, h', hi⟩
  · exact ⟨s, none, e, by simp [hf], fun _ => rfl, fun hc => absurd rfl hc⟩
  · have hm' := hi.lists hm
    refine ⟨s', some j, e, by simp [hf], by simp, fun _ => ⟨?_, fun k' hk' => ?_, fun hn => ?_, fun hn => ?_⟩⟩
    · rw [H.get h' hm']; simp [FMap.insert]
    · rw [H.get h' hm', H.get h hm]; simp [FMap.insert, hk']
    · rw [H.get h hm] at hn; simp at hn
      rw [H.len' h' hm', H.len' h hm]; simp [FMap.insert, hn]
    · rw [H.get h hm] at hn; simp at hn
      rw [H.len' h' hm', H.len' h hm]; simp [FMap.insert, Option.isSome_iff_ne_none, hn]

theorem Laws.getMut_obs [DecidableEq K] (h : Rep s E) {k : K} {v : V} (hk : A.get s k = .ok (some v)) (w : V) :
    ∃ i s', A.getMut s k = .ok (some i) ∧ A.readVal s i = .ok v ∧ A.write s i w = .ok s' ∧
      A.get s' k = .ok (some w) ∧ (∀ k', k' ≠ k → A.get s' k' = A.get s k') ∧ A.len s' = A.len s := by
  obtain ⟨⟨i, k0, v0⟩, hx, hxe⟩ := List.mem_map.1 ((H.mem_iff h k v).2 hk)
  cases hxe
  obtain ⟨L1, L2, rfl⟩ := List.append_of_mem hx
  obtain ⟨s', e, h', _⟩ := H.write h w
  have hm := H.lists h
  have hm' := Ins.lists (E' := L1 ++ (i, k, w) :: L2) (Or.inl ⟨L1, v, L2, rfl, rfl⟩) hm
  refine ⟨i, s', H.getMut_some h hx, H.readVal h hx, e, H.get_some h' (i := i) (by simp), fun k' hk' => ?_, ?_⟩
  · rw [H.get h' hm', H.get h hm]; simp [FMap.insert, hk']
  · rw [H.len h', H.len h]; simp

theorem Laws.index_obs [DecidableEq K] (h : Rep s E) (k : K) :
    (A.get s k = .ok none ∧ A.getMut s k = .ok none) ∨
    ∃ v i, A.get s k = .ok (some v) ∧ A.getMut s k = .ok (some i) ∧ A.readVal s i = .ok v ∧
      ∀ w, ∃ s', A.write s i w = .ok s' ∧ A.call s (.getMut k fun _ => w) = .ok (s', .got (some v)) ∧
        A.get s' k = .ok (some w) ∧ (∀ k', k' ≠ k → A.get s' k' = A.get s k') ∧ A.len s' = A.len s := by
  rcases Ents.cases E k with ha | ⟨L1, i, v, L2, hE⟩
  · exact Or.inl ⟨by rw [H.get h (H.lists h), Ents.get_none (H.lists h) ha], H.getMut_none h ha⟩
  · have hi : (i, k, v) ∈ E := by rw [hE]; simp
    have hg : A.get s k = .ok (some v) := H.get_some h hi
    refine Or.inr ⟨v, i, hg, H.getMut_some h hi, H.readVal h hi, fun w => ?_⟩
    obtain ⟨i', s', e1, e2, e3, e4⟩ := H.getMut_obs h hg w
    have : i' = i := by have := e1.symm.trans (H.getMut_some h hi); simpa using this
    subst this
    exact ⟨s', e3, by simp only [Api.call, Api.getMutWrite, e1, e2, e3, bind, Except.bind]; rfl, e4⟩

theorem Laws.iter_obs [DecidableEq K] (h : Rep s E) :
    ∃ L : List (K × V), L.Pairwise (fun a b => a.1 < b.1) ∧ (∀ k v, (k, v) ∈ L ↔ A.get s k = .ok (some v)) ∧
      L.length = A.len s ∧
      ∀ es, ∃ it', Sokoban.drive (A.next s) (A.nextBack s) (A.iter s) es = .ok (it', consume L es) :=
  ⟨E.map Prod.snd, by rw [List.pairwise_map]; exact H.sorted h, H.mem_iff h, by rw [H.len h]; simp, H.drive h⟩

theorem Laws.iterMut_obs [DecidableEq K] (h : Rep s E) (es : List (End × (K → V → V))) :
    ∃ s' it items, A.iterMut s es = .ok (s', it, items) ∧
      ((items.filterMap id).map Prod.fst).Nodup ∧
      (∀ x ∈ items.filterMap id, 1 ≤ x.1 ∧ x.1 ≤ M ∧ A.getMut s x.2.1 = .ok (some x.1) ∧
        A.get s x.2.1 = .ok (some x.2.2)) ∧
      A.len s' = A.len s ∧ (∀ k, A.getMut s' k = A.getMut s k) ∧
      ∃ L : List (K × V), L.Pairwise (fun a b => a.1 < b.1) ∧
        (∀ k v, (k, v) ∈ L ↔ A.get s k = .ok (some v)) ∧
        items.map (Option.map Prod.snd) = (consumeMut L (script es)).1 ∧
        (∀ k v, (k, v) ∈ (consumeMut L (script es)).2 ↔ A.get s' k = .ok (some v)) := by
  obtain ⟨s', it', e, h'⟩ := H.iterMut h es
  have hmap := consumeMut_map (Prod.snd : Nat × K × V → K × V)
    (fun f => updV (MapSpec.upd f)) (fun f => MapSpec.upd f) (fun _ _ => rfl) es E
  have hids := consumeMut_snd_map (fun e : Nat × K × V => (e.1, e.2.1))
    (es.map fun e => (e.1, updV (MapSpec.upd e.2))) E (by
      intro e he x
      obtain ⟨e', _, rfl⟩ := List.mem_map.1 he
      rfl)
  obtain ⟨rest, hsub⟩ := consumeMut_sub (es.map fun e => (e.1, updV (MapSpec.upd e.2))) E
  refine ⟨s', it', _, e, ?_, ?_, ?_, ?_, E.map Prod.snd, by rw [List.pairwise_map]; exact H.sorted h,
    H.mem_iff h, ?_, ?_⟩
  · have := H.slots h
    rw [← (hsub.map Prod.fst).nodup_iff, List.map_append] at this
    exact (List.nodup_append.1 this).1
  · intro x hx
    have hx' : (x.1, x.2.1, x.2.2) ∈ E := hsub.mem_iff.1 (List.mem_append_left _ hx)
    have hr := H.range h (List.mem_map_of_mem (f := Prod.fst) hx')
    exact ⟨hr.1, hr.2, H.getMut_some h hx', H.get_some h hx'⟩
  · rw [H.len h, H.len h']
    have := congrArg List.length hids
    simpa only [List.length_map] using this
  · intro k
    rcases cases E k with ha | ⟨L1, i, v, L2, hE⟩
    · rw [H.getMut_none h ha, H.getMut_none h']
      intro x hx hk
      obtain ⟨v', hv'⟩ := all_of_ids hids.symm hx
      exact ha _ hv' hk
    · have hi : (i, k, v) ∈ E := by rw [hE]; simp
      obtain ⟨v', hv'⟩ := all_of_ids hids hi
      rw [H.getMut_some h hi, H.getMut_some h' hv']
  · unfold script; exact hmap.1.symm
  · unfold script
    rw [hmap.2]
    exact H.mem_iff h'

end Api

/-- what no write changes is not changed by a client loop over a mutable iterator -/
theorem driveMut_frame {S It P V F : Type} {next nextBack : S → It → R (It × Option P)}
    {read : S → P → R V} {write : S → P → V → R S} (f : S → F)
    (hw : ∀ s i v s', write s i v = .ok s' → f s' = f s) :
    ∀ (es : List (End × (V → V))) (s : S) (it : It) {s' it' items},
      driveMut next nextBack read write s it es = .ok (s', it', items) → f s' = f s := by
  intro es
  induction es with
  | nil => rintro s it s' it' items e; cases e; rfl
  | cons e es ih =>
    obtain ⟨d, g⟩ := e
    intro s it s' it' items h
    suffices aux : ∀ r : R (It × Option P), (do
        let (it, x) ← r
        match x with
        | none => do
          let (s, it, xs) ← driveMut next nextBack read write s it es
          return (s, it, none :: xs)
        | some slot => do
          let v ← read s slot
          let s ← write s slot (g v)
          let (s, it, xs) ← driveMut next nextBack read write s it es
          return (s, it, some (slot, v) :: xs)) = Except.ok (s', it', items) → f s' = f s by
      cases d <;> exact aux _ h
    clear h
    intro r h
    match r with
    | .error _ => cases h
    | .ok (it1, none) =>
      simp only [except_bind_ok] at h
      cases h2 : driveMut next nextBack read write s it1 es with
      | error _ => rw [h2] at h; cases h
      | ok p =>
        rw [h2] at h; cases h
        exact ih s it1 h2
    | .ok (it1, some slot) =>
      simp only [except_bind_ok] at h
      cases h2 : read s slot with
      | error _ => rw [h2] at h; cases h
      | ok v =>
        simp only [h2, except_bind_ok] at h
        cases h3 : write s slot (g v) with
        | error _ => rw [h3] at h; cases h
        | ok s1 =>
          simp only [h3, except_bind_ok] at h
          cases h4 : driveMut next nextBack read write s1 it1 es with
          | error _ => rw [h4] at h; cases h
          | ok p =>
            rw [h4] at h; cases h
            exact (ih s1 it1 h4).trans (hw _ _ _ _ h3)

theorem Api.iterMut_frame {S K V F : Type} {A : Api S K V} (f : S → F)
    (hw : ∀ s i v s', A.write s i v = .ok s' → f s' = f s) (es : List (End × (K → V → V))) (s : S)
    {s' it items} (h : A.iterMut s es = .ok (s', it, items)) : f s' = f s := by
  unfold Api.iterMut at h
  cases h2 : driveMut A.nextMut A.nextBackMut A.read (fun s r e => A.write s (A.slot r) e.2)
      s (A.iter s) (script es) with
  | error _ => rw [h2] at h; cases h
  | ok p =>
    rw [h2] at h; cases h
    exact driveMut_frame f (fun s r v s' h => hw s _ _ s' h) _ _ _ h2

end Sokoban
