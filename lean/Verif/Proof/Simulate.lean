import Verif.Model.Simulate
import Verif.Proof.Fuzz

/-
The randomised test on any structure that satisfies the laws `Fits` below.
-/
namespace Sokoban.Simulate
open MapSpec Fuzz

/-- a strict total order -/
structure Tot (K : Type) [LT K] : Prop where
  irrefl : ∀ a : K, ¬ a < a
  trans : ∀ {a b c : K}, a < b → b < c → a < c
  total : ∀ a b : K, a < b ∨ a = b ∨ b < a

section lists
variable {K V : Type} [DecidableEq K] [LT K] [DecidableLT K] (T : Tot K)

/-- ascending keys -/
def Asc (l : List (K × V)) : Prop := l.Pairwise (fun a b => a.1 < b.1)

include T in
omit [DecidableEq K] in
theorem mapInsert_cases (k : K) (v : V) : ∀ {l : List (K × V)}, Asc l →
    ∃ L1 L2, ((∃ v0, l = L1 ++ (k, v0) :: L2) ∨ (l = L1 ++ L2 ∧ ∀ e ∈ l, e.1 ≠ k)) ∧
      mapInsert k v l = L1 ++ (k, v) :: L2 ∧ (∀ e ∈ L1, e.1 < k) ∧ (∀ e ∈ L2, k < e.1)
  | [], _ => ⟨[], [], Or.inr (by simp), by simp [mapInsert], by simp, by simp⟩
  | e :: l, h => by
    obtain ⟨h1, h2⟩ := List.pairwise_cons.1 h
    simp only [mapInsert]
    split
    · next hk =>
      refine ⟨[], e :: l, Or.inr ⟨rfl, fun x hx => ?_⟩, rfl, by simp, fun x hx => ?_⟩
      · rintro rfl
        rcases List.mem_cons.1 hx with rfl | hx
        · exact T.irrefl _ hk
        · exact T.irrefl _ (T.trans hk (h1 x hx))
      · rcases List.mem_cons.1 hx with rfl | hx
        · exact hk
        · exact T.trans hk (h1 x hx)
    · next hk =>
      split
      · next hk' =>
        obtain ⟨L1, L2, hl, e1, h3, h4⟩ := mapInsert_cases k v h2
        refine ⟨e :: L1, L2, ?_, by rw [e1]; rfl, ?_, h4⟩
        · rcases hl with ⟨v0, rfl⟩ | ⟨rfl, hn⟩
          · exact Or.inl ⟨v0, rfl⟩
          · refine Or.inr ⟨rfl, fun x hx => ?_⟩
            rcases List.mem_cons.1 hx with rfl | hx
            · rintro rfl; exact hk hk'
            · exact hn x hx
        · intro x hx
          rcases List.mem_cons.1 hx with rfl | hx
          · exact hk'
          · exact h3 x hx
      · next hk' =>
        have he : e.1 = k := by
          rcases T.total e.1 k with hc | hc | hc
          · exact absurd hc hk'
          · exact hc
          · exact absurd hc hk
        refine ⟨[], l, Or.inl ⟨e.2, by rw [← he]; rfl⟩, rfl, by simp, fun x hx => ?_⟩
        rw [← he]; exact h1 x hx

include T in
omit [DecidableEq K] in
theorem mapRemove_cases (k : K) : ∀ {l : List (K × V)}, Asc l →
    (∃ L1 L2 v0, l = L1 ++ (k, v0) :: L2 ∧ mapRemove k l = L1 ++ L2) ∨ (mapRemove k l = l ∧ ∀ e ∈ l, e.1 ≠ k)
  | [], _ => Or.inr ⟨rfl, by simp⟩
  | e :: l, h => by
    obtain ⟨h1, h2⟩ := List.pairwise_cons.1 h
    simp only [mapRemove]
    split
    · next hk =>
      refine Or.inr ⟨rfl, fun x hx => ?_⟩
      rintro rfl
      rcases List.mem_cons.1 hx with rfl | hx
      · exact T.irrefl _ hk
      · exact T.irrefl _ (T.trans hk (h1 x hx))
    · next hk =>
      split
      · next hk' =>
        rcases mapRemove_cases k h2 with ⟨L1, L2, v0, rfl, e1⟩ | ⟨e1, hn⟩
        · exact Or.inl ⟨e :: L1, L2, v0, rfl, by rw [e1]; rfl⟩
        · refine Or.inr ⟨by rw [e1], fun x hx => ?_⟩
          rcases List.mem_cons.1 hx with rfl | hx
          · rintro rfl; exact hk hk'
          · exact hn x hx
      · next hk' =>
        have he : e.1 = k := by
          rcases T.total e.1 k with hc | hc | hc
          · exact absurd hc hk'
          · exact hc
          · exact absurd hc hk
        exact Or.inl ⟨[], l, e.2, by rw [← he]; rfl, rfl⟩

/-- the reference map holds what the finite map holds -/
structure Same (l : List (K × V)) (m : FMap K V) : Prop where
  asc : Asc l
  lists : m.Lists l

variable {l : List (K × V)} {m : FMap K V}

omit [DecidableEq K] [DecidableLT K] in
theorem Same.empty : Same ([] : List (K × V)) FMap.empty := ⟨List.Pairwise.nil, FMap.lists_empty⟩

include T in
theorem Same.insert (h : Same l m) (k : K) (v : V) : Same (mapInsert k v l) (m.insert k v) := by
  obtain ⟨L1, L2, hl, e, h3, h4⟩ := mapInsert_cases T k v h.asc
  rw [e]
  have hasc : Asc (L1 ++ L2) := by
    have := h.asc
    rcases hl with ⟨v0, rfl⟩ | ⟨rfl, _⟩
    · exact this.sublist (by simp)
    · exact this
  constructor
  · refine List.pairwise_append.2 ⟨(List.pairwise_append.1 hasc).1,
      List.pairwise_cons.2 ⟨fun x hx => h4 x hx, (List.pairwise_append.1 hasc).2.1⟩, fun a ha b hb => ?_⟩
    rcases List.mem_cons.1 hb with rfl | hb
    · exact h3 a ha
    · exact (List.pairwise_append.1 hasc).2.2 a ha b hb
  · rcases hl with ⟨v0, rfl⟩ | ⟨rfl, hn⟩
    · exact h.lists.insert_old v
    · exact (h.lists.insert_new v (h.lists.get_none.2 fun w hw => hn _ hw rfl)).perm List.perm_middle.symm

include T in
theorem Same.erase (h : Same l m) (k : K) : Same (mapRemove k l) (m.erase k) := by
  rcases mapRemove_cases T k h.asc with ⟨L1, L2, v0, rfl, e⟩ | ⟨e, hn⟩
  · rw [e]
    exact ⟨h.asc.sublist (by simp), h.lists.erase⟩
  · rw [e, FMap.erase_none (h.lists.get_none.2 fun w hw => hn _ hw rfl)]
    exact h

include T in
omit [DecidableEq K] [DecidableLT K] in
/-- two ascending lists with the same members are equal -/
theorem eq_of_asc {α : Type} {key : α → K} : ∀ {l l' : List α}, l.Pairwise (fun a b => key a < key b) →
    l'.Pairwise (fun a b => key a < key b) → (∀ x, x ∈ l ↔ x ∈ l') → l = l'
  | [], [], _, _, _ => rfl
  | [], x :: l', _, _, h => by have := (h x).2 (by simp); cases this
  | x :: l, [], _, _, h => by have := (h x).1 (by simp); cases this
  | x :: l, y :: l', h1, h2, h => by
    obtain ⟨a1, b1⟩ := List.pairwise_cons.1 h1
    obtain ⟨a2, b2⟩ := List.pairwise_cons.1 h2
    have hxy : x = y := by
      rcases List.mem_cons.1 ((h x).1 (by simp)) with e | hx
      · exact e
      · rcases List.mem_cons.1 ((h y).2 (by simp)) with e | hy
        · exact e.symm
        · exact absurd (T.trans (a1 y hy) (a2 x hx)) (T.irrefl _)
    subst hxy
    rw [eq_of_asc b1 b2 fun z => ?_]
    constructor
    · intro hz
      rcases List.mem_cons.1 ((h z).1 (by simp [hz])) with rfl | hz'
      · exact absurd (a1 z hz) (T.irrefl _)
      · exact hz'
    · intro hz
      rcases List.mem_cons.1 ((h z).2 (by simp [hz])) with rfl | hz'
      · exact absurd (a2 z hz) (T.irrefl _)
      · exact hz'

include T in
omit [DecidableEq K] [DecidableLT K] in
theorem Same.unique {l' : List (K × V)} (h : Same l m) (h' : Same l' m) : l = l' :=
  eq_of_asc T (key := Prod.fst) h.asc h'.asc fun x => by
    rw [show x = (x.1, x.2) from rfl, h.lists.mem, h'.lists.mem]

omit [LT K] [DecidableLT K] [DecidableEq K] in
/-- the length of a finite map is the number of its keys -/
theorem len_keys {L : List (K × V)} (h : m.Lists L) {keys : List K} (hk : ∀ k, k ∈ keys ↔ (m.get k).isSome) :
    m.len ≤ keys.length ∧ (keys.length = m.len ↔ keys.Nodup) := by
  have hsub : ∀ k, k ∈ L.map Prod.fst ↔ k ∈ keys := by
    intro k
    rw [hk, Option.isSome_iff_ne_none, Ne, h.get_none', not_not]
  have hsp := (List.subperm_of_subset h.nodup fun k hx => (hsub k).1 hx)
  have hl : m.len = (L.map Prod.fst).length := by rw [h.len, List.length_map]
  refine ⟨by rw [hl]; exact hsp.length_le, fun he => ?_, fun hn => ?_⟩
  · exact (hsp.perm_of_length_le (by omega)).nodup_iff.1 h.nodup
  · rw [hl]
    exact ((List.perm_ext_iff_of_nodup hn h.nodup).2 fun k => (hsub k).symm).length_eq

omit [LT K] [DecidableLT K] [DecidableEq K] in
theorem eq_of_get {m' : FMap K V} {L L' : List (K × V)} (h : m.Lists L) (h' : m'.Lists L')
    (hg : ∀ k, m.get k = m'.get k) : m = m' := by
  have h2 : m'.Lists L := ⟨h.nodup, fun k v => by rw [h.mem, hg], by
    rw [h'.len]
    exact (FMap.Lists.of_perm_perm (m := ⟨m'.get, L'.length⟩) ⟨h'.nodup, h'.mem, rfl⟩
      ⟨h'.nodup, h'.mem, rfl⟩ |>.length_eq) ▸ (by
        have hn : (L.map Prod.fst).Nodup := h.nodup
        have hn' := h'.nodup
        have : (L'.map Prod.fst).Perm (L.map Prod.fst) := (List.perm_ext_iff_of_nodup hn' hn).2 fun k => by
          rw [← not_iff_not, ← h'.get_none', ← h.get_none', hg]
        simpa using this.length_eq)⟩
  exact h.unique h2

end lists

/-! ### laws -/

variable {S K V It P : Type} [DecidableEq K] [LT K]

/-- `R` is `k` and, after or before it, `R'` -/
def Ends (e : End) (R : List K) (k : K) (R' : List K) : Prop :=
  match e with
  | .front => R = k :: R'
  | .back => R = R' ++ [k]

/-- `next` or `next_back` -/
def nextOf (D : TestMap S K V It P) : End → S → It → R (It × Option (K × V))
  | .front => D.next
  | .back => D.nextBack

/-- `next` or `next_back` of the mutable iterator -/
def nextMutOf (D : TestMap S K V It P) : End → S → It → R (It × Option P)
  | .front => D.nextMut
  | .back => D.nextBackMut

/-- what the test needs of a structure; `Walk s m it R`: the iterator still has to visit the keys `R` -/
structure Fits (D : TestMap S K V It P) (M : Nat) (srt : Bool) (refuses : FMap K V → K → Prop)
    (Inv : S → FMap K V → Prop) (Walk : S → FMap K V → It → List K → Prop) : Prop
    extends Good D.toDynMap M refuses Inv where
  len : ∀ {s m}, Inv s m → D.len s = m.len
  le : ∀ {s m}, Inv s m → m.len ≤ M
  cap : ∀ s, D.capacity s = M
  lists : ∀ {s m}, Inv s m → ∃ L, m.Lists L
  inv : ∀ {s m it R}, Walk s m it R → Inv s m
  start : ∀ {s m}, Inv s m → ∃ it R, D.iter s = .ok it ∧ Walk s m it R ∧ (∀ k, k ∈ R ↔ (m.get k).isSome) ∧
    R.Nodup ∧ (srt = true → R.Pairwise (· < ·))
  read : ∀ {e s m it R}, (e = .front ∨ srt = true) → Walk s m it R →
    (R = [] ∧ ∃ it', nextOf D e s it = .ok (it', none) ∧ Walk s m it' []) ∨
    ∃ k R' it' v, Ends e R k R' ∧ m.get k = some v ∧ nextOf D e s it = .ok (it', some (k, v)) ∧ Walk s m it' R'
  readMut : ∀ {e s m it R}, (e = .front ∨ srt = true) → Walk s m it R →
    (R = [] ∧ ∃ it', nextMutOf D e s it = .ok (it', none) ∧ Walk s m it' []) ∨
    ∃ k R' it' p v, Ends e R k R' ∧ m.get k = some v ∧ nextMutOf D e s it = .ok (it', some p) ∧
      D.read s p = .ok (k, v) ∧ ∀ w, ∃ s', D.write s (D.slot p) w = .ok s' ∧ Walk s' (m.insert k w) it' R'
  noBack : srt = false → ∀ s it, ∃ it', D.nextBackMut s it = .ok (it', none)

theorem check_true {b : Bool} (h : b = true) : check b = .ok () := by rw [h]; rfl

theorem check_false {b : Bool} (h : b = false) : check b = .error .assertion := by rw [h]; rfl

namespace Fits
variable [DecidableEq V] [DecidableLT K] {D : TestMap S K V It P} {M : Nat} {srt : Bool}
  {refuses : FMap K V → K → Prop} {Inv : S → FMap K V → Prop} {Walk : S → FMap K V → It → List K → Prop}
  (H : Fits D M srt refuses Inv Walk) (T : Tot K)

/-- tree, `map`, `keys` and `s` belong together; `keys` may have repetitions -/
structure Tracks (Inv : S → FMap K V → Prop) (x : Vars S K V) (m : FMap K V) : Prop where
  inv : Inv x.tree m
  same : Same x.map m
  keys : ∀ k, k ∈ x.keys ↔ (m.get k).isSome
  s : x.s = x.keys.length

variable {x : Vars S K V} {m : FMap K V}

include H in
omit [DecidableLT K] [DecidableEq V] in
theorem s_eq (h : Tracks Inv x m) : x.s = D.len x.tree ↔ x.keys.Nodup := by
  rw [h.s, H.len h.inv]; exact (len_keys h.same.lists h.keys).2

omit [DecidableLT K] [LT K] [DecidableEq V] in
theorem keys_insert {keys : List K} (h : ∀ k, k ∈ keys ↔ (m.get k).isSome) (k : K) (v : V) :
    ∀ k', k' ∈ keys ++ [k] ↔ ((m.insert k v).get k').isSome := by
  intro k'
  simp only [List.mem_append, List.mem_singleton, h, FMap.insert]
  split
  · next e => simp [e]
  · next e => simp [e]

/-- insertions into a map that is not full succeed -/
def Room (M : Nat) (refuses : FMap K V → K → Prop) : Prop := ∀ (m : FMap K V) k, m.len < M → ¬ refuses m k

include H T in
omit [DecidableEq V] in
theorem insert_tracks (hr : Room M refuses) (h : Tracks Inv x m) (hl : m.len < M) (k : K) (v : V) :
    ∃ tree i, D.insert x.tree k v = .ok (tree, some i) ∧
      Tracks Inv { tree, keys := x.keys ++ [k], map := mapInsert k v x.map, s := x.s + 1 } (m.insert k v) := by
  rcases H.insert h.inv k v with ⟨hf, _⟩ | ⟨_, s', i, e, h'⟩
  · exact absurd hf (hr m k hl)
  · exact ⟨s', i, e, h', h.same.insert T k v, keys_insert h.keys k v, by simp [h.s]⟩

omit [LT K] [DecidableLT K] [DecidableEq V] in
theorem len_insert (k : K) (v : V) : (m.insert k v).len ≤ m.len + 1 := by
  simp only [FMap.insert]; split <;> omega

include H T in
omit [DecidableEq V] in
/-- lines 58-66 get through exactly if the keys are different -/
theorem fill (hr : Room M refuses) : ∀ (l : List (K × V)) {x : Vars S K V} {m : FMap K V}, Tracks Inv x m →
    x.keys.Nodup → m.len + l.length ≤ M →
    ((x.keys ++ l.map Prod.fst).Nodup ∧ ∃ x' m', Simulate.fill D l x = .ok x' ∧ Tracks Inv x' m' ∧
      x'.keys = x.keys ++ l.map Prod.fst) ∨
    (¬ (x.keys ++ l.map Prod.fst).Nodup ∧ Simulate.fill D l x = .error .assertion)
  | [], x, m, h, hn, _ => Or.inl ⟨by simpa using hn, x, m, rfl, h, by simp⟩
  | (k, v) :: l, x, m, h, hn, hl => by
    simp only [List.length_cons] at hl
    obtain ⟨tree, i, e, h'⟩ := H.insert_tracks T hr h (by omega) k v
    have hs := H.s_eq h'
    have happ : x.keys ++ ((k, v) :: l).map Prod.fst = (x.keys ++ [k]) ++ l.map Prod.fst := by simp
    simp only [Simulate.fill, e, except_bind_ok, Option.isSome_some, check_true]
    rw [happ]
    by_cases hd : (x.keys ++ [k]).Nodup
    · rw [check_true (by simpa using hs.2 hd), except_bind_ok]
      have := len_insert (m := m) k v
      exact fill hr l h' hd (by omega)
    · refine Or.inr ⟨fun hc => hd (List.nodup_append.1 hc).1, ?_⟩
      rw [check_false (by simpa using fun hc => hd (hs.1 hc))]
      rfl

include H T in
omit [DecidableEq V] in
/-- lines 75-79 -/
theorem drain : ∀ (l : List K) {x : Vars S K V} {m : FMap K V}, Inv x.tree m → Same x.map m →
    (∀ k, k ∈ l ↔ (m.get k).isSome) → l.Nodup → x.s = l.length →
    ∃ x' m', Simulate.drain D l x = .ok x' ∧ Tracks Inv { x' with keys := [] } m'
  | [], x, m, h, hsm, hk, hn, hs => ⟨x, m, rfl, h, hsm, hk, by simpa using hs⟩
  | k :: l, x, m, h, hsm, hk, hn, hs => by
    obtain ⟨tree, e, h'⟩ := H.remove h k
    obtain ⟨v, hv⟩ := Option.isSome_iff_exists.1 ((hk k).1 (by simp))
    obtain ⟨hn1, hn2⟩ := List.nodup_cons.1 hn
    simp only [List.length_cons] at hs
    have h1 : sub x.s 1 = .ok l.length := by
      unfold sub; rw [if_pos (by omega)]; congr 1; omega
    simp only [Simulate.drain, e, except_bind_ok, hv, Option.isSome_some, check_true, h1]
    refine drain l h' (hsm.erase T k) (fun k' => ?_) hn2 rfl
    simp only [FMap.erase]
    split
    · next hkk => subst hkk; simpa using hn1
    · next hkk => rw [← hk]; simp [hkk]

include H T in
omit [DecidableEq V] in
/-- lines 93-101 -/
theorem insertMany (hr : Room M refuses) (r : Round K V) : ∀ (n i : Nat) {x : Vars S K V} {m : FMap K V},
    Tracks Inv x m → m.len + n ≤ M →
    ∃ x' m', Simulate.insertMany D r n i x = .ok x' ∧ Tracks Inv x' m' ∧
      x'.keys = x.keys ++ (List.range' i n).map r.key
  | 0, i, x, m, h, _ => ⟨x, m, rfl, h, by simp⟩
  | n + 1, i, x, m, h, hl => by
    obtain ⟨tree, j, e, h'⟩ := H.insert_tracks T hr h (by omega) (r.key i) (r.val i)
    have := len_insert (m := m) (r.key i) (r.val i)
    obtain ⟨x', m', e', h'', hk⟩ := insertMany hr r n (i + 1) h' (by omega)
    refine ⟨x', m', ?_, h'', by rw [hk]; simp [List.range'_succ]⟩
    simp only [Simulate.insertMany, H.cap, H.len h.inv]
    rw [check_true (by simpa using by omega), except_bind_ok]
    simp only [e, except_bind_ok, Option.isSome_some, check_true]
    exact e'

theorem genRange_ok {low high r : Nat} (h : low < high) :
    ∃ j, genRange low high r = .ok j ∧ low ≤ j ∧ j < high := by
  refine ⟨low + r % (high - low), if_pos h, by omega, ?_⟩
  have := Nat.mod_lt r (show 0 < high - low by omega)
  omega

include H T in
omit [DecidableEq V] in
/-- lines 107-116 -/
theorem removeMany (r : Round K V) : ∀ (n i : Nat) {x : Vars S K V} {m : FMap K V},
    Tracks Inv x m → x.keys.Nodup → n ≤ x.keys.length →
    ∃ x' m', Simulate.removeMany D r n i x = .ok x' ∧ Tracks Inv x' m' ∧ x'.keys.Nodup ∧ ∀ k ∈ x'.keys, k ∈ x.keys
  | 0, i, x, m, h, hn, _ => ⟨x, m, rfl, h, hn, fun _ hk => hk⟩
  | n + 1, i, x, m, h, hn, hl => by
    obtain ⟨j, ej, _, hj⟩ := genRange_ok (low := 0) (high := x.keys.length) (r := r.pick i) (by omega)
    have hne : x.keys.isEmpty = false := by
      rw [List.isEmpty_eq_false_iff]; rintro hc; rw [hc] at hl; simp at hl
    obtain ⟨v, hv⟩ := Option.isSome_iff_exists.1 ((h.keys _).1 (List.getElem_mem hj))
    obtain ⟨tree, e, h'⟩ := H.remove h.inv x.keys[j]
    have hp := swapRemove_perm hj
    have hnd := List.nodup_cons.1 (hp.nodup_iff.2 hn)
    have hlen : (swapRemove x.keys j).length + 1 = x.keys.length := by simpa using hp.length_eq
    have hs := h.s
    have h1 : sub x.s 1 = .ok (swapRemove x.keys j).length := by
      unfold sub; rw [if_pos (by omega)]; congr 1; omega
    have ht : Tracks Inv ⟨tree, swapRemove x.keys j, mapRemove x.keys[j] x.map, (swapRemove x.keys j).length⟩
        (m.erase x.keys[j]) := by
      refine ⟨h', h.same.erase T _, fun k => ?_, rfl⟩
      simp only [FMap.erase]
      split
      · next hkk => subst hkk; simpa using hnd.1
      · next hkk =>
        rw [← h.keys, ← hp.mem_iff]
        simp [hkk]
    obtain ⟨x', m', e', h'', hn', hsub⟩ := removeMany r n (i + 1) ht hnd.2 (by simp only; omega)
    refine ⟨x', m', ?_, h'', hn', fun k hk => hp.mem_iff.1 (List.mem_cons_of_mem _ (hsub k hk))⟩
    simp only [Simulate.removeMany, hne, Bool.not_false, check_true, except_bind_ok, ej, at_ok hj, e, hv,
      Option.isSome_some, h1]
    exact e'

include H T in
omit [DecidableEq V] in
/-- lines 122-129 -/
theorem replaceMany (r : Round K V) : ∀ (n i : Nat) {x : Vars S K V} {m : FMap K V},
    Tracks Inv x m → 0 < x.keys.length →
    ∃ x' m', Simulate.replaceMany D r n i x = .ok x' ∧ Tracks Inv x' m' ∧ x'.keys = x.keys
  | 0, i, x, m, h, _ => ⟨x, m, rfl, h, rfl⟩
  | n + 1, i, x, m, h, hl => by
    obtain ⟨j, ej, _, hj⟩ := genRange_ok (low := 0) (high := x.keys.length) (r := r.pick i) (by omega)
    have hne : x.keys.isEmpty = false := by
      rw [List.isEmpty_eq_false_iff]; rintro hc; rw [hc] at hl; simp at hl
    obtain ⟨v, hv⟩ := Option.isSome_iff_exists.1 ((h.keys _).1 (List.getElem_mem hj))
    obtain ⟨t1, ref, e, hw⟩ := H.getMut h.inv hv
    obtain ⟨t2, e2, h2⟩ := hw (r.val i)
    have ht : Tracks Inv { x with tree := t2, map := mapInsert x.keys[j] (r.val i) x.map }
        (m.insert x.keys[j] (r.val i)) := by
      refine ⟨h2, h.same.insert T _ _, fun k => ?_, h.s⟩
      rw [h.keys]; simp only [FMap.insert]
      split
      · next hkk => subst hkk; simp [hv]
      · rfl
    obtain ⟨x', m', e', h'', hk⟩ := replaceMany r n (i + 1) ht hl
    refine ⟨x', m', ?_, h'', hk⟩
    simp only [Simulate.replaceMany, hne, Bool.not_false, check_true, except_bind_ok, ej, at_ok hj, e, unwrap, e2]
    exact e'

/-- the keys that a round may draw -/
def drawn (M : Nat) (r : Round K V) : List K := (List.range M).map r.key

include H T in
omit [DecidableEq V] in
/-- a round on a state without repetitions -/
theorem round (hr : Room M refuses) (r : Round K V) (h : Tracks Inv x m) (hn : x.keys.Nodup) :
    ∃ x' m', Simulate.round D r x = .ok x' ∧ Tracks Inv x' m' ∧ (∀ k ∈ x'.keys, k ∈ x.keys ∨ k ∈ drawn M r) ∧
      ((drawn M r).Nodup → (∀ k ∈ x.keys, k ∉ drawn M r) → x'.keys.Nodup) := by
  have hs := (H.s_eq h).2 hn
  have hlen : D.len x.tree = m.len := H.len h.inv
  have hle := H.le h.inv
  have hkl : x.keys.length = m.len := (len_keys h.same.lists h.keys).2.2 hn
  have same : ∃ x' m', (Except.ok x : R (Vars S K V)) = .ok x' ∧ Tracks Inv x' m' ∧
      (∀ k ∈ x'.keys, k ∈ x.keys ∨ k ∈ drawn M r) ∧
      ((drawn M r).Nodup → (∀ k ∈ x.keys, k ∉ drawn M r) → x'.keys.Nodup) :=
    ⟨x, m, rfl, h, fun k hk => Or.inl hk, fun _ _ => hn⟩
  unfold Simulate.round
  rw [check_true (by simpa using hs), except_bind_ok]
  rcases r with ⟨third, count, key, val, pick⟩
  match third with
  | 0 =>
    simp only [H.cap, hlen]
    have h1 : sub M m.len = .ok (M - m.len) := if_pos hle
    rw [h1, except_bind_ok]
    by_cases h0 : M - m.len = 0
    · simp only [h0, if_true]; exact same
    · simp only [h0, if_false]
      obtain ⟨n, en, _, hlt⟩ := genRange_ok (low := 0) (high := M - m.len) (r := count) (by omega)
      rw [en, except_bind_ok]
      obtain ⟨x', m', e, h', hk⟩ := H.insertMany T hr ⟨0, count, key, val, pick⟩ n 0 h (by omega)
      have hpre : (List.range' 0 n).map key <+: (List.range M).map key := by
        rw [← List.range_eq_range', show M = n + (M - n) by omega, List.range_add, List.map_append]
        exact List.prefix_append _ _
      refine ⟨x', m', e, h', fun k hx => ?_, fun hd hdis => ?_⟩
      · rw [hk] at hx
        exact (List.mem_append.1 hx).imp_right fun hx => hpre.subset hx
      · rw [hk]
        refine List.nodup_append.2 ⟨hn, hpre.sublist.nodup hd, fun a ha b hb hab => ?_⟩
        subst hab
        exact hdis a ha (hpre.subset hb)
  | 1 =>
    simp only [hlen]
    by_cases h0 : m.len < 2
    · simp only [h0, if_true]; exact same
    · simp only [h0, if_false]
      obtain ⟨n, en, _, hlt⟩ := genRange_ok (low := 0) (high := m.len / 2) (r := count) (by omega)
      rw [en, except_bind_ok]
      obtain ⟨x', m', e, h', hn', hsub⟩ := H.removeMany T ⟨1, count, key, val, pick⟩ n 0 h hn (by omega)
      exact ⟨x', m', e, h', fun k hk => Or.inl (hsub k hk), fun _ _ => hn'⟩
  | 2 =>
    simp only [hlen]
    by_cases h0 : m.len = 0
    · simp only [h0, if_true]; exact same
    · simp only [h0, if_false]
      obtain ⟨n, en, _, hlt⟩ := genRange_ok (low := 0) (high := m.len) (r := count) (by omega)
      rw [en, except_bind_ok]
      obtain ⟨x', m', e, h', hk⟩ := H.replaceMany T ⟨2, count, key, val, pick⟩ n 0 h (by omega)
      exact ⟨x', m', e, h', fun k hx => Or.inl (by rwa [hk] at hx), fun _ _ => by rw [hk]; exact hn⟩

include H in
omit [DecidableEq V] in
/-- a round on a state with repetitions -/
theorem round_dup (r : Round K V) (h : Tracks Inv x m) (hn : ¬ x.keys.Nodup) :
    Simulate.round D r x = .error .assertion := by
  unfold Simulate.round
  rw [check_false (by simpa using fun hc => hn ((H.s_eq h).1 hc))]
  rfl

include H T in
omit [DecidableEq V] in
/-- the rounds, if the keys drawn before the last one are different -/
theorem rounds (hr : Room M refuses) : ∀ (rs : List (Round K V)) {x : Vars S K V} {m : FMap K V},
    Tracks Inv x m → x.keys.Nodup → (x.keys ++ rs.dropLast.flatMap (drawn M)).Nodup →
    ∃ x' m', roundsLoop D rs x = .ok x' ∧ Tracks Inv x' m'
  | [], x, m, h, _, _ => ⟨x, m, rfl, h⟩
  | [r], x, m, h, hn, _ => by
    obtain ⟨x', m', e, h', _⟩ := H.round T hr r h hn
    exact ⟨x', m', by simp only [roundsLoop, e, except_bind_ok], h'⟩
  | r :: r2 :: rs, x, m, h, hn, hd => by
    obtain ⟨x1, m1, e, h1, hsub, hnd⟩ := H.round T hr r h hn
    rw [List.dropLast_cons_of_ne_nil (by simp), List.flatMap_cons] at hd
    obtain ⟨_, hd2, hd3⟩ := List.nodup_append.1 hd
    obtain ⟨hd4, hd5, hd6⟩ := List.nodup_append.1 hd2
    have hn1 := hnd hd4 fun k hk hc => hd3 k hk k (by simp [hc]) rfl
    obtain ⟨x', m', e', h'⟩ := rounds hr (r2 :: rs) h1 hn1 (List.nodup_append.2 ⟨hn1, hd5, fun a ha b hb hab => by
      subst hab
      rcases hsub a ha with ha | ha
      · exact hd3 a ha a (List.mem_append_right _ hb) rfl
      · exact hd6 a ha a hb rfl⟩)
    exact ⟨x', m', by rw [roundsLoop, e, except_bind_ok, e'], h'⟩

end Fits
end Sokoban.Simulate
