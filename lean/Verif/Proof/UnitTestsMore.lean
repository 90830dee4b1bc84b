import Verif.Model.UnitTests
import Verif.Proof.RBLaws
import Verif.Proof.Deque
import Verif.Proof.Simulate

/-
The unit tests that fill and empty a red-black tree, and that of the deque.
-/
namespace Sokoban.UnitTests
open MapSpec Ents Simulate

section RedBlack
open RedBlackTree
variable {K V : Type} [LinearOrder K] {M : Nat}

theorem holds_valid {s : RedBlackTree K V M} {E : Ents K V} (h : Inv s E) : holds s.isValid = .ok () := by
  obtain ⟨t, hz, hg, _⟩ := h
  rw [holds, isValid_spec hz hg]; rfl

/-- the keys of the entries -/
abbrev keysOf (E : Ents K V) : List K := E.map fun e => e.2.1

omit [LinearOrder K] in
theorem absent_iff {E : Ents K V} {k : K} : Absent E k ↔ k ∉ keysOf E := by
  simp only [Absent, keysOf, List.mem_map, not_exists, not_and]

theorem fillTree_spec (hM : M + 1 < 2 ^ 32) (hM0 : 0 < M) (valid : Bool) : ∀ (es : List (K × V)) {s : RedBlackTree K V M}
    {E : Ents K V}, Inv s E →
      (fillTree valid s es = .error .unwrapNone ∧
        ¬ ((es.map Prod.fst).Nodup ∧ (∀ k ∈ es.map Prod.fst, k ∉ keysOf E) ∧ E.length + es.length ≤ M)) ∨
      ∃ s' as E', fillTree valid s es = .ok (s', as) ∧ Inv s' E' ∧
        (∀ k, k ∈ keysOf E' ↔ k ∈ keysOf E ∨ k ∈ es.map Prod.fst) ∧
        (∀ e ∈ E, ∃ v, (e.1, e.2.1, v) ∈ E') ∧ ∀ x ∈ (es.map Prod.fst).zip as, ∃ v, (x.2, x.1, v) ∈ E'
  | [], s, E, h => Or.inr ⟨s, [], E, rfl, h, by simp, fun e he => ⟨e.2.2, he⟩, by simp⟩
  | (k, v) :: es, s, E, h => by
    rcases h.insert hM hM0 k v with ⟨h1, h2, e⟩ | ⟨h1, s1, i, E1, e, h', hi⟩
    · refine Or.inl ⟨by simp only [fillTree, put, e, except_bind_ok, unwrap]; rfl, fun hc => ?_⟩
      have h2 : E.length = M := h2
      have := hc.2.2
      simp only [List.length_cons] at this
      omega
    · have h' : Inv s1 E1 := h'
      have hv : (if valid then holds s1.isValid else pure PUnit.unit) = .ok () := by
        cases valid
        · rfl
        · exact holds_valid h'
      have ek : ∀ rest : R (RedBlackTree K V M × List Nat), fillTree valid s1 es = rest →
          fillTree valid s ((k, v) :: es) = (do let (t, as) ← rest; return (t, i :: as)) := by
        rintro _ rfl
        have hp : put s k v = .ok (s1, i) := by simp only [put, e, except_bind_ok, unwrap]; rfl
        rw [fillTree, hp]
        simp only [except_bind_ok]
        cases valid
        · rfl
        · simp only [if_true, holds_valid h', except_bind_ok]
      have hkeys : ∀ x, x ∈ keysOf E1 ↔ x ∈ keysOf E ∨ x = k := by
        intro x
        rcases hi with ⟨L1, v0, L2, rfl, rfl⟩ | ⟨_, _, L1, L2, rfl, rfl⟩
        · simp only [keysOf, List.map_append, List.map_cons, List.mem_append, List.mem_cons]; tauto
        · simp only [keysOf, List.map_append, List.map_cons, List.mem_append, List.mem_cons]; tauto
      have hkeep : ∀ e ∈ E, ∃ w, (e.1, e.2.1, w) ∈ E1 := by
        intro x hx
        rcases hi with ⟨L1, v0, L2, rfl, rfl⟩ | ⟨_, _, L1, L2, rfl, rfl⟩
        · simp only [List.mem_append, List.mem_cons] at hx
          rcases hx with hx | rfl | hx
          · exact ⟨x.2.2, by simp [hx]⟩
          · exact ⟨v, by simp⟩
          · exact ⟨x.2.2, by simp [hx]⟩
        · simp only [List.mem_append] at hx
          rcases hx with hx | hx <;> exact ⟨x.2.2, by simp [hx]⟩
      rcases fillTree_spec hM hM0 valid es h' with ⟨e2, hn⟩ | ⟨s', as, E', e2, h2, hk2, hkeep2, hz⟩
      · refine Or.inl ⟨by rw [ek _ e2]; rfl, fun ⟨hc1, hc2, hc3⟩ => hn ?_⟩
        simp only [List.map_cons, List.nodup_cons] at hc1
        refine ⟨hc1.2, fun x hx hx' => ?_, ?_⟩
        · rcases (hkeys x).1 hx' with h0 | rfl
          · exact hc2 x (by simp only [List.map_cons, List.mem_cons]; exact Or.inr hx) h0
          · exact hc1.1 hx
        · have hnew : k ∉ keysOf E := hc2 k (by simp)
          rcases hi with ⟨L1, v0, L2, rfl, rfl⟩ | ⟨_, _, L1, L2, rfl, rfl⟩
          · exact absurd (by simp [keysOf]) hnew
          · simp only [List.length_append, List.length_cons] at hc3 ⊢; omega
      · refine Or.inr ⟨s', i :: as, E', by rw [ek _ e2]; rfl, h2, fun x => ?_, fun x hx => ?_, ?_⟩
        · rw [hk2, hkeys]; simp only [List.map_cons, List.mem_cons]; tauto
        · obtain ⟨w, hw⟩ := hkeep x hx
          obtain ⟨w', hw'⟩ := hkeep2 _ hw
          exact ⟨w', hw'⟩
        · simp only [List.map_cons, List.zip_cons_cons, List.mem_cons, forall_eq_or_imp]
          exact ⟨hkeep2 _ hi.mem, hz⟩

theorem drainTree_spec : ∀ (l : List K) {s : RedBlackTree K V M} {E : Ents K V}, Inv s E →
    (drainTree s l = .error .unwrapNone ∧ ¬ (l.Nodup ∧ ∀ k ∈ l, k ∈ keysOf E)) ∨
    ∃ s' E', drainTree s l = .ok s' ∧ Inv s' E' ∧ l.Nodup ∧ ∀ k ∈ l, k ∈ keysOf E
  | [], s, E, h => Or.inr ⟨s, E, rfl, h, by simp, by simp⟩
  | k :: l, s, E, h => by
    have hs : Sorted E := by obtain ⟨_, _, _, hs⟩ := h; exact hs
    rcases h.remove k with ⟨ha, e⟩ | ⟨s1, v, E1, i, e, h', hd, _⟩
    · refine Or.inl ⟨by simp only [drainTree, e, except_bind_ok, unwrap]; rfl, fun hc => ?_⟩
      exact absent_iff.1 ha (hc.2 k (by simp))
    · have h' : Inv s1 E1 := h'
      have ek : drainTree s (k :: l) = drainTree s1 l := by
        simp only [drainTree, e, except_bind_ok, unwrap, holds_valid h']
      have hk : k ∈ keysOf E := by
        obtain ⟨j, hj⟩ := hd.mem
        exact List.mem_map.2 ⟨_, hj, rfl⟩
      have hkeys : ∀ x, x ∈ keysOf E1 ↔ x ∈ keysOf E ∧ x ≠ k := by
        intro x
        have hnd := hs.keys
        obtain ⟨L1, j, L2, rfl, rfl⟩ := hd
        simp only [List.map_append, List.map_cons, List.nodup_append, List.nodup_cons, List.mem_cons] at hnd
        simp only [keysOf, List.map_append, List.map_cons, List.mem_append, List.mem_cons]
        constructor
        · rintro (hx | hx)
          · exact ⟨Or.inl hx, fun hc => hnd.2.2 x hx k (Or.inl rfl) hc⟩
          · exact ⟨Or.inr (Or.inr hx), fun hc => hnd.2.1.1 (hc ▸ hx)⟩
        · rintro ⟨hx | rfl | hx, hne⟩
          · exact Or.inl hx
          · exact absurd rfl hne
          · exact Or.inr hx
      rcases drainTree_spec l h' with ⟨e2, hn⟩ | ⟨s', E', e2, h2, hn, hm⟩
      · refine Or.inl ⟨by rw [ek, e2], fun ⟨hc1, hc2⟩ => hn ?_⟩
        rw [List.nodup_cons] at hc1
        exact ⟨hc1.2, fun x hx => (hkeys x).2 ⟨hc2 x (by simp [hx]), fun hc => hc1.1 (hc ▸ hx)⟩⟩
      · refine Or.inr ⟨s', E', by rw [ek, e2], h2, List.nodup_cons.2 ⟨fun hc => ((hkeys k).1 (hm k hc)).2 rfl, hn⟩, ?_⟩
        intro x hx
        rcases List.mem_cons.1 hx with rfl | hx
        · exact hk
        · exact ((hkeys x).1 (hm x hx)).1

theorem addressesKept_spec {s : RedBlackTree K V M} {E : Ents K V} (h : Inv s E) : ∀ l : List (K × Nat),
    (∀ x ∈ l, ∃ v, (x.2, x.1, v) ∈ E) → addressesKept s l = .ok ()
  | [], _ => rfl
  | (k, a) :: l, hl => by
    obtain ⟨v, hv⟩ := hl (k, a) (by simp)
    have := addressesKept_spec h l (fun x hx => hl x (by simp [hx]))
    simp [addressesKept, equal, h.getAddr_some hv, check, this]

theorem fresh_inv (z : RBNode K V) : Inv (RedBlackTree.new z : RedBlackTree K V M) [] := Inv.new z

/-- filling and emptying a new tree -/
theorem fill_drain (hM : M + 1 < 2 ^ 32) (hM0 : 0 < M) (z : RBNode K V) (valid : Bool) (es : List (K × V)) :
    (fillTree valid (RedBlackTree.new z : RedBlackTree K V M) es = .error .unwrapNone ∧
      ¬ ((es.map Prod.fst).Nodup ∧ es.length ≤ M)) ∨
    ∃ s as, fillTree valid (RedBlackTree.new z : RedBlackTree K V M) es = .ok (s, as) ∧ holds s.isValid = .ok () ∧
      addressesKept s ((es.map Prod.fst).zip as) = .ok () ∧
      ((drainTree s (es.map Prod.fst) = .error .unwrapNone ∧ ¬ (es.map Prod.fst).Nodup) ∨
        ∃ s', drainTree s (es.map Prod.fst) = .ok s' ∧ (es.map Prod.fst).Nodup ∧ es.length ≤ M) := by
  rcases fillTree_spec hM hM0 valid es (fresh_inv z) with ⟨e, hn⟩ | ⟨s, as, E, e, h, hk, _, hz⟩
  · exact Or.inl ⟨e, fun hc => hn ⟨hc.1, by simp [keysOf], by simpa using hc.2⟩⟩
  · refine Or.inr ⟨s, as, e, holds_valid h, addressesKept_spec h _ hz, ?_⟩
    rcases drainTree_spec (es.map Prod.fst) h with ⟨e2, hn⟩ | ⟨s', E', e2, h2, hn, _⟩
    · exact Or.inl ⟨e2, fun hc => hn ⟨hc, fun k hk' => (hk k).2 (Or.inr hk')⟩⟩
    · refine Or.inr ⟨s', e2, hn, ?_⟩
      have hsub : es.map Prod.fst ⊆ keysOf E := fun k hk' => (hk k).2 (Or.inr hk')
      have h1 := (hn.subperm hsub).length_le
      have h2 := (laws (K := K) (V := V) hM hM0).le h
      simp only [List.length_map] at h1
      omega

theorem deleteAll_spec (hM : M + 1 < 2 ^ 32) (hM0 : 0 < M) (z : RBNode K V) (es : List (K × V)) :
    deleteAll (RedBlackTree.new z : RedBlackTree K V M) es =
      if (es.map Prod.fst).Nodup ∧ es.length ≤ M then .ok () else .error .unwrapNone := by
  unfold deleteAll
  rcases fill_drain hM hM0 z true es with ⟨e, hn⟩ | ⟨s, as, e, _, _, ⟨e2, hn⟩ | ⟨s', e2, hn⟩⟩
  · rw [e, if_neg hn]; rfl
  · rw [e, if_neg (fun hc => hn hc.1)]; simp only [except_bind_ok, e2]; rfl
  · rw [e, if_pos hn]; simp only [except_bind_ok, e2]; rfl

theorem deleteAllAddresses_spec (hM : M + 1 < 2 ^ 32) (hM0 : 0 < M) (z : RBNode K V) (es : List (K × V)) :
    deleteAllAddresses (RedBlackTree.new z : RedBlackTree K V M) es =
      if (es.map Prod.fst).Nodup ∧ es.length ≤ M then .ok () else .error .unwrapNone := by
  unfold deleteAllAddresses
  rcases fill_drain hM hM0 z true es with ⟨e, hn⟩ | ⟨s, as, e, _, ha, ⟨e2, hn⟩ | ⟨s', e2, hn⟩⟩
  · rw [e, if_neg hn]; rfl
  · rw [e, if_neg (fun hc => hn hc.1)]; simp only [except_bind_ok, ha, e2]; rfl
  · rw [e, if_pos hn]; simp only [except_bind_ok, ha, e2]; rfl

theorem lookup_mem {V : Type} {k : K} {v : V} : ∀ {l : List (K × V)}, (l.map Prod.fst).Nodup → (k, v) ∈ l →
    l.lookup k = some v
  | (k', v') :: l, hn, hm => by
    simp only [List.map_cons, List.nodup_cons] at hn
    rw [List.lookup_cons]
    by_cases hk : k = k'
    · subst hk
      rcases List.mem_cons.1 hm with h | h
      · cases h; simp
      · exact absurd (List.mem_map_of_mem (f := Prod.fst) h) hn.1
    · rw [show (k == k') = false by simpa using hk]
      rcases List.mem_cons.1 hm with h | h
      · cases h; exact absurd rfl hk
      · exact lookup_mem hn.2 h

theorem index_spec : ∀ (ps : List (K × Nat)) {l : List (K × Nat)} {m : FMap K Nat}, Same l m →
    ∃ m', Same (ps.foldl (fun m e => mapInsert e.1 e.2 m) l) m' ∧
      (∀ k i, m'.get k = some i → (k, i) ∈ ps ∨ m.get k = some i) ∧
      ∀ k, k ∈ ps.map Prod.fst ∨ (m.get k).isSome → (m'.get k).isSome
  | [], l, m, h => ⟨m, h, fun k i hk => Or.inr hk, by simp⟩
  | (k0, i0) :: ps, l, m, h => by
    obtain ⟨m', h1, h2, h3⟩ := index_spec ps (h.insert ⟨lt_irrefl, lt_trans, lt_trichotomy⟩ k0 i0)
    refine ⟨m', h1, fun k i hk => ?_, fun k hk => h3 k ?_⟩
    · rcases h2 k i hk with h | h
      · exact Or.inl (by simp [h])
      · simp only [FMap.insert] at h
        split at h
        · subst_vars; cases h; simp
        · exact Or.inr h
    · simp only [FMap.insert]
      by_cases hk0 : k = k0
      · simp [hk0]
      · simp only [List.map_cons, List.mem_cons, hk0, false_or] at hk
        simpa [hk0] using hk

theorem mapM_ok {α β : Type} {f : α → R β} {g : α → β} : ∀ {l : List α}, (∀ x ∈ l, f x = .ok (g x)) →
    l.mapM f = .ok (l.map g)
  | [], _ => rfl
  | x :: l, h => by
    rw [List.mapM_cons, h x (by simp), mapM_ok (l := l) (fun y hy => h y (by simp [hy]))]; rfl

theorem deleteAllIndices_spec (hM : M + 1 < 2 ^ 32) (hM0 : 0 < M) (z : RBNode K V) (z' : RBNode Nat V)
    (es : List (K × V)) (v : V) :
    deleteAllIndices (RedBlackTree.new z : RedBlackTree K V M) (RedBlackTree.new z') es v =
      if (es.map Prod.fst).Nodup ∧ es.length ≤ M then .ok () else .error .unwrapNone := by
  unfold deleteAllIndices
  rcases fill_drain hM hM0 z false es with ⟨e, hn⟩ | ⟨s, as, e, _, _, _⟩
  · rw [e, if_neg hn]; rfl
  obtain ⟨m, h1, h2, h3⟩ := index_spec (es.map Prod.fst).zipIdx (Same.empty (K := K) (V := Nat))
  have hg : ∀ k ∈ es.map Prod.fst, ∃ i, m.get k = some i ∧ (es.map Prod.fst)[i]? = some k := by
    intro k hk
    obtain ⟨i, hi⟩ := Option.isSome_iff_exists.1 (h3 k (Or.inl (by simpa using hk)))
    refine ⟨i, hi, ?_⟩
    rcases h2 k i hi with h | h
    · exact List.mem_zipIdx_iff_getElem?.1 h
    · simp [FMap.empty] at h
  have hind : (es.map Prod.fst).mapM (fun k => unwrap (((es.map Prod.fst).zipIdx.foldl (fun m e => mapInsert e.1 e.2 m) []).lookup k)) =
      .ok ((es.map Prod.fst).map fun k => (m.get k).getD 0) := by
    refine mapM_ok fun k hk => ?_
    obtain ⟨i, hi, _⟩ := hg k hk
    rw [lookup_mem h1.lists.nodup ((h1.lists.mem k i).2 hi), hi]; rfl
  have hnd : ((es.map Prod.fst).map fun k => (m.get k).getD 0).Nodup ↔ (es.map Prod.fst).Nodup := by
    refine ⟨List.Nodup.of_map _, fun h => List.Nodup.map_on (fun x hx y hy hxy => ?_) h⟩
    obtain ⟨i, hi, hi'⟩ := hg x hx
    obtain ⟨j, hj, hj'⟩ := hg y hy
    simp only [hi, hj, Option.getD_some] at hxy
    subst hxy
    rw [hi'] at hj'
    exact Option.some.inj hj'
  rw [e]
  simp only [except_bind_ok, hind]
  generalize hI : (es.map Prod.fst).map (fun k => (m.get k).getD 0) = I at hnd
  have hfst : (I.map fun i => (i, v)).map Prod.fst = I := by simp [Function.comp_def]
  have hlen : (I.map fun i => (i, v)).length = es.length := by rw [← hI]; simp
  have hF := fill_drain hM hM0 z' false (I.map fun i => (i, v))
  rw [hfst, hlen, hnd] at hF
  rcases hF with ⟨e, hn⟩ | ⟨s, as, e, hv, _, ⟨e2, hn⟩ | ⟨s', e2, hn⟩⟩
  · rw [e, if_neg hn]; rfl
  · rw [e, if_neg (fun hc => hn hc.1)]; simp only [except_bind_ok, hv, e2]; rfl
  · rw [e, if_pos hn]; simp only [except_bind_ok, hv, e2]; rfl

end RedBlack

section Deque
open Deque
variable {T : Type} [DecidableEq T] {M : Nat}

omit [DecidableEq T] in
theorem pushBacks_spec (hM : M + 1 < 2 ^ 32) : ∀ (xs : List T) {q : Deque T M} {l : List (Nat × T)}, DRep q l →
    q.sequenceNumber + xs.length < 2 ^ 64 →
    (M < l.length + xs.length ∧ pushBacks xs (q, l.map Prod.snd) = .error .bufferFull) ∨
    ∃ q' l', pushBacks xs (q, l.map Prod.snd) = .ok (q', l'.map Prod.snd) ∧ DRep q' l' ∧
      l'.map Prod.snd = l.map Prod.snd ++ xs ∧ q'.sequenceNumber = q.sequenceNumber + xs.length
  | [], q, l, h, _ => Or.inr ⟨q, l, rfl, h, by simp, rfl⟩
  | x :: xs, q, l, h, hs => by
    simp only [List.length_cons] at hs
    by_cases hf : l.length = M
    · refine Or.inl ⟨by simp only [List.length_cons]; omega, ?_⟩
      simp only [pushBacks, (push_full h hM hf x).1]; rfl
    · have := h.le
      obtain ⟨q1, i, e, h1, hs1⟩ := pushBack_spec h hM (by omega) (by omega) x
      have e1 : pushBacks (x :: xs) (q, l.map Prod.snd) = pushBacks xs (q1, (l ++ [(i, x)]).map Prod.snd) := by
        simp [pushBacks, e]
      rw [e1]
      rcases pushBacks_spec hM xs h1 (by omega) with ⟨h2, e2⟩ | ⟨q', l', e2, h2, h3, h4⟩
      · exact Or.inl ⟨by simp at h2 ⊢; omega, e2⟩
      · exact Or.inr ⟨q', l', e2, h2, by rw [h3]; simp, by simp; omega⟩

omit [DecidableEq T] in
theorem pushFronts_spec (hM : M + 1 < 2 ^ 32) : ∀ (xs : List T) {q : Deque T M} {l : List (Nat × T)}, DRep q l →
    q.sequenceNumber + xs.length < 2 ^ 64 →
    (M < l.length + xs.length ∧ pushFronts xs (q, l.map Prod.snd) = .error .bufferFull) ∨
    ∃ q' l', pushFronts xs (q, l.map Prod.snd) = .ok (q', l'.map Prod.snd) ∧ DRep q' l' ∧
      l'.length = l.length + xs.length ∧ q'.sequenceNumber = q.sequenceNumber + xs.length
  | [], q, l, h, _ => Or.inr ⟨q, l, rfl, h, by simp, rfl⟩
  | x :: xs, q, l, h, hs => by
    simp only [List.length_cons] at hs
    by_cases hf : l.length = M
    · refine Or.inl ⟨by simp only [List.length_cons]; omega, ?_⟩
      simp only [pushFronts, (push_full h hM hf x).2]; rfl
    · have := h.le
      obtain ⟨q1, i, e, h1, hs1⟩ := pushFront_spec h hM (by omega) (by omega) x
      have e1 : pushFronts (x :: xs) (q, l.map Prod.snd) = pushFronts xs (q1, ((i, x) :: l).map Prod.snd) := by
        simp [pushFronts, e]
      rw [e1]
      rcases pushFronts_spec hM xs h1 (by omega) with ⟨h2, e2⟩ | ⟨q', l', e2, h2, h3, h4⟩
      · exact Or.inl ⟨by simp at h2 ⊢; omega, e2⟩
      · exact Or.inr ⟨q', l', e2, h2, by simp at h3 ⊢; omega, by simp; omega⟩

/-- a cursor with the elements `m` of the deque still to come -/
def Cur (q : Deque T M) (it : Iter) (m : List (Nat × T)) : Prop :=
  ItRest it (ids m) ∧ ∃ pre post, DRep q (pre ++ m ++ post)

omit [DecidableEq T] in
theorem Cur.iter {q : Deque T M} {l : List (Nat × T)} (h : DRep q l) : Cur q q.iter l :=
  ⟨iter_rest h, [], [], by simpa using h⟩

omit [DecidableEq T] in
theorem Cur.front {q : Deque T M} {it : Iter} {m : List (Nat × T)} (h : Cur q it m) :
    ∃ it', it.nextMut q = .ok (it', m.head?.map Prod.fst) ∧ it.next q = .ok (it', m.head?) ∧ Cur q it' m.tail ∧
      deref q (m.head?.map Prod.fst) = .ok (m.head?.map Prod.snd) := by
  obtain ⟨hi, pre, post, h⟩ := h
  obtain ⟨it', e, hi'⟩ := nextMut_spec h hi
  cases m with
  | nil => exact ⟨it', e, (next_of_nextMut e).1 rfl, ⟨hi', pre, post, h⟩, rfl⟩
  | cons x m =>
    have hx : q.getNode x.1 = .ok x.2 := by
      unfold Deque.getNode
      exact NodeAllocator.getValue_ok _ (h.vals x (by simp))
    refine ⟨it', e, ?_, ⟨hi', pre ++ [x], post, by simpa using h⟩, ?_⟩
    · rw [(next_of_nextMut e).2 x.1 rfl, hx]; rfl
    · simp [deref, hx]

omit [DecidableEq T] in
theorem Cur.back {q : Deque T M} {it : Iter} {m : List (Nat × T)} (h : Cur q it m) :
    ∃ it', it.nextBackMut q = .ok (it', m.getLast?.map Prod.fst) ∧ it.nextBack q = .ok (it', m.getLast?) ∧
      Cur q it' m.dropLast ∧ deref q (m.getLast?.map Prod.fst) = .ok (m.getLast?.map Prod.snd) := by
  obtain ⟨hi, pre, post, h⟩ := h
  obtain ⟨it', e, hi'⟩ := nextBackMut_spec h hi
  rcases List.eq_nil_or_concat m with rfl | ⟨m, x, rfl⟩
  · exact ⟨it', e, (nextBack_of_nextBackMut e).1 rfl, ⟨hi', pre, post, h⟩, rfl⟩
  · simp only [List.concat_eq_append] at *
    have hx : q.getNode x.1 = .ok x.2 := by
      unfold Deque.getNode
      exact NodeAllocator.getValue_ok _ (h.vals x (by simp))
    refine ⟨it', e, ?_, ⟨hi', pre, x :: post, by simpa using h⟩, ?_⟩
    · rw [(nextBack_of_nextBackMut e).2 x.1 (by simp), hx]; simp
    · simp [deref, hx]

theorem zipForward_spec {q : Deque T M} : ∀ {m : List (Nat × T)} {it : Iter}, Cur q it m →
    zipForward q (m.map Prod.snd) it = .ok ()
  | [], it, h => by
    obtain ⟨it', _, e, _⟩ := h.front
    simp [zipForward, e]
  | x :: m, it, h => by
    obtain ⟨it', _, e, h', _⟩ := h.front
    rw [List.map_cons, zipForward, e]
    simp only [except_bind_ok, List.head?_cons, check, decide_true, if_true]
    exact zipForward_spec h'

theorem zipBackward_spec {q : Deque T M} : ∀ {r : List (Nat × T)} {it : Iter}, Cur q it r.reverse →
    zipBackward q (r.map Prod.snd) it = .ok ()
  | [], it, h => by
    obtain ⟨it', _, e, _⟩ := h.back
    simp [zipBackward, e]
  | x :: r, it, h => by
    obtain ⟨it', _, e, h', _⟩ := h.back
    rw [List.map_cons, zipBackward, e]
    simp only [except_bind_ok, List.reverse_cons, List.getLast?_append, List.getLast?_singleton, Option.some_or,
      check, decide_true, if_true]
    refine zipBackward_spec ?_
    simpa using h'

theorem steps_spec {q : Deque T M} : ∀ (n : Nat) {m : List (Nat × T)} {it : Iter}, Cur q it m →
    (∃ it', stepsForward q n (it, m.map Prod.snd) = .ok (it', (m.drop n).map Prod.snd) ∧
      stepsForwardMut q n (it, m.map Prod.snd) = .ok (it', (m.drop n).map Prod.snd) ∧ Cur q it' (m.drop n)) ∧
    (∃ it', stepsBackward q n (it, m.map Prod.snd) = .ok (it', (m.take (m.length - n)).map Prod.snd) ∧
      stepsBackwardMut q n (it, m.map Prod.snd) = .ok (it', (m.take (m.length - n)).map Prod.snd) ∧
      Cur q it' (m.take (m.length - n)))
  | 0, m, it, h => ⟨⟨it, rfl, rfl, h⟩, ⟨it, by simp [stepsBackward], by simp [stepsBackwardMut], by simpa using h⟩⟩
  | n + 1, m, it, h => by
    constructor
    · obtain ⟨it1, e1, e2, h1, e3⟩ := h.front
      obtain ⟨⟨it', g1, g2, h2⟩, _⟩ := steps_spec n h1
      have hd : m.tail.drop n = m.drop (n + 1) := by cases m <;> simp
      have ht : (m.map Prod.snd).tail = m.tail.map Prod.snd := by cases m <;> rfl
      rw [hd] at g1 g2 h2
      refine ⟨it', ?_, ?_, h2⟩
      · rw [stepsForward, e2]; simpa [-List.map_drop, -List.map_tail, check, ht] using g1
      · rw [stepsForwardMut, e1]; simpa [-List.map_drop, -List.map_tail, check, ht, e3] using g2
    · obtain ⟨it1, e1, e2, h1, e3⟩ := h.back
      obtain ⟨_, it', g1, g2, h2⟩ := steps_spec n h1
      have hd : m.dropLast.take (m.dropLast.length - n) = m.take (m.length - (n + 1)) := by
        rw [List.dropLast_eq_take, List.take_take]
        congr 1
        simp; omega
      have ht : (m.map Prod.snd).dropLast = m.dropLast.map Prod.snd := List.map_dropLast.symm
      rw [hd] at g1 g2 h2
      refine ⟨it', ?_, ?_, h2⟩
      · rw [stepsBackward, e2]; simpa [-List.map_take, -List.map_dropLast, check, ht] using g1
      · rw [stepsBackwardMut, e1]; simpa [-List.map_take, -List.map_dropLast, check, ht, e3] using g2

omit [DecidableEq T] in
theorem ends_spec {q : Deque T M} {it : Iter} (h : Cur q it []) :
    (∃ it', endsForGood q it [] = .ok it' ∧ Cur q it' []) ∧ ∃ it', endsForGoodMut q it [] = .ok it' ∧ Cur q it' [] := by
  obtain ⟨it1, e1, e2, h1, _⟩ := h.front
  obtain ⟨it2, e3, e4, h2, _⟩ := Cur.back h1
  refine ⟨⟨it2, ?_, h2⟩, it2, ?_, h2⟩
  · simp only [List.tail_nil, List.head?_nil, List.getLast?_nil] at e2 e4
    simp [endsForGood, e2, e4, check]
  · simp only [List.tail_nil, List.head?_nil, List.getLast?_nil, Option.map_none] at e1 e3
    simp [endsForGoodMut, e1, e3, check]

theorem meet_spec {q : Deque T M} {l : List (Nat × T)} (h : DRep q l) (b : Nat) {n : Nat} (hn : n = l.length) :
    meet q (l.map Prod.snd) b n = .ok () ∧ meetMut q (l.map Prod.snd) b n = .ok () := by
  obtain ⟨⟨it1, e1, e2, h1⟩, _⟩ := steps_spec b (Cur.iter h)
  obtain ⟨_, it2, e3, e4, h2⟩ := steps_spec (n - b) h1
  have h0 : (l.drop b).take ((l.drop b).length - (n - b)) = [] := by
    subst hn; simp
  rw [h0] at e3 e4 h2
  obtain ⟨⟨it3, e5, h3⟩, it3', e5', h3'⟩ := ends_spec h2
  obtain ⟨⟨it4, e6, _⟩, _⟩ := ends_spec h3
  obtain ⟨_, it4', e6', _⟩ := ends_spec h3'
  simp only [List.map_nil] at e3 e4
  constructor
  · rw [meet, e1]; simp [-List.map_drop, e3, e5, e6]
  · rw [meetMut, e2]; simp [-List.map_drop, e4, e5', e6']

theorem pops_spec : ∀ (n : Nat) {q : Deque T M} {l : List (Nat × T)}, DRep q l → n = l.length →
    q.sequenceNumber + n < 2 ^ 64 →
    (∃ q', popBacks n (q, l.map Prod.snd) = .ok (q', []) ∧ DRep q' [] ∧ q'.sequenceNumber = q.sequenceNumber + n) ∧
    ∃ q', popFronts n (q, l.map Prod.snd) = .ok (q', []) ∧ DRep q' [] ∧ q'.sequenceNumber = q.sequenceNumber + n
  | 0, q, l, h, hn, _ => by
    have := List.eq_nil_of_length_eq_zero hn.symm
    subst this
    exact ⟨⟨q, rfl, h, rfl⟩, q, rfl, h, rfl⟩
  | n + 1, q, l, h, hn, hs => by
    have hne : l ≠ [] := by rintro rfl; simp at hn
    constructor
    · obtain ⟨q1, e, h1, _, hs1⟩ := popBack_spec h (by omega)
      rw [if_neg hne] at hs1
      obtain ⟨⟨q', e', h', hs'⟩, _⟩ := pops_spec n h1 (by simp; omega) (by omega)
      have ht : (l.map Prod.snd).dropLast = l.dropLast.map Prod.snd := List.map_dropLast.symm
      exact ⟨q', by rw [popBacks, e]; simpa [-List.map_dropLast, check, ht] using e', h', by omega⟩
    · obtain ⟨q1, e, h1, _, hs1⟩ := popFront_spec h (by omega)
      rw [if_neg hne] at hs1
      obtain ⟨_, q', e', h', hs'⟩ := pops_spec n h1 (by simp; omega) (by omega)
      have ht : (l.map Prod.snd).tail = l.tail.map Prod.snd := by cases l <;> rfl
      exact ⟨q', by rw [popFronts, e]; simpa [-List.map_tail, check, ht] using e', h', by omega⟩

theorem testDeque_spec (hM : M + 1 < 2 ^ 32) (z : T) (b1 f1 b2 f2 : List T) (hlen : b1.length + f1.length + b2.length + f2.length < 2 ^ 63)
    (break1 break2 : Nat) : testDeque (Deque.new z : Deque T M) b1 f1 b2 f2 break1 break2 =
      if b1.length + f1.length ≤ M ∧ b2.length + f2.length ≤ M then .ok () else .error .bufferFull := by
  have h0 := new_DRep (M := M) z
  have hs0 : (Deque.new z : Deque T M).sequenceNumber = 0 := rfl
  unfold testDeque
  rcases pushBacks_spec hM b1 h0 (by omega) with ⟨g, e⟩ | ⟨q1, l1, e1, h1, k1, s1⟩
  · rw [if_neg (by simp at g; omega)]; rw [List.map_nil] at e; rw [e]; rfl
  rw [List.map_nil] at e1
  rw [e1]
  have k1' := congrArg List.length k1
  simp at k1'
  simp only [except_bind_ok]
  rcases pushFronts_spec hM f1 h1 (by omega) with ⟨g, e⟩ | ⟨q2, l2, e2, h2, k2, s2⟩
  · rw [if_neg (by omega), e]; rfl
  rw [e2]
  simp only [except_bind_ok]
  have hle := h2.le
  obtain ⟨⟨q3, e3, h3, s3⟩, _⟩ := pops_spec (b1.length + f1.length) h2 (by omega) (by omega)
  rw [zipForward_spec (Cur.iter h2), ← List.map_reverse, zipBackward_spec (by simpa using Cur.iter h2),
    (meet_spec h2 break1 (by omega)).1, (meet_spec h2 break2 (by omega)).2, e3]
  have hem : q3.isEmpty = true := by simp [Deque.isEmpty, h3.len]
  simp only [except_bind_ok, hem, List.isEmpty_nil, Bool.and_self, check, if_true]
  rcases pushBacks_spec hM b2 h3 (by omega) with ⟨g, e⟩ | ⟨q4, l4, e4, h4, k4, s4⟩
  · rw [if_neg (by simp at g; omega)]; rw [List.map_nil] at e; rw [e]; rfl
  rw [List.map_nil] at e4
  rw [e4]
  have k4' := congrArg List.length k4
  simp at k4'
  simp only [except_bind_ok]
  rcases pushFronts_spec hM f2 h4 (by omega) with ⟨g, e⟩ | ⟨q5, l5, e5, h5, k5, s5⟩
  · rw [if_neg (by omega), e]; rfl
  rw [e5]
  simp only [except_bind_ok]
  have hle := h5.le
  obtain ⟨_, q6, e6, h6, s6⟩ := pops_spec (b2.length + f2.length) h5 (by omega) (by omega)
  rw [zipForward_spec (Cur.iter h5), ← List.map_reverse, zipBackward_spec (by simpa using Cur.iter h5), e6]
  have hem : q6.isEmpty = true := by simp [Deque.isEmpty, h6.len]
  rw [if_pos ⟨by omega, by omega⟩]
  simp [hem]

end Deque

end Sokoban.UnitTests
