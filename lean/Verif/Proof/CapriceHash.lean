import Verif.Proof.CapriceBase
import Verif.Proof.AnyOrder
import Verif.Proof.HashTableHist

/-
The hash table when hashing and `==` of the keys panic or answer as they like.
-/
namespace Sokoban.HashTable
open NodeAllocator MapSpec HashTableSpec Caprice
variable {K V : Type} {B M : Nat} {hash : K → Nat} {h : HashTable K V B M} {c : Nat → List (Ent K V)}

/-- the table holds the entries `E` in the order of iteration; nothing about keys and buckets -/
def Held (h : HashTable K V B M) (E : List (Ent K V)) : Prop :=
  ∃ c, HHeld (kn := .nothing) False (fun _ => 0) h c ∧ E = all B c

/-- without homes, the hash function does not matter -/
theorem HHeld.anyHash {kn : Known} (H : HHeld (kn := kn) False hash h c) (hash' : K → Nat)
    (hL : kn.lost = [] := by first | rfl | (cases ‹Option Nat› <;> rfl)) :
    HHeld (kn := .nothing) False hash' h c := by
  have hc := H.clean
  obtain ⟨free, hf⟩ := H.inv
  rw [hL] at hc hf
  exact @HHeld.mk _ _ _ _ .nothing _ _ _ _ H.pos
    ⟨free, Known.nothing_ok _, hf⟩ hc H.seg H.head H.vals False.elim fun _ h => nomatch h

theorem HHeld.held {kn : Known} (H : HHeld (kn := kn) False hash h c)
    (hL : kn.lost = [] := by first | rfl | (cases ‹Option Nat› <;> rfl)) : Held h (all B c) := ⟨c, H.anyHash _ hL, rfl⟩

/-- what a search in a bucket may come to -/
theorem hashFindLoop_held (eq : Nat → K → K → Option Bool) (k : K) :
    ∀ (l : List (Ent K V)) (p fuel n : Nat), DSeg h.allocator.reg p (ids l) 0 → l.length < fuel →
      (∀ e ∈ l, h.allocator.val? e.1 = some ⟨e.2.1, e.2.2⟩) →
      hashFindLoop eq k fuel n ((ids l).headD 0) h = .error .user h ∨
      hashFindLoop eq k fuel n ((ids l).headD 0) h = .ok 0 h ∨
      ∃ l1 i k' w l2, l = l1 ++ (i, k', w) :: l2 ∧ (∃ n, eq n k' k = some true) ∧
        hashFindLoop eq k fuel n ((ids l).headD 0) h = .ok i h
  | [], p, fuel + 1, n, _, _, _ => by
    refine Or.inr (Or.inl ?_)
    unfold hashFindLoop
    simp [SENTINEL, pure_at]
  | e :: l, p, fuel + 1, n, hs, hf, hv => by
    have hr := h.allocator.val?_range (hv e (by simp))
    obtain ⟨_, hn, hs'⟩ := hs
    have ih := hashFindLoop_held eq k l e.1 fuel (n + 1) hs' (by simpa using hf) (fun e' he' => hv e' (by simp [he']))
    have h0 : ¬ e.1 = SENTINEL := by simp only [SENTINEL]; omega
    rw [show (ids (e :: l)).headD 0 = e.1 from rfl]
    unfold hashFindLoop
    simp only [if_neg h0, look_bind, ask_bind, getNode, getValue_ok _ (hv e (by simp))]
    cases hc : eq n e.2.1 k with
    | none => exact Or.inl rfl
    | some d =>
      cases d with
      | true =>
        obtain ⟨i, k', w⟩ := e
        exact Or.inr (Or.inr ⟨[], i, k', w, l, rfl, ⟨n, hc⟩, rfl⟩)
      | false =>
        simp only [Bool.false_eq_true, if_false, look_bind]
        simp only [getNext, RIGHT, getRegister_ok _ hr.2 (by omega : 1 < 4)]
        rw [show h.allocator.reg e.1 1 = (ids l).headD 0 from hn]
        rcases ih with ih | ih | ⟨l1, i, k', w, l2, rfl, hk, ih⟩
        · exact Or.inl ih
        · exact Or.inr (Or.inl ih)
        · exact Or.inr (Or.inr ⟨e :: l1, i, k', w, l2, rfl, hk, ih⟩)

/-- what the hashing and the search may come to -/
theorem hashFind_held (H : HHeld False hash h c) (o : Eqs K) (k : K) :
    hashFind o.hash o.eq k h = .error .user h ∨
    ∃ hv b, b = hv % B ∧ b < B ∧
      (hashFind o.hash o.eq k h = .ok (b, (ids (c b)).headD 0, 0) h ∨
      ∃ l1 i k' w l2, c b = l1 ++ (i, k', w) :: l2 ∧ (∃ n, o.eq n k' k = some true) ∧
        hashFind o.hash o.eq k h = .ok (b, (ids (c b)).headD 0, i) h) := by
  unfold hashFind
  simp only [ask_bind]
  cases o.hash with
  | none => exact Or.inl rfl
  | some hv =>
    have hb : hv % B < B := Nat.mod_lt _ H.pos
    simp only [look_bind, bucketIndex_ok H.pos, bucket_ok H hb]
    rw [bind_at]
    rcases hashFindLoop_held o.eq k (c (hv % B)) 0 (M + 1) 0 (H.seg _ hb) (by have := H.bucket_le hb; omega)
      (H.vals _ hb) with e | e | ⟨l1, i, k', w, l2, hc, hk, e⟩
    · exact Or.inl (by rw [e])
    · exact Or.inr ⟨hv, _, rfl, hb, Or.inl (by rw [e]; rfl)⟩
    · exact Or.inr ⟨hv, _, rfl, hb, Or.inr ⟨l1, i, k', w, l2, hc, hk, by rw [e]; rfl⟩⟩

/-- the rest of an insertion that found no entry -/
theorem insertAt_eq [BEq K] (H : HHeld False hash h c) (k : K) (v : V) (hv : ∀ k', (k' == k) = false) :
    hashInsertAt k v (hash k % B) ((ids (c (hash k % B))).headD 0) 0 h = h.insert hash k v := by
  have hb : hash k % B < B := Nat.mod_lt _ H.pos
  have hfind := find_ok H k
  rw [show (c (hash k % B)).find? (fun e => e.2.1 == k) = none from
    List.find?_eq_none.2 fun e _ => by simp [hv]] at hfind
  unfold insert
  simp only [bucketIndex_ok H.pos, except_bind_ok, bucket_ok H hb, hfind, Option.map_none, Option.getD_none]
  rfl

/-- one call -/
theorem hashCall_held (hM : M + 1 < 2 ^ 32) (h : HashTable K V B M) (E : List (Ent K V)) (cl : Op K V × Eqs K)
    (hh : Held h E) : ∃ h' r E', hashCall h cl = .ok (h', r) ∧ Held h' E' ∧
      HashStep M (E.map Prod.snd) cl r (E'.map Prod.snd) := by
  obtain ⟨op, o⟩ := cl
  have quit : hashDo o op h = .error .user h → ∃ h' r E', hashCall h (op, o) = .ok (h', r) ∧ Held h' E' ∧
      HashStep M (E.map Prod.snd) (op, o) r (E'.map Prod.snd) := by
    intro e
    refine ⟨h, none, E, ?_, hh, rfl⟩
    simp only [hashCall, caught, e]
  have done : ∀ {h' r E'}, hashDo o op h = .ok r h' → Held h' E' →
      HashDoes (fun k k' => ∃ n, o.eq n k' k = some true) M (E.map Prod.snd) op r (E'.map Prod.snd) →
      ∃ h' r E', hashCall h (op, o) = .ok (h', r) ∧ Held h' E' ∧
      HashStep M (E.map Prod.snd) (op, o) r (E'.map Prod.snd) := by
    intro h' r E' e h' hs
    refine ⟨_, some r, E', ?_, h', hs⟩
    simp only [hashCall, caught, e]
  obtain ⟨c, H, rfl⟩ := hh
  match op with
  | .insert k v =>
    rcases hashFind_held H o k with e | ⟨hv, b, hbe, hb, e | ⟨l1, i, k', w, l2, hc, hk, e⟩⟩
    · exact quit (by simp only [hashDo, hashInsert, bind_at, e])
    · let _ : BEq K := ⟨fun _ _ => false⟩
      obtain ⟨A, C, e1, e2⟩ := all_split c hb
      have H1 := H.anyHash (fun _ => hv)
      have heq := insertAt_eq H1 k v (fun _ => rfl)
      rw [← hbe] at heq
      have hfn : ∀ l : List (Ent K V), l.find? (fun e => e.2.1 == k) = none :=
        fun l => List.find?_eq_none.2 fun e _ => by simp
      by_cases hlt : (all B c).length < M
      · obtain ⟨h', i, ei, H'⟩ := insert_new_held H1 hM v hlt (k := k) (hfn _)
        rw [← hbe] at H'
        refine done (r := .inserted true) (h' := h') ?_ H'.held (Or.inr (Or.inl ⟨by simpa using hlt,
          A.map Prod.snd, (c b ++ C).map Prod.snd, ?_, ?_, rfl⟩))
        · simp only [hashDo, hashInsert, bind_at, e, ran_ok (heq.trans ei)]; rfl
        · rw [e1]; simp
        · rw [e2]; simp
      · have ei := insert_full_held H1 (k := k) v (by omega) (hfn _)
        refine done (r := .inserted false) (h' := h) ?_ H.held (Or.inr (Or.inr ⟨?_, rfl, rfl⟩))
        · simp only [hashDo, hashInsert, bind_at, e, ran_ok (heq.trans ei)]; rfl
        · have := H.le
          rw [List.length_map]; omega
    · obtain ⟨A, C, e1, e2⟩ := all_split c hb
      obtain ⟨h', ei, H'⟩ := setNodeValue_held H hb hc v
      have hi := H.range hb (i := i) (by rw [hc]; simp)
      have e3 : hashInsertAt k v b ((ids (c b)).headD 0) i h = .ok (h', some i) := by
        unfold hashInsertAt
        rw [if_pos (show i ≠ SENTINEL by simp only [SENTINEL]; omega), ei]; rfl
      refine done (r := .inserted true) (h' := h') ?_ H'.held (Or.inl ⟨(A ++ l1).map Prod.snd, k', w,
        (l2 ++ C).map Prod.snd, hk, ?_, ?_, rfl⟩)
      · simp only [hashDo, hashInsert, bind_at, e, ran_ok e3]; rfl
      · rw [e1, hc]; simp
      · rw [e2]; simp
  | .remove k =>
    rcases hashFind_held H o k with e | ⟨hv, b, hbe, hb, e | ⟨l1, i, k', w, l2, hc, hk, e⟩⟩
    · exact quit (by simp only [hashDo, hashRemove, bind_at, e])
    · have e3 : hashRemoveAt b ((ids (c b)).headD 0) 0 h = .ok (h, none) := rfl
      refine done (r := .removed none) (h' := h) ?_ H.held (Or.inr ⟨rfl, rfl⟩)
      simp only [hashDo, hashRemove, bind_at, e, ran_ok e3]; rfl
    · obtain ⟨A, C, e1, e2⟩ := all_split c hb
      obtain ⟨h', e3, H'⟩ := removeAt_held H hb hc
      refine done (r := .removed (some w)) (h' := h') ?_ H'.held (Or.inl ⟨(A ++ l1).map Prod.snd, k', w,
        (l2 ++ C).map Prod.snd, hk, ?_, ?_, rfl⟩)
      · simp only [hashDo, hashRemove, bind_at, e, ran_ok e3]; rfl
      · rw [e1, hc]; simp
      · rw [e2]; simp
  | .getMut k f =>
    rcases hashFind_held H o k with e | ⟨hv, b, hbe, hb, e | ⟨l1, i, k', w, l2, hc, hk, e⟩⟩
    · exact quit (by simp only [hashDo, hashGetMut, bind_at, e])
    · refine done (r := .got none) (h' := h) ?_ H.held (Or.inr ⟨rfl, rfl⟩)
      simp only [hashDo, hashGetMut, bind_at, e]; rfl
    · obtain ⟨A, C, e1, e2⟩ := all_split c hb
      obtain ⟨h1, e3, H1⟩ := getMutAt_held H hb hc
      have hc1 : updB c b ((i, k', w) :: (l1 ++ l2)) b = [] ++ (i, k', w) :: (l1 ++ l2) := by simp [updB]
      obtain ⟨h', e4, H'⟩ := setNodeValue_held H1 hb hc1 (f w)
      have hv := H1.vals b hb (i, k', w) (by rw [hc1]; simp)
      have e5 : (do
          let (h, s) ← hashGetMutAt b ((ids (c b)).headD 0) i h
          match s with
          | none => return (h, none)
          | some i => do
            let n ← h.getNode i
            return (← h.setNodeValue i (f n.value), some n.value)) = .ok (h', some w) := by
        rw [e3, except_bind_ok]
        simp only [getNode, getValue_ok _ hv, except_bind_ok, e4]; rfl
      refine done (r := .got (some w)) (h' := h') ?_ H'.held (Or.inl ⟨A.map Prod.snd, l1.map Prod.snd, k', w,
        (l2 ++ C).map Prod.snd, hk, ?_, ?_, rfl⟩)
      · simp only [hashDo, hashGetMut, bind_at, e]
        rw [ran_ok (s' := h') (x := some w) (by exact e5)]
        rfl
      · rw [e1, hc]; simp
      · obtain ⟨A', C', e1', e2'⟩ := all_split (updB c b ((i, k', w) :: (l1 ++ l2))) hb
        have : updB (updB c b ((i, k', w) :: (l1 ++ l2))) b ([] ++ (i, k', f w) :: (l1 ++ l2)) =
            updB c b ((i, k', f w) :: (l1 ++ l2)) := by
          funext x; simp only [updB]; split <;> simp
        rw [this, e2]; simp
  | .iterMut es =>
    obtain ⟨h', c', it', e, H', hn, hall⟩ := iterMut_held H es
    have hmap := consumeMutFwd_map (Prod.snd : Ent K V → K × V)
      (fun f => updE (MapSpec.upd f)) (fun f => MapSpec.upd f) (fun _ _ => rfl) es (all B c)
    rw [← hall] at hmap
    have hsc : (es.map fun e => (e.1, MapSpec.upd e.2)) = script es := rfl
    rw [hsc] at hmap
    let _ : BEq K := ⟨fun _ _ => false⟩
    have e3 : HashTableSpec.call (fun _ => 0) h (.iterMut es) =
        .ok (h', .seen (consumeMutFwd ((all B c).map Prod.snd) (script es)).1) := by
      simp only [HashTableSpec.call, e, except_bind_ok, hmap.1]; rfl
    exact done (ran_ok (f := fun h => HashTableSpec.call (fun _ => 0) h (.iterMut es)) e3) H'.held
      ⟨rfl, hmap.2.symm⟩

theorem hashRun_held (hB : 0 < B) (hM : M + 1 < 2 ^ 32) (z : HashNode K V) (cs : List (Op K V × Eqs K)) :
    ∃ h rs E, run hashCall (new z : HashTable K V B M) cs = .ok (h, rs) ∧ Held h E ∧
      Trace (HashStep M) [] cs rs (E.map Prod.snd) := by
  have h0 : Held (new z : HashTable K V B M) [] := by
    have := (new_HHeld (st := False) hB (fun _ => 0) z : HHeld False _ (new z : HashTable K V B M) _).held
    have e : (all B fun _ => ([] : List (Ent K V))) = [] := by simp
    rwa [e] at this
  obtain ⟨s, os, E, e, h, ht⟩ := run_seq (hashCall_held hM) cs (new z) [] h0
  exact ⟨s, os, E, e, h, ht⟩

end Sokoban.HashTable
