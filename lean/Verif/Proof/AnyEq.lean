import Verif.Spec.Poke
import Verif.Proof.HashTableHist

/-
Proof that the chains of a hash table are the rows of the specification `AnyEq`, for any equality of keys.
-/
namespace Sokoban.HashTable
open NodeAllocator MapSpec HashTableSpec AnyEq
variable {K V : Type} {B M : Nat} [BEq K] {st : Prop} {hash : K → Nat} {h : HashTable K V B M}
  {c : Nat → List (Ent K V)}

/-- the rows of the chains -/
abbrev rowsOf (B : Nat) (c : Nat → List (Ent K V)) : List (List (K × V)) := (List.range B).map fun b => kvs (c b)

omit [BEq K] in
theorem rowsOf_length : (rowsOf B c).length = B := by simp

omit [BEq K] in
theorem rowsOf_flatten : (rowsOf B c).flatten = kvs (all B c) := by
  simp only [rowsOf, all, kvs, List.flatMap_def, List.map_flatten, List.map_map]; rfl

omit [BEq K] in
theorem rowsOf_set {b : Nat} {l : List (Ent K V)} : (rowsOf B c).set b (kvs l) = rowsOf B (updB c b l) := by
  apply List.ext_getElem
  · simp
  · intro i h1 h2
    simp only [rowsOf, List.getElem_set, List.getElem_map, List.getElem_range, updB]
    by_cases hb : b = i
    · subst hb; simp
    · rw [if_neg hb, if_neg (Ne.symm hb)]

omit [BEq K] in
theorem row_rowsOf (hB : 0 < B) (k : K) : row hash (rowsOf B c) k = kvs (c (hash k % B)) := by
  unfold row
  rw [rowsOf_length]
  have : hash k % B < B := Nat.mod_lt _ hB
  simp [rowsOf, List.getD, this]

theorem found_rowsOf (hB : 0 < B) (k : K) :
    found hash (rowsOf B c) k = ((c (hash k % B)).find? fun e => e.2.1 == k).map Prod.snd := by
  unfold found
  rw [row_rowsOf hB, kvs, List.find?_map]
  rfl

theorem overwrite_append {l1 : List (Ent K V)} {k k' : K} {v w : V} {l2 : List (K × V)} (h1 : ∀ e ∈ l1, (e.2.1 == k) = false)
    (hk : (k' == k) = true) : overwrite k v (kvs l1 ++ (k', w) :: l2) = kvs l1 ++ (k', v) :: l2 := by
  induction l1 with
  | nil => simp [overwrite, hk]
  | cons e l1 ih =>
    simp only [kvs, List.map_cons, List.cons_append, overwrite]
    rw [if_neg (by simp [h1 e (by simp)])]
    congr 1
    exact ih fun e he => h1 e (by simp [he])

theorem eraseP_kvs {l1 : List (Ent K V)} {k k' : K} {w : V} {l2 : List (K × V)} (h1 : ∀ e ∈ l1, (e.2.1 == k) = false)
    (hk : (k' == k) = true) : (kvs l1 ++ (k', w) :: l2).eraseP (fun e => e.1 == k) = kvs l1 ++ l2 := by
  rw [List.eraseP_append_right, List.eraseP_cons_of_pos (by exact hk)]
  intro e he
  obtain ⟨x, hx, rfl⟩ := List.mem_map.1 he
  simp [h1 x hx]

omit [BEq K] in
theorem cut_flatten {α : Type} : ∀ (T : List (List α)), cut (T.map List.length) T.flatten = T
  | [] => rfl
  | l :: T => by simp [cut, cut_flatten T]

/-- lookups -/
theorem lookup_held (H : HHeld st hash h c) (k : K) :
    h.get hash k = .ok ((found hash (rowsOf B c) k).map Prod.snd) ∧
    h.containsInherent hash k = .ok (found hash (rowsOf B c) k).isSome ∧
    ∃ i, h.getAddr hash k = .ok i ∧
      match found hash (rowsOf B c) k with
      | none => i = 0
      | some e => 1 ≤ i ∧ i ≤ M ∧ h.getNode i = .ok ⟨e.1, e.2⟩ := by
  have hb : hash k % B < B := Nat.mod_lt _ H.pos
  have hfind := find_ok H k
  rw [found_rowsOf H.pos]
  rcases find_held H k with ⟨hf, hk⟩ | ⟨l1, i, k', v, l2, hc, hi1, hi2, hk, _, hf⟩
  · rw [hf] at hfind ⊢
    refine ⟨?_, ?_, 0, ?_, rfl⟩
    · unfold get
      simp only [bucketIndex_ok H.pos, bucket_ok H hb, except_bind_ok, hfind]
      simp [SENTINEL]
    · unfold containsInherent
      simp only [bucketIndex_ok H.pos, bucket_ok H hb, except_bind_ok, hfind]
      simp [SENTINEL]
    · unfold getAddr
      simp only [bucketIndex_ok H.pos, bucket_ok H hb, except_bind_ok, hfind]; rfl
  · rw [hf] at hfind ⊢
    simp only [Option.map_some, Option.getD_some] at hfind
    have hv := H.vals _ hb (i, k', v) (by rw [hc]; simp)
    have hi0 : i ≠ 0 := by omega
    refine ⟨?_, ?_, i, ?_, hi1, hi2, ?_⟩
    · unfold get
      simp only [bucketIndex_ok H.pos, bucket_ok H hb, except_bind_ok, hfind, SENTINEL, hi0, if_false,
        getNode, getValue_ok _ hv]; rfl
    · unfold containsInherent
      simp only [bucketIndex_ok H.pos, bucket_ok H hb, except_bind_ok, hfind]
      simp [SENTINEL, hi0]
    · unfold getAddr
      simp only [bucketIndex_ok H.pos, bucket_ok H hb, except_bind_ok, hfind]
    · unfold getNode; rw [getValue_ok _ hv]

omit [BEq K] in
theorem kept_refl (op : Op K V) (E : List (Ent K V)) : Poke.Kept op E E := fun e he => Or.inl ⟨e.2.2, he⟩

omit [BEq K] in
theorem kept_updB {op : Op K V} {b : Nat} (hb : b < B) {l : List (Ent K V)}
    (hl : ∀ e ∈ l, (∃ v, (e.1, e.2.1, v) ∈ c b) ∨ (e.1 ∉ ids (all B c) ∧ op = .insert e.2.1 e.2.2)) :
    Poke.Kept op (all B c) (all B (updB c b l)) := by
  intro e he
  obtain ⟨b', hb', he⟩ := mem_all.1 he
  unfold updB at he
  split at he
  · rcases hl e he with ⟨v, hv⟩ | h
    · exact Or.inl ⟨v, mem_all.2 ⟨b, hb, hv⟩⟩
    · exact Or.inr h
  · exact Or.inl ⟨e.2.2, mem_all.2 ⟨b', hb', he⟩⟩

/-- one call, with addresses -/
theorem call_at (hM : M + 1 < 2 ^ 32) (H : HHeld st hash h c) (op : Op K V) :
    ∃ h' c', call hash h op = .ok (h', (step hash M (rowsOf B c) op).2) ∧ HHeld st hash h' c' ∧
      rowsOf B c' = (step hash M (rowsOf B c) op).1 ∧ Poke.Kept op (all B c) (all B c') := by
  have hlen : (rowsOf B c).flatten.length = (all B c).length := by rw [rowsOf_flatten]; simp only [kvs, List.length_map]
  have hle := H.le
  cases op with
  | insert k v =>
    simp only [step, found_rowsOf H.pos, row_rowsOf H.pos, rowsOf_length, hlen]
    rcases find_held H k with ⟨hf, hk⟩ | ⟨l1, i, k', v0, l2, hc, hi1, hi2, hk, h1, hf⟩
    · simp only [hf, Option.map_none]
      by_cases hlt : (all B c).length < M
      · obtain ⟨h', i, e, H'⟩ := insert_new_held H hM v hlt hf
        simp only [if_pos hlt]
        have hb : hash k % B < B := Nat.mod_lt _ H.pos
        refine ⟨h', _, by simp only [call, e]; rfl, H', by rw [← rowsOf_set]; rfl, kept_updB hb fun x hx => ?_⟩
        rcases List.mem_cons.1 hx with rfl | hx
        · refine Or.inr ⟨?_, rfl⟩
          have hn := H'.nodup_all
          obtain ⟨A, C, e1, e2⟩ := all_split c hb
          rw [e2] at hn
          rw [e1]
          simp only [ids, List.map_append, List.map_cons, List.append_assoc, List.cons_append] at hn ⊢
          exact (List.nodup_cons.1 (List.perm_middle.nodup_iff.1 hn)).1
        · exact Or.inl ⟨_, hx⟩
      · simp only [if_neg hlt]
        exact ⟨h, c, by simp only [call, insert_full_held H v (by omega) hf]; rfl, H, rfl, kept_refl _ _⟩
    · simp only [hf, Option.map_some]
      obtain ⟨h', e, H'⟩ := insert_old_held H v hc hf
      refine ⟨h', _, by simp only [call, e]; rfl, H', ?_, kept_updB (Nat.mod_lt _ H.pos) fun x hx => Or.inl ?_⟩
      · rw [← rowsOf_set, hc]
        simp only [kvs, List.map_append, List.map_cons]
        rw [overwrite_append h1 hk]
      · rw [hc]
        rcases List.mem_append.1 hx with hx | hx
        · exact ⟨x.2.2, List.mem_append_left _ hx⟩
        · rcases List.mem_cons.1 hx with rfl | hx
          · exact ⟨v0, by simp⟩
          · exact ⟨x.2.2, by simp [hx]⟩
  | remove k =>
    simp only [step, found_rowsOf H.pos, row_rowsOf H.pos, rowsOf_length]
    rcases find_held H k with ⟨hf, hk⟩ | ⟨l1, i, k', v0, l2, hc, hi1, hi2, hk, h1, hf⟩
    · refine ⟨h, c, by simp only [call, remove_none_held H hf]; rw [hf]; rfl, H, ?_, kept_refl _ _⟩
      rw [List.eraseP_of_forall_not, rowsOf_set]
      · congr 1
        funext b
        by_cases hb : b = hash k % B
        · subst hb; simp [updB]
        · simp [updB, hb]
      · intro e he
        obtain ⟨x, hx, rfl⟩ := List.mem_map.1 he
        simp [hk x hx]
    · obtain ⟨h', e, H'⟩ := remove_old_held H hc hf
      refine ⟨h', _, by simp only [call, e, hf]; rfl, H', ?_, kept_updB (Nat.mod_lt _ H.pos) fun x hx => Or.inl ?_⟩
      · rw [← rowsOf_set, hc]
        simp only [kvs, List.map_append, List.map_cons]
        rw [eraseP_kvs h1 hk]
      · rw [hc]
        refine ⟨x.2.2, ?_⟩
        rcases List.mem_append.1 hx with hx | hx <;> simp [hx]
  | getMut k f =>
    simp only [step, found_rowsOf H.pos, row_rowsOf H.pos, rowsOf_length]
    rcases find_held H k with ⟨hf, hk⟩ | ⟨l1, i, k', v0, l2, hc, hi1, hi2, hk, h1, hf⟩
    · simp only [hf, Option.map_none]
      exact ⟨h, c, by simp only [call, getMutWrite, getMut_none_held H hf]; rfl, H, rfl, kept_refl _ _⟩
    · simp only [hf, Option.map_some]
      obtain ⟨h1', e, H1⟩ := getMut_old_held H hc hf
      have hb : hash k % B < B := Nat.mod_lt _ H.pos
      have hc1 : updB c (hash k % B) ((i, k', v0) :: (l1 ++ l2)) (hash k % B) = [] ++ (i, k', v0) :: (l1 ++ l2) := by
        simp [updB]
      obtain ⟨h2, e2, H2⟩ := setNodeValue_held H1 hb hc1 (f v0)
      have hv := H1.vals _ hb (i, k', v0) (by rw [hc1]; simp)
      refine ⟨h2, _, ?_, H2, ?_, ?_⟩
      · simp only [call, getMutWrite, e, except_bind_ok, getNode, getValue_ok _ hv, e2]; rfl
      · rw [← rowsOf_set, ← rowsOf_set, hc, List.set_set]
        simp only [kvs, List.map_append, List.map_cons, List.nil_append]
        rw [eraseP_kvs h1 hk]
      · have hu : updB (updB c (hash k % B) ((i, k', v0) :: (l1 ++ l2))) (hash k % B) ([] ++ (i, k', f v0) :: (l1 ++ l2)) =
            updB c (hash k % B) ((i, k', f v0) :: (l1 ++ l2)) := by
          funext b; unfold updB; split <;> simp
        rw [hu]
        refine kept_updB hb fun x hx => Or.inl ?_
        rw [hc]
        rcases List.mem_cons.1 hx with rfl | hx
        · exact ⟨v0, by simp⟩
        · refine ⟨x.2.2, ?_⟩
          rcases List.mem_append.1 hx with hx | hx <;> simp [hx]
  | iterMut es =>
    obtain ⟨h', c', it', e, H', hn, hall⟩ := iterMut_held H es
    have hmap := consumeMutFwd_map (Prod.snd : Ent K V → K × V)
      (fun f => updE (MapSpec.upd f)) (fun f => MapSpec.upd f) (fun _ _ => rfl) es (all B c)
    rw [← hall] at hmap
    have hsc : (es.map fun e => (e.1, MapSpec.upd e.2)) = script es := rfl
    rw [hsc] at hmap
    have hids : (rowsOf B c').map List.length = (rowsOf B c).map List.length := by
      simp only [rowsOf, List.map_map]
      exact List.map_congr_left fun b _ => by simp [hn b]
    have hkeys := consumeMutFwd_snd_map (fun e : Ent K V => (e.1, e.2.1))
      (es.map fun e => (e.1, updE (MapSpec.upd e.2))) (all B c) (by
        intro e he x
        obtain ⟨e', _, rfl⟩ := List.mem_map.1 he
        rfl)
    rw [← hall] at hkeys
    refine ⟨h', c', ?_, H', ?_, fun x hx => Or.inl ?_⟩
    · simp only [step, rowsOf_flatten, call, e, except_bind_ok, kvs, hmap.1]; rfl
    · simp only [step, rowsOf_flatten, kvs, hmap.2]
      rw [← kvs, ← rowsOf_flatten, ← hids, cut_flatten]
    · have : (x.1, x.2.1) ∈ (all B c).map fun e => (e.1, e.2.1) := by
        rw [← hkeys]; exact List.mem_map_of_mem (f := fun e : Ent K V => (e.1, e.2.1)) hx
      obtain ⟨y, hy, hxy⟩ := List.mem_map.1 this
      obtain ⟨i, k, v⟩ := y
      cases hxy
      exact ⟨_, hy⟩

/-- one call -/
theorem call_any (hM : M + 1 < 2 ^ 32) (H : HHeld st hash h c) (op : Op K V) :
    ∃ h' c', call hash h op = .ok (h', (step hash M (rowsOf B c) op).2) ∧ HHeld st hash h' c' ∧
      rowsOf B c' = (step hash M (rowsOf B c) op).1 := by
  obtain ⟨h', c', h1, h2, h3, _⟩ := call_at hM H op
  exact ⟨h', c', h1, h2, h3⟩

theorem run_any (hM : M + 1 < 2 ^ 32) : ∀ (ops : List (Op K V)) (h : HashTable K V B M) (c : Nat → List (Ent K V)),
    HHeld st hash h c →
    ∃ h' c', run (call hash) h ops = .ok (h', (steps hash M (rowsOf B c) ops).2) ∧ HHeld st hash h' c' ∧
      rowsOf B c' = (steps hash M (rowsOf B c) ops).1
  | [], h, c, H => ⟨h, c, rfl, H, rfl⟩
  | op :: ops, h, c, H => by
    obtain ⟨h1, c1, e1, H1, hr⟩ := call_any hM H op
    obtain ⟨h2, c2, e2, H2, hr2⟩ := run_any hM ops h1 c1 H1
    rw [hr] at e2 hr2
    exact ⟨h2, c2, by simp only [run, e1, except_bind_ok, e2, steps, except_pure], H2, hr2⟩

omit [BEq K] in
/-- a row holds only keys of its remainder -/
theorem rows_home (H : HHeld True hash h c) : ∀ b l, (rowsOf B c)[b]? = some l → ∀ e ∈ l, hash e.1 % B = b := by
  intro b l hl e he
  obtain ⟨hb, rfl⟩ := List.getElem?_eq_some_iff.1 hl
  simp only [rowsOf, List.getElem_map, List.getElem_range] at he
  obtain ⟨x, hx, rfl⟩ := List.mem_map.1 he
  exact H.home trivial b (by simpa using hb) x hx

/-! ### A key that equals nothing -/

omit [BEq K] in
theorem keys_cut {L : List (K × V)} (T : List (List (K × V))) (hl : L.length = T.flatten.length) :
    (cut (T.map List.length) L).flatten = L := by
  induction T generalizing L with
  | nil => simp at hl; simp [cut, hl]
  | cons l T ih =>
    simp only [List.map_cons, cut, List.flatten_cons]
    rw [ih]
    · simp
    · simp at hl ⊢; omega

omit [BEq K] in
theorem mem_row {T : List (List (K × V))} {k : K} {e : K × V} (h : e ∈ row hash T k) : e ∈ T.flatten := by
  unfold row at h
  rw [List.getD_eq_getElem?_getD] at h
  cases hg : T[hash k % T.length]? with
  | none => rw [hg] at h; simp at h
  | some l =>
    rw [hg] at h
    exact List.mem_flatten.2 ⟨l, List.mem_of_getElem? hg, h⟩

omit [BEq K] in
/-- an entry stays unless its row is replaced by one without it -/
theorem mem_set {T : List (List (K × V))} {b : Nat} {l : List (K × V)} {k : K}
    (hk : (∃ v, (k, v) ∈ T.getD b []) → ∃ v, (k, v) ∈ l) (h : ∃ v, (k, v) ∈ T.flatten) :
    ∃ v, (k, v) ∈ (T.set b l).flatten := by
  obtain ⟨v, hv⟩ := h
  obtain ⟨r, hr, hv⟩ := List.mem_flatten.1 hv
  obtain ⟨i, hi, rfl⟩ := List.getElem_of_mem hr
  by_cases hb : b = i
  · subst hb
    obtain ⟨w, hw⟩ := hk ⟨v, by simpa [List.getD, hi] using hv⟩
    exact ⟨w, List.mem_flatten.2 ⟨l, List.mem_of_getElem (i := b) (h := by simpa using hi) (by simp), hw⟩⟩
  · exact ⟨v, List.mem_flatten.2 ⟨T[i], List.mem_of_getElem (i := i) (h := by simpa using hi) (by simp [hb]), hv⟩⟩

theorem overwrite_keys (k : K) (v : V) : ∀ l : List (K × V), (overwrite k v l).map Prod.fst = l.map Prod.fst
  | [] => rfl
  | e :: l => by
    simp only [overwrite]
    split
    · rfl
    · simp [overwrite_keys k v l]

theorem mem_eraseP {k q : K} (hk : ∀ k', (k == k') = false) {l : List (K × V)} {v : V} (h : (k, v) ∈ l) :
    (k, v) ∈ l.eraseP fun e => e.1 == q :=
  (List.mem_eraseP_of_neg (by simp [hk])).2 h

/-- an entry whose key equals nothing is never lost -/
theorem step_keeps {k : K} (hk : ∀ k', (k == k') = false) (cap : Nat) {T : List (List (K × V))}
    (h : ∃ v, (k, v) ∈ T.flatten) (op : Op K V) : ∃ v, (k, v) ∈ (step hash cap T op).1.flatten := by
  cases op with
  | insert q v =>
    simp only [step]
    cases hf : found hash T q with
    | some e =>
      refine mem_set (fun ⟨w, hw⟩ => ?_) h
      have : k ∈ (overwrite q v (row hash T q)).map Prod.fst := by
        rw [overwrite_keys]; exact List.mem_map_of_mem (f := Prod.fst) hw
      obtain ⟨e, he, rfl⟩ := List.mem_map.1 this
      exact ⟨e.2, he⟩
    | none =>
      simp only
      split
      · exact mem_set (fun ⟨w, hw⟩ => ⟨w, List.mem_cons_of_mem _ hw⟩) h
      · exact h
  | remove q =>
    exact mem_set (fun ⟨w, hw⟩ => ⟨w, mem_eraseP hk hw⟩) h
  | getMut q f =>
    simp only [step]
    cases hf : found hash T q with
    | none => exact h
    | some e => exact mem_set (fun ⟨w, hw⟩ => ⟨w, List.mem_cons_of_mem _ (mem_eraseP hk hw)⟩) h
  | iterMut es =>
    simp only [step]
    have hkeys := consumeMutFwd_snd_map (Prod.fst : K × V → K) (script es) T.flatten (by
        intro e he x
        obtain ⟨e', _, rfl⟩ := List.mem_map.1 he
        rfl)
    rw [keys_cut]
    · obtain ⟨v, hv⟩ := h
      have : k ∈ (consumeMutFwd T.flatten (script es)).2.map Prod.fst := by
        rw [hkeys]; exact List.mem_map_of_mem (f := Prod.fst) hv
      obtain ⟨e, he, rfl⟩ := List.mem_map.1 this
      exact ⟨e.2, he⟩
    · have := congrArg List.length hkeys
      simpa only [List.length_map] using this

theorem steps_keeps {k : K} (hk : ∀ k', (k == k') = false) (cap : Nat) : ∀ (ops : List (Op K V)) {T : List (List (K × V))},
    (∃ v, (k, v) ∈ T.flatten) → ∃ v, (k, v) ∈ (steps hash cap T ops).1.flatten
  | [], _, h => h
  | op :: ops, _, h => steps_keeps hk cap ops (step_keeps hk cap h op)

theorem steps_append (cap : Nat) : ∀ (ops ops' : List (Op K V)) (T : List (List (K × V))),
    steps hash cap T (ops ++ ops') = ((steps hash cap (steps hash cap T ops).1 ops').1,
      (steps hash cap T ops).2 ++ (steps hash cap (steps hash cap T ops).1 ops').2)
  | [], ops', T => rfl
  | op :: ops, ops', T => by simp [steps, steps_append cap ops ops']

end Sokoban.HashTable
