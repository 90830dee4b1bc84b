import Verif.Spec.HashOrder
import Verif.Proof.HashTableHist

/-
Proof that the chains of a hash table are the parts of the recency list.
-/
namespace Sokoban.HashTable
open NodeAllocator MapSpec HashTableSpec
variable {K V : Type} {B M : Nat} [DecidableEq K] {hash : K → Nat} {h : HashTable K V B M}
  {c : Nat → List (Ent K V)} {R : List (K × V)}

/-- the chains are the parts of the list -/
def Parts (hash : K → Nat) (B : Nat) (c : Nat → List (Ent K V)) (R : List (K × V)) : Prop :=
  ∀ b < B, kvs (c b) = R.filter fun e => hash e.1 % B = b

omit [DecidableEq K] in
theorem Parts.rows (hp : Parts hash B c R) : rows hash B R = kvs (all B c) := by
  unfold HashTableSpec.rows all kvs
  rw [List.map_flatMap]
  exact flatMap_congr' fun b hb => (hp b (by simpa using hb)).symm

omit [DecidableEq K] in
theorem Parts.mem (hp : Parts hash B c R) (hB : 0 < B) {e : K × V} : e ∈ R ↔ e ∈ kvs (all B c) := by
  rw [← hp.rows]
  simp only [HashTableSpec.rows, List.mem_flatMap, List.mem_range, List.mem_filter, decide_eq_true_eq]
  constructor
  · intro h; exact ⟨_, Nat.mod_lt (hash e.1) hB, h, rfl⟩
  · rintro ⟨_, _, h, _⟩; exact h

omit [DecidableEq K] in
theorem Parts.nodup (hp : Parts hash B c R) (H : HRep hash h c) (hR : (R.map Prod.fst).Nodup) :
    R.Perm (kvs (all B c)) := by
  have of_map : ∀ {L : List (K × V)}, (L.map Prod.fst).Nodup → L.Nodup := fun {L} hL =>
    (List.pairwise_map.1 hL).imp fun h e => h (congrArg Prod.fst e)
  have h1 : R.Nodup := of_map hR
  have h2 : (kvs (all B c)).Nodup := of_map H.keys_nodup
  rw [List.perm_ext_iff_of_nodup h1 h2]
  exact fun e => hp.mem H.pos

/-- replacing values by key does not touch lists without the key -/
theorem map_replace {L : List (K × V)} {k : K} {v : V} (h : ∀ e ∈ L, e.1 ≠ k) :
    (L.map fun e => if e.1 = k then (k, v) else e) = L := by
  conv => rhs; rw [← List.map_id L]
  exact List.map_congr_left fun e he => by rw [if_neg (h e he)]; rfl

theorem filter_ne {L : List (K × V)} {k : K} (h : ∀ e ∈ L, e.1 ≠ k) : (L.filter fun e => e.1 ≠ k) = L := by
  rw [List.filter_eq_self]
  intro e he
  simpa using h e he

theorem find_none {L : List (K × V)} {k : K} (h : ∀ e ∈ L, e.1 ≠ k) : L.find? (fun e => e.1 = k) = none := by
  rw [List.find?_eq_none]
  intro e he
  simpa using h e he

theorem find_some {L : List (K × V)} (hL : (L.map Prod.fst).Nodup) {k : K} {v : V} (h : (k, v) ∈ L) :
    L.find? (fun e => e.1 = k) = some (k, v) := by
  induction L with
  | nil => cases h
  | cons x L ih =>
    simp only [List.map_cons, List.nodup_cons] at hL
    rcases List.mem_cons.1 h with rfl | h
    · simp
    · have : x.1 ≠ k := fun e => hL.1 (e ▸ List.mem_map_of_mem (f := Prod.fst) h)
      rw [List.find?_cons_of_neg (by simpa using this)]
      exact ih hL.2 h

omit [DecidableEq K] in
/-- a map that keeps keys commutes with taking parts -/
theorem filter_map_key {L : List (K × V)} {g : K × V → K × V} (hg : ∀ e, (g e).1 = e.1) (p : K → Bool) :
    (L.map g).filter (fun e => p e.1) = (L.filter fun e => p e.1).map g := by
  rw [List.filter_map]
  congr 2
  funext e
  simp [hg]

/-- a list with the same keys is found by looking up -/
theorem map_lookup {L L' : List (K × V)} (hk : L'.map Prod.fst = L.map Prod.fst) (hn : (L.map Prod.fst).Nodup) :
    (L.map fun e => (L'.find? fun e' => e'.1 = e.1).getD e) = L' := by
  induction L generalizing L' with
  | nil => simpa using hk.symm
  | cons x L ih =>
    cases L' with
    | nil => simp at hk
    | cons y L' =>
      simp only [List.map_cons, List.cons.injEq] at hk
      simp only [List.map_cons, List.nodup_cons] at hn
      simp only [List.map_cons, List.cons.injEq]
      refine ⟨by simp [hk.1], ?_⟩
      refine Eq.trans ?_ (ih hk.2 hn.2)
      refine List.map_congr_left fun e he => ?_
      have : y.1 ≠ e.1 := by
        rw [hk.1]
        exact fun h => hn.1 (h ▸ List.mem_map_of_mem (f := Prod.fst) he)
      rw [List.find?_cons_of_neg (by simpa using this)]

theorem lookup_key (L : List (K × V)) (e : K × V) : ((L.find? fun e' => e'.1 = e.1).getD e).1 = e.1 := by
  cases h : L.find? fun e' => e'.1 = e.1 with
  | none => rfl
  | some x => simpa using List.find?_some h

/-- one call -/
theorem call_recent (hM : M + 1 < 2 ^ 32) (H : HRep hash h c) (hp : Parts hash B c R) (hR : (R.map Prod.fst).Nodup) (op : Op K V) :
    ∃ h' c', call hash h op = .ok (h', (recent hash B M R op).2) ∧ HRep hash h' c' ∧
      Parts hash B c' (recent hash B M R op).1 ∧ ((recent hash B M R op).1.map Prod.fst).Nodup := by
  have hperm := hp.nodup H hR
  have hlen : R.length = (all B c).length := by rw [hperm.length_eq]; simp only [kvs, List.length_map]
  have absent : ∀ {k}, (∀ e ∈ all B c, e.2.1 ≠ k) → ∀ e ∈ R, e.1 ≠ k := by
    intro k hk e he
    obtain ⟨x, hx, rfl⟩ := List.mem_map.1 ((hp.mem H.pos).1 he)
    exact hk x hx
  have present : ∀ {k i v l1 l2}, c (hash k % B) = l1 ++ (i, k, v) :: l2 → (k, v) ∈ R := by
    intro k i v l1 l2 hc
    rw [hp.mem H.pos]
    exact List.mem_map.2 ⟨(i, k, v), mem_all.2 ⟨_, Nat.mod_lt _ H.pos, by rw [hc]; simp⟩, rfl⟩
  have others : ∀ {k i v l1 l2}, c (hash k % B) = l1 ++ (i, k, v) :: l2 →
      (∀ e ∈ kvs l1, e.1 ≠ k) ∧ (∀ e ∈ kvs l2, e.1 ≠ k) := by
    intro k i v l1 l2 hc
    have hn := H.keys _ (Nat.mod_lt _ H.pos : hash k % B < B)
    rw [hc] at hn
    simp only [keys, List.map_append, List.map_cons] at hn
    obtain ⟨_, n2, n3⟩ := List.nodup_append.1 hn
    rw [List.nodup_cons] at n2
    constructor
    · intro e he hk
      obtain ⟨x, hx, rfl⟩ := List.mem_map.1 he
      exact n3 _ (List.mem_map_of_mem hx) k (by simp) hk
    · intro e he hk
      obtain ⟨x, hx, rfl⟩ := List.mem_map.1 he
      exact n2.1 (List.mem_map.2 ⟨x, hx, hk⟩)
  have away : ∀ {k b}, b < B → b ≠ hash k % B → ∀ e ∈ R.filter (fun e => hash e.1 % B = b), e.1 ≠ k := by
    intro k b _ hb e he hk
    have := (List.mem_filter.1 he).2
    simp only [decide_eq_true_eq] at this
    exact hb (by rw [← this, hk])
  cases op with
  | insert k v =>
    rcases find_cases H k with ⟨hf, hk⟩ | ⟨l1, i, v0, l2, hc, hi1, hi2, hf⟩
    · have hab := absent hk
      have hkR : k ∉ R.map Prod.fst := by
        intro hm
        obtain ⟨e, he, hek⟩ := List.mem_map.1 hm
        exact hab e he hek
      by_cases hlt : R.length < M
      · obtain ⟨h', i, e, H', _⟩ := insert_new_spec H hM v hk (show (all B c).length < M by omega) hf
        have H' := H'.forget
        have er : recent hash B M R (.insert k v) = ((k, v) :: R, .inserted true) := by
          simp only [recent, if_neg hkR, if_pos hlt]
        rw [er]
        refine ⟨h', _, by simp only [call, e]; rfl, H', fun b hb => ?_, ?_⟩
        · by_cases hbk : b = hash k % B
          · subst hbk
            simp only [updB, if_true, kvs, List.map_cons, List.filter_cons, decide_true]
            rw [show List.map Prod.snd (c (hash k % B)) = _ from hp _ hb]
          · simp only [updB, if_neg hbk]
            rw [hp b hb, List.filter_cons_of_neg (by simpa using fun hc : hash k % B = b => hbk hc.symm)]
        · simp only [List.map_cons, List.nodup_cons]; exact ⟨hkR, hR⟩
      · have e := insert_full_spec H v (by omega) hf
        have er : recent hash B M R (.insert k v) = (R, .inserted false) := by
          simp only [recent, if_neg hkR, if_neg hlt]
        rw [er]
        exact ⟨h, c, by simp only [call, e]; rfl, H, hp, hR⟩
    · have hkR : k ∈ R.map Prod.fst := List.mem_map.2 ⟨_, present hc, rfl⟩
      obtain ⟨h', e, H'⟩ := insert_old_spec H v hc hf
      have er : recent hash B M R (.insert k v) = (R.map fun e => if e.1 = k then (k, v) else e, .inserted true) := by
        simp only [recent, if_pos hkR]
      have hg : ∀ e : K × V, (if e.1 = k then (k, v) else e).1 = e.1 := by
        intro e; by_cases he : e.1 = k
        · rw [if_pos he]; exact he.symm
        · rw [if_neg he]
      rw [er]
      refine ⟨h', _, by simp only [call, e]; rfl, H', fun b hb => ?_, ?_⟩
      · have hfm := filter_map_key (L := R) hg (fun x => decide (hash x % B = b))
        simp only at hfm ⊢
        rw [hfm, ← hp b hb]
        by_cases hbk : b = hash k % B
        · subst hbk
          obtain ⟨o1, o2⟩ := others hc
          simp only [updB, if_true]
          rw [hc]
          simp only [kvs, List.map_append, List.map_cons] at o1 o2 ⊢
          rw [map_replace o1, map_replace o2]
          simp
        · simp only [updB, if_neg hbk]
          rw [map_replace]
          intro e he
          rw [hp b hb] at he
          exact away hb hbk e he
      · have : (R.map fun e => if e.1 = k then (k, v) else e).map Prod.fst = R.map Prod.fst := by
          rw [List.map_map]; exact List.map_congr_left fun e _ => hg e
        rw [this]; exact hR
  | remove k =>
    have hnd : ((R.filter fun e => e.1 ≠ k).map Prod.fst).Nodup := hR.sublist ((List.filter_sublist).map _)
    have hff : ∀ b, (R.filter fun e => e.1 ≠ k).filter (fun e => hash e.1 % B = b) =
        (R.filter fun e => hash e.1 % B = b).filter fun e => e.1 ≠ k := by
      intro b; rw [List.filter_filter, List.filter_filter]; congr 1; funext e; exact Bool.and_comm _ _
    rcases find_cases H k with ⟨hf, hk⟩ | ⟨l1, i, v0, l2, hc, hi1, hi2, hf⟩
    · have hab := absent hk
      have er : recent hash B M R (.remove k) = (R, .removed none) := by
        simp only [recent, filter_ne hab, find_none hab]; rfl
      rw [er]
      exact ⟨h, c, by simp only [call, remove_none_spec H hf]; rfl, H, hp, hR⟩
    · obtain ⟨h', e, H'⟩ := remove_old_spec H hc hf
      have er : recent hash B M R (.remove k) = (R.filter fun e => e.1 ≠ k, .removed (some v0)) := by
        simp only [recent, find_some hR (present hc)]; rfl
      rw [er]
      refine ⟨h', _, by simp only [call, e]; rfl, H', fun b hb => ?_, hnd⟩
      simp only at hff ⊢
      rw [hff b, ← hp b hb]
      by_cases hbk : b = hash k % B
      · subst hbk
        obtain ⟨o1, o2⟩ := others hc
        simp only [updB, if_true]
        rw [hc]
        simp only [kvs, List.map_append, List.map_cons, List.filter_append] at o1 o2 ⊢
        rw [filter_ne o1, List.filter_cons_of_neg (by simp), filter_ne o2]
      · simp only [updB, if_neg hbk]
        rw [filter_ne]
        intro e he
        rw [hp b hb] at he
        exact away hb hbk e he
  | getMut k f =>
    rcases find_cases H k with ⟨hf, hk⟩ | ⟨l1, i, v0, l2, hc, hi1, hi2, hf⟩
    · have hab := absent hk
      have er : recent hash B M R (.getMut k f) = (R, .got none) := by
        simp only [recent, find_none hab]
      rw [er]
      refine ⟨h, c, ?_, H, hp, hR⟩
      simp only [call, getMutWrite, getMut_none_spec H hf]; rfl
    · obtain ⟨h1, e, H1⟩ := getMut_old_spec H hc hf
      have hb : hash k % B < B := Nat.mod_lt _ H.pos
      have hc1 : updB c (hash k % B) ((i, k, v0) :: (l1 ++ l2)) (hash k % B) = [] ++ (i, k, v0) :: (l1 ++ l2) := by
        simp [updB]
      obtain ⟨h2, e2, H2⟩ := setNodeValue_spec H1 hb hc1 (f v0)
      have hv := H1.vals _ hb (i, k, v0) (by rw [hc1]; simp)
      have er : recent hash B M R (.getMut k f) = ((k, f v0) :: R.filter fun e => e.1 ≠ k, .got (some v0)) := by
        simp only [recent, find_some hR (present hc)]
      rw [er]
      refine ⟨h2, _, ?_, H2, fun b hb => ?_, ?_⟩
      · simp only [call, getMutWrite, e, except_bind_ok, getNode, getValue_ok _ hv, e2]; rfl
      · have hff : (R.filter fun e => e.1 ≠ k).filter (fun e => hash e.1 % B = b) =
            (R.filter fun e => hash e.1 % B = b).filter fun e => e.1 ≠ k := by
          rw [List.filter_filter, List.filter_filter]; congr 1; funext e; exact Bool.and_comm _ _
        by_cases hbk : b = hash k % B
        · subst hbk
          obtain ⟨o1, o2⟩ := others hc
          simp only [updB, if_true]
          rw [List.filter_cons_of_pos (by simp), hff, ← hp _ hb, hc]
          simp only [kvs, List.map_append, List.map_cons, List.filter_append] at o1 o2 ⊢
          rw [filter_ne o1, List.filter_cons_of_neg (by simp), filter_ne o2]
          rfl
        · simp only [updB, if_neg hbk]
          rw [List.filter_cons_of_neg (by simpa using fun hc : hash k % B = b => hbk hc.symm), hff, ← hp b hb, filter_ne]
          intro e he
          rw [hp b hb] at he
          exact away hb hbk e he
      · simp only [List.map_cons, List.nodup_cons]
        refine ⟨?_, hR.sublist ((List.filter_sublist).map _)⟩
        intro hm
        obtain ⟨e, he, hek⟩ := List.mem_map.1 hm
        have := (List.mem_filter.1 he).2
        simp only [ne_eq, decide_not, Bool.not_eq_eq_eq_not, Bool.not_true, decide_eq_false_iff_not] at this
        exact this hek
  | iterMut es =>
    obtain ⟨h', c', it', e, H', hall⟩ := iterMut_spec H es
    have hmap := consumeMutFwd_map (Prod.snd : Ent K V → K × V)
      (fun f => updE (MapSpec.upd f)) (fun f => MapSpec.upd f) (fun _ _ => rfl) es (all B c)
    have hkeys := consumeMutFwd_snd_map (Prod.fst : K × V → K) (script es) (rows hash B R) (by
        intro e he x
        obtain ⟨e', _, rfl⟩ := List.mem_map.1 he
        rfl)
    rw [← hall] at hmap
    have hsc : (es.map fun e => (e.1, MapSpec.upd e.2)) = script es := rfl
    have hrows : (all B c).map Prod.snd = rows hash B R := hp.rows.symm
    rw [hsc, hrows] at hmap
    have hrn : ((rows hash B R).map Prod.fst).Nodup := by rw [hp.rows]; exact H.keys_nodup
    have hlk := map_lookup hkeys hrn
    obtain ⟨L', hL'⟩ : ∃ L', L' = (consumeMutFwd (rows hash B R) (script es)).2 := ⟨_, rfl⟩
    have hg : ∀ e : K × V, ((L'.find? fun e' => e'.1 = e.1).getD e).1 = e.1 := lookup_key L'
    have er : recent hash B M R (.iterMut es) =
        (R.map fun e => (L'.find? fun e' => e'.1 = e.1).getD e, .seen (consumeMutFwd (rows hash B R) (script es)).1) := by
      simp only [recent, hL']
    rw [er]
    rw [← hL'] at hmap hkeys hlk
    refine ⟨h', c', ?_, H', fun b hb => ?_, ?_⟩
    · simp only [call, e, except_bind_ok, hmap.1]; rfl
    · have hfm := filter_map_key (L := R) hg (fun x => decide (hash x % B = b))
      have hfm2 := filter_map_key (L := rows hash B R) hg (fun x => decide (hash x % B = b))
      simp only at hfm hfm2 ⊢
      have part : ∀ {c : Nat → List (Ent K V)} {h : HashTable K V B M}, HRep hash h c →
          (kvs (all B c)).filter (fun e => hash e.1 % B = b) = kvs (c b) := by
        intro c h H
        obtain ⟨A, C, eA, eA'⟩ := all_split c hb
        have home : ∀ e ∈ c b, hash e.2.1 % B = b := H.home trivial b hb
        have key : ∀ x < B, (kvs (c x)).filter (fun e => hash e.1 % B = b) = if x = b then kvs (c b) else [] := by
          intro x hx
          by_cases hxb : x = b
          · subst hxb
            rw [if_pos rfl, List.filter_eq_self]
            intro e he
            obtain ⟨y, hy, rfl⟩ := List.mem_map.1 he
            simpa using home y hy
          · rw [if_neg hxb, List.filter_eq_nil_iff]
            intro e he
            obtain ⟨y, hy, rfl⟩ := List.mem_map.1 he
            have := H.home trivial x hx y hy
            simpa [this] using hxb
        have : (kvs (all B c)).filter (fun e => hash e.1 % B = b) =
            (List.range B).flatMap fun x => if x = b then kvs (c b) else [] := by
          unfold all kvs
          rw [List.map_flatMap, List.filter_flatMap]
          exact flatMap_congr' fun x hx => key x (by simpa using hx)
        rw [this]
        have hr : List.range B = List.range b ++ b :: (List.range' (b + 1) (B - b - 1)) := by
          have : B = b + ((B - b - 1) + 1) := by omega
          conv => lhs; rw [this]
          rw [List.range_eq_range', List.range_eq_range', ← List.range'_append_1, List.range'_succ]
          simp
        rw [hr]
        simp only [List.flatMap_append, List.flatMap_cons, if_true]
        have z1 : ((List.range b).flatMap fun x => if x = b then kvs (c b) else []) = [] := by
          rw [List.flatMap_eq_nil_iff]
          intro x hx
          simp at hx
          rw [if_neg (by omega)]
        have z2 : ((List.range' (b + 1) (B - b - 1)).flatMap fun x => if x = b then kvs (c b) else []) = [] := by
          rw [List.flatMap_eq_nil_iff]
          intro x hx
          simp [List.mem_range'_1] at hx
          rw [if_neg (by omega)]
        rw [z1, z2]; simp
      rw [hfm, ← hp b hb, ← part H, ← hp.rows, ← hfm2, hlk, hmap.2, part H']
    · have : (R.map fun e => (L'.find? fun e' => e'.1 = e.1).getD e).map Prod.fst = R.map Prod.fst := by
        rw [List.map_map]; exact List.map_congr_left fun e _ => hg e
      rw [this]; exact hR

theorem run_recent (hM : M + 1 < 2 ^ 32) : ∀ (ops : List (Op K V)) (h : HashTable K V B M) (c : Nat → List (Ent K V)) (R : List (K × V)),
    HRep hash h c → Parts hash B c R → (R.map Prod.fst).Nodup →
    ∃ h' c', run (call hash) h ops = .ok (h', (recents hash B M R ops).2) ∧ HRep hash h' c' ∧
      Parts hash B c' (recents hash B M R ops).1 ∧ ((recents hash B M R ops).1.map Prod.fst).Nodup := by
  intro ops
  induction ops with
  | nil => intro h c R H hp hR; exact ⟨h, c, rfl, H, hp, hR⟩
  | cons op ops ih =>
    intro h c R H hp hR
    obtain ⟨h1, c1, e1, H1, hp1, hR1⟩ := call_recent hM H hp hR op
    obtain ⟨h2, c2, e2, H2, hp2, hR2⟩ := ih h1 c1 _ H1 hp1 hR1
    refine ⟨h2, c2, ?_, H2, hp2, hR2⟩
    simp only [run, e1, except_bind_ok, e2, recents, except_pure]

end Sokoban.HashTable
