import Verif.Proof.HashTableIter

namespace Sokoban.HashTable
open NodeAllocator MapSpec HashTableSpec
variable {K V : Type} {B M : Nat} [DecidableEq K] {st : Prop} {hash : K → Nat} {h : HashTable K V B M}
  {c : Nat → List (Ent K V)} {m : FMap K V}

/-- representation of a table by the list of its entries with their addresses -/
def Rep [kn : Known] (hash : K → Nat) (h : HashTable K V B M) (E : List (Ent K V)) : Prop :=
  ∃ c, HRep hash h c ∧ E = all B c

section
variable {kn : Known}

omit [DecidableEq K] in
theorem get_of_mem (hm : m.Lists (kvs (all B c))) {i : Nat} {k : K} {v : V}
    (he : (i, k, v) ∈ all B c) : m.get k = some v :=
  (hm.mem k v).1 (List.mem_map_of_mem (f := Prod.snd) he)

omit [DecidableEq K] in
theorem get_none_of (hm : m.Lists (kvs (all B c))) {k : K}
    (hk : ∀ e ∈ all B c, e.2.1 ≠ k) : m.get k = none := by
  rw [hm.get_none]
  intro v hv
  obtain ⟨e, he, hev⟩ := List.mem_map.1 hv
  exact hk e he (by rw [hev])

omit [DecidableEq K] in
/-- a key is stored at one address only -/
theorem addr_unique (H : HRep hash h c) {i j : Nat} {k : K} {v w : V} (h1 : (i, k, v) ∈ all B c)
    (h2 : (j, k, w) ∈ all B c) : i = j := by
  have hn := H.keys_nodup
  have : ∀ (L : List (Ent K V)), ((kvs L).map Prod.fst).Nodup → (i, k, v) ∈ L → (j, k, w) ∈ L → i = j := by
    intro L hL h1 h2
    induction L with
    | nil => simp at h1
    | cons x L ih =>
      simp only [kvs, List.map_cons, List.nodup_cons] at hL
      have hno : ∀ {a b}, (a, k, b) ∈ L → x.2.1 ≠ k := by
        intro a b hab hxk
        apply hL.1
        rw [hxk]
        exact List.mem_map_of_mem (f := Prod.fst) (List.mem_map_of_mem (f := Prod.snd) hab)
      rcases List.mem_cons.1 h1 with e1 | e1 <;> rcases List.mem_cons.1 h2 with e2 | e2
      · rw [← e1] at e2; exact (Prod.mk.inj e2).1.symm
      · exact absurd (by rw [← e1]) (hno e2)
      · exact absurd (by rw [← e2]) (hno e1)
      · exact ih hL.2 e1 e2
  exact this _ hn h1 h2

/-- lookups -/
theorem lookup_spec (H : HRep hash h c) (hm : m.Lists (kvs (all B c))) (k : K) :
    (m.get k = none ∧ h.getAddr hash k = .ok 0 ∧ h.get hash k = .ok none ∧
      h.containsInherent hash k = .ok false) ∨
    ∃ i v, m.get k = some v ∧ (i, k, v) ∈ all B c ∧ h.getAddr hash k = .ok i ∧ 1 ≤ i ∧ i ≤ M ∧
      h.getNode i = .ok ⟨k, v⟩ ∧ h.get hash k = .ok (some v) ∧
      h.containsInherent hash k = .ok true := by
  have hb : hash k % B < B := Nat.mod_lt _ H.pos
  have hfind : h.findLoop k (M + 1) ((ids (c (hash k % B))).headD 0) =
      .ok ((((c (hash k % B)).find? (fun e => e.2.1 = k)).map Prod.fst).getD 0) := find_ok H.toHHeld k
  rcases find_cases H k with ⟨hf, hk⟩ | ⟨l1, i, v, l2, hc, hi1, hi2, hf⟩
  · left
    rw [hf] at hfind
    refine ⟨get_none_of hm hk, ?_, ?_, ?_⟩
    · unfold getAddr
      simp only [bucketIndex_ok H.pos, bucket_ok H.toHHeld hb, except_bind_ok, hfind]; rfl
    · unfold get
      simp only [bucketIndex_ok H.pos, bucket_ok H.toHHeld hb, except_bind_ok, hfind]
      simp [SENTINEL]
    · unfold containsInherent
      simp only [bucketIndex_ok H.pos, bucket_ok H.toHHeld hb, except_bind_ok, hfind]
      simp [SENTINEL]
  · right
    rw [hf] at hfind
    simp only [Option.map_some, Option.getD_some] at hfind
    have hmem : (i, k, v) ∈ c (hash k % B) := by rw [hc]; simp
    have hmem' : (i, k, v) ∈ all B c := mem_all.2 ⟨_, hb, hmem⟩
    have hv := H.vals _ hb _ hmem
    have hi0 : i ≠ 0 := by omega
    refine ⟨i, v, get_of_mem hm hmem', hmem', ?_, hi1, hi2, ?_, ?_, ?_⟩
    · unfold getAddr
      simp only [bucketIndex_ok H.pos, bucket_ok H.toHHeld hb, except_bind_ok, hfind]
    · unfold getNode; rw [getValue_ok _ hv]
    · unfold get
      simp only [bucketIndex_ok H.pos, bucket_ok H.toHHeld hb, except_bind_ok, hfind, SENTINEL, hi0, if_false,
        getNode, getValue_ok _ hv]; rfl
    · unfold containsInherent
      simp only [bucketIndex_ok H.pos, bucket_ok H.toHHeld hb, except_bind_ok, hfind]
      simp [SENTINEL, hi0]

/-- insertion -/
theorem insert_spec (H : HRep hash h c) (hM : M + 1 < 2 ^ 32) (hm : m.Lists (kvs (all B c))) (k : K) (v : V) :
    (m.get k = none ∧ m.len + kn.lost.length = M ∧ h.insert hash k v = .ok (h, none)) ∨
    ∃ h' i c', ¬ (m.get k = none ∧ m.len + kn.lost.length = M) ∧ h.insert hash k v = .ok (h', some i) ∧
      HRep (kn := kn.ins (ids (all B c)) i) hash h' c' ∧
      (m.insert k v).Lists (kvs (all B c')) ∧ (i, k, v) ∈ all B c' ∧
      Kept (.insert k v) (all B c) (all B c') := by
  have hb : hash k % B < B := Nat.mod_lt _ H.pos
  obtain ⟨A, C, eA, eA'⟩ := all_split c hb
  have hlen := hm.len
  simp only [kvs, List.length_map] at hlen
  rcases find_cases H k with ⟨hf, hk⟩ | ⟨l1, i, v0, l2, hc, hi1, hi2, hf⟩
  · have hgn := get_none_of hm hk
    have hle := H.leL
    by_cases hfull : m.len + kn.lost.length = M
    · exact Or.inl ⟨hgn, hfull, insert_full_spec H v (by omega) hf⟩
    · right
      obtain ⟨h', i, e, H', hni⟩ := insert_new_spec H hM v hk (by omega) hf
      refine ⟨h', i, _, fun hc => hfull hc.2, e, kn.ins_new hni ▸ H', ?_, ?_, ?_⟩
      · rw [eA']
        refine (hm.insert_new v hgn).perm ?_
        rw [eA]
        simp only [kvs, List.map_append, List.map_cons]
        simp only [List.append_assoc, List.cons_append]
        exact List.perm_middle.symm
      · rw [eA']; simp
      · intro i' k' v' he _
        refine ⟨v', ?_⟩
        rw [eA] at he; rw [eA']
        simp only [List.mem_append, List.mem_cons] at he ⊢
        exact he.imp_left (Or.imp_right Or.inr)
  · right
    have hmem' : (i, k, v0) ∈ all B c := mem_all.2 ⟨_, hb, by rw [hc]; simp⟩
    have hg := get_of_mem hm hmem'
    obtain ⟨h', e, H'⟩ := insert_old_spec H v hc hf
    refine ⟨h', i, _, fun hcc => (by rw [hcc.1] at hg; cases hg), e,
      kn.ins_old (List.mem_map_of_mem (f := Prod.fst) hmem') ▸ H', ?_, ?_, ?_⟩
    · rw [eA']
      rw [eA, hc] at hm
      simp only [kvs, List.map_append, List.map_cons, List.append_assoc, List.cons_append] at hm ⊢
      rw [← List.append_assoc] at hm ⊢
      exact hm.insert_old v
    · rw [eA']; simp
    · intro i' k' v' he _
      rw [eA, hc] at he; rw [eA']
      simp only [List.mem_append, List.mem_cons, Prod.mk.injEq] at he ⊢
      rcases he with (he | he | ⟨h1, h2, h3⟩ | he) | he
      · exact ⟨v', Or.inl (Or.inl he)⟩
      · exact ⟨v', Or.inl (Or.inr (Or.inl he))⟩
      · exact ⟨v, Or.inl (Or.inr (Or.inr (Or.inl ⟨h1, h2, rfl⟩)))⟩
      · exact ⟨v', Or.inl (Or.inr (Or.inr (Or.inr he)))⟩
      · exact ⟨v', Or.inr he⟩

/-- removal -/
theorem remove_spec (H : HRep hash h c) (hm : m.Lists (kvs (all B c))) (k : K) :
    ∃ h' c' o, h.remove hash k = .ok (h', m.get k) ∧ HRep (kn := kn.free o) hash h' c' ∧
      (m.erase k).Lists (kvs (all B c')) ∧ Kept (.remove k) (all B c) (all B c') ∧
      ((o = none ∧ (∀ e ∈ all B c, e.2.1 ≠ k) ∧ all B c' = all B c) ∨
        ∃ i v, o = some i ∧ (i, k, v) ∈ all B c ∧ (all B c).Perm ((i, k, v) :: all B c')) := by
  have hb : hash k % B < B := Nat.mod_lt _ H.pos
  obtain ⟨A, C, eA, eA'⟩ := all_split c hb
  rcases find_cases H k with ⟨hf, hk⟩ | ⟨l1, i, v0, l2, hc, hi1, hi2, hf⟩
  · have hgn := get_none_of hm hk
    exact ⟨h, c, none, by rw [hgn]; exact remove_none_spec H hf, H, by rw [FMap.erase_none hgn]; exact hm,
      fun i k v he _ => ⟨v, he⟩, Or.inl ⟨rfl, hk, rfl⟩⟩
  · have hmem' : (i, k, v0) ∈ all B c := mem_all.2 ⟨_, hb, by rw [hc]; simp⟩
    have hg := get_of_mem hm hmem'
    obtain ⟨h', e, H'⟩ := remove_old_spec H hc hf
    refine ⟨h', _, some i, by rw [hg]; exact e, H', ?_, ?_, Or.inr ⟨i, v0, rfl, hmem', ?_⟩⟩
    rotate_left 2
    · rw [eA', eA, hc]
      simp only [List.append_assoc, List.cons_append]
      rw [← List.append_assoc, ← List.append_assoc A]
      exact List.perm_middle
    · rw [eA']
      rw [eA, hc] at hm
      simp only [kvs, List.map_append, List.map_cons, List.append_assoc, List.cons_append] at hm ⊢
      rw [← List.append_assoc] at hm ⊢
      exact hm.erase
    · intro i' k' v' he hno
      rw [eA, hc] at he; rw [eA']
      simp only [List.mem_append, List.mem_cons, Prod.mk.injEq] at he ⊢
      rcases he with (he | he | ⟨h1, h2, h3⟩ | he) | he
      · exact ⟨v', Or.inl (Or.inl he)⟩
      · exact ⟨v', Or.inl (Or.inr (Or.inl he))⟩
      · exact absurd h2.symm (hno k rfl)
      · exact ⟨v', Or.inl (Or.inr (Or.inr he))⟩
      · exact ⟨v', Or.inr he⟩

/-- `get_mut` itself only reorders -/
theorem getMut_spec (H : HRep hash h c) (hm : m.Lists (kvs (all B c))) (k : K) :
    (m.get k = none ∧ h.getMut hash k = .ok (h, none)) ∨
    ∃ h' c' i v, m.get k = some v ∧ h.getMut hash k = .ok (h', some i) ∧ HRep hash h' c' ∧
      m.Lists (kvs (all B c')) ∧ (all B c).Perm (all B c') ∧ (i, k, v) ∈ all B c' := by
  have hb : hash k % B < B := Nat.mod_lt _ H.pos
  obtain ⟨A, C, eA, eA'⟩ := all_split c hb
  rcases find_cases H k with ⟨hf, hk⟩ | ⟨l1, i, v0, l2, hc, hi1, hi2, hf⟩
  · exact Or.inl ⟨get_none_of hm hk, getMut_none_spec H hf⟩
  · right
    have hmem' : (i, k, v0) ∈ all B c := mem_all.2 ⟨_, hb, by rw [hc]; simp⟩
    have hg := get_of_mem hm hmem'
    obtain ⟨h', e, H'⟩ := getMut_old_spec H hc hf
    have hp : (all B c).Perm (all B (updB c (hash k % B) ((i, k, v0) :: (l1 ++ l2)))) := by
      rw [eA', eA, hc]
      exact (List.perm_middle.append_left A).append_right C
    exact ⟨h', _, i, v0, hg, e, H', hm.perm (hp.map _), hp, hp.mem_iff.1 hmem'⟩

/-- writing the value at an address -/
theorem setNodeValue_spec' (H : HRep hash h c) (hm : m.Lists (kvs (all B c))) {i : Nat} {k : K} {v0 : V}
    (he : (i, k, v0) ∈ all B c) (v : V) :
    ∃ h' c', h.setNodeValue i v = .ok h' ∧ HRep hash h' c' ∧ (m.insert k v).Lists (kvs (all B c')) ∧
      ∀ i k v, (i, k, v) ∈ all B c → ∃ v', (i, k, v') ∈ all B c' := by
  obtain ⟨b, hb, hmem⟩ := mem_all.1 he
  obtain ⟨l1, l2, hc⟩ := List.append_of_mem hmem
  obtain ⟨A, C, eA, eA'⟩ := all_split c hb
  obtain ⟨h', e, H'⟩ := setNodeValue_spec H hb hc v
  refine ⟨h', _, e, H', ?_, ?_⟩
  · rw [eA']
    rw [eA, hc] at hm
    simp only [kvs, List.map_append, List.map_cons, List.append_assoc, List.cons_append] at hm ⊢
    rw [← List.append_assoc] at hm ⊢
    exact hm.insert_old v
  · intro i' k' v' he
    rw [eA, hc] at he; rw [eA']
    simp only [List.mem_append, List.mem_cons, Prod.mk.injEq] at he ⊢
    rcases he with (he | he | ⟨h1, h2, h3⟩ | he) | he
    · exact ⟨v', Or.inl (Or.inl he)⟩
    · exact ⟨v', Or.inl (Or.inr (Or.inl he))⟩
    · exact ⟨v, Or.inl (Or.inr (Or.inr (Or.inl ⟨h1, h2, rfl⟩)))⟩
    · exact ⟨v', Or.inl (Or.inr (Or.inr (Or.inr he)))⟩
    · exact ⟨v', Or.inr he⟩

theorem getMutWrite_spec (H : HRep hash h c) (hm : m.Lists (kvs (all B c))) (k : K) (f : V → V) :
    ∃ h' c', getMutWrite hash h k f = .ok (h', m.get k) ∧ HRep hash h' c' ∧
      (m.modify k f).Lists (kvs (all B c')) ∧
      ∀ i k v, (i, k, v) ∈ all B c → ∃ v', (i, k, v') ∈ all B c' := by
  rcases getMut_spec H hm k with ⟨hg, e⟩ | ⟨h1, c1, i, v, hg, e, H1, hm1, hp, hmem⟩
  · refine ⟨h, c, ?_, H, by rw [FMap.modify_none f hg]; exact hm, fun i k v he => ⟨v, he⟩⟩
    unfold getMutWrite; rw [e, hg]; rfl
  · obtain ⟨h2, c2, e2, H2, hm2, hk2⟩ := setNodeValue_spec' H1 hm1 hmem (f v)
    refine ⟨h2, c2, ?_, H2, by rw [FMap.modify_some f hg]; exact hm2,
      fun i k v he => hk2 i k v (hp.mem_iff.1 he)⟩
    obtain ⟨b, hb, hmb⟩ := mem_all.1 hmem
    have hv := H1.vals _ hb _ hmb
    unfold getMutWrite
    simp only [e, except_bind_ok, getNode, getValue_ok _ hv, e2, hg]; rfl

end

theorem call_specL (kn : Known) (hM : M + 1 < 2 ^ 32) (h : HashTable K V B M) (E : List (Ent K V)) (m : FMap K V)
    (op : Op K V) (hR : Rep (kn := kn.quiet) hash h E) (hm : m.Lists (E.map Prod.snd)) :
    ∃ h' o E' m', call hash h op = .ok (h', o) ∧ Rep (kn := kn.quiet) hash h' E' ∧ m'.Lists (E'.map Prod.snd) ∧
      Step (hashRules K V (M - kn.lost.length)) m op o m' ∧ Kept op E E' := by
  obtain ⟨c, H, rfl⟩ := hR
  have hlen := hm.len
  have hle := H.leL
  simp only [List.length_map] at hlen
  have hl : kn.quiet.lost = kn.lost := rfl
  rw [hl] at hle
  cases op with
  | insert k v =>
    rcases insert_spec (kn := kn.quiet) H hM hm k v with ⟨hg, hl', e⟩ | ⟨h', i, c', hg, e, H', hm', _, hk⟩
    · exact ⟨h, .inserted false, _, m, by simp only [call, e]; rfl, ⟨c, H, rfl⟩, hm, Or.inl ⟨⟨hg, by rw [hl] at hl'; omega⟩, rfl, rfl⟩,
        fun i k v he _ => ⟨v, he⟩⟩
    · exact ⟨h', .inserted true, _, _, by simp only [call, e]; rfl, ⟨c', H'.forget, rfl⟩, hm',
        Or.inr ⟨fun hc => hg ⟨hc.1, by rw [hl]; have := hc.2; omega⟩, rfl, rfl⟩, hk⟩
  | remove k =>
    obtain ⟨h', c', o, e, H', hm', hk, _⟩ := remove_spec H hm k
    exact ⟨h', .removed (m.get k), _, _, by simp only [call, e]; rfl,
      ⟨c', by cases o <;> exact H'.forget, rfl⟩, hm', ⟨rfl, rfl⟩, hk⟩
  | getMut k f =>
    obtain ⟨h', c', e, H', hm', hk⟩ := getMutWrite_spec H hm k f
    exact ⟨h', .got (m.get k), _, _, by simp only [call, e]; rfl, ⟨c', H', rfl⟩, hm', ⟨rfl, rfl⟩,
      fun i k v he _ => hk i k v he⟩
  | iterMut es =>
    obtain ⟨h', c', it', e, H', hall⟩ := iterMut_spec H es
    have hmap := consumeMutFwd_map (Prod.snd : Ent K V → K × V)
      (fun f => updE (MapSpec.upd f)) (fun f => MapSpec.upd f) (fun _ _ => rfl) es (all B c)
    have hids := consumeMutFwd_snd_map (fun e : Ent K V => (e.1, e.2.1))
      (es.map fun e => (e.1, updE (MapSpec.upd e.2))) (all B c) (by
        intro e he x
        obtain ⟨e', _, rfl⟩ := List.mem_map.1 he
        rfl)
    rw [← hall] at hids hmap
    have hl := FMap.lists_ofList (L := kvs (all B c')) H'.keys_nodup
    refine ⟨h', _, _, _, by simp only [call, e]; rfl, ⟨c', H', rfl⟩, hl, ?_, fun i k v he _ => all_of_ids hids he⟩
    refine ⟨kvs (all B c), hm, trivial, ?_, ?_⟩
    · simp only [hashRules, script]
      rw [← hmap.1]
    · simp only [hashRules, script]
      rw [hmap.2]; exact hl

theorem call_spec (hM : M + 1 < 2 ^ 32) (h : HashTable K V B M) (E : List (Ent K V)) (m : FMap K V)
    (op : Op K V) (hR : Rep hash h E) (hm : m.Lists (E.map Prod.snd)) :
    ∃ h' o E' m', call hash h op = .ok (h', o) ∧ Rep hash h' E' ∧ m'.Lists (E'.map Prod.snd) ∧
      Step (hashRules K V M) m op o m' ∧ Kept op E E' :=
  call_specL .nothing hM h E m op hR hm

/-- everything known about a history from a new table -/
theorem run_new (hB : 0 < B) (hM : M + 1 < 2 ^ 32) (hash : K → Nat) (z : HashNode K V) (ops : List (Op K V)) :
    ∃ (h : HashTable K V B M) (os : List (Out K V)) (c : Nat → List (Ent K V)) (m : FMap K V),
      run (call hash) (new z) ops = .ok (h, os) ∧ HRep hash h c ∧ m.Lists (kvs (all B c)) ∧
      Steps (hashRules K V M) FMap.empty ops os m := by
  obtain ⟨h, os, E, m, e, ⟨c, H, rfl⟩, hm, hs, _⟩ :=
    MapSpec.run_steps (call_spec (hash := hash) hM) ops (new z) []  FMap.empty ⟨_, new_HRep hB hash z, by simp⟩ FMap.lists_empty
  exact ⟨h, os, c, m, e, H, hm, hs⟩

end Sokoban.HashTable
