import Verif.Proof.HashTableHist

/-
Property theorems C15-C21 (HashTable) and the hash table part of C06.

A history is a list of calls `ops` made on a new table (`run (call hash) (HashTable.new z) ops`,
Spec/Run.lean, Spec/HashTable.lean). `MapSpec.Steps (hashRules K V M) FMap.empty ops outs m` says
that on a mathematical finite map bounded by `MAX_SIZE` the calls `ops` have the results `outs`
and lead to `m` (Spec/Map.lean). `hash` is the hash function, arbitrary.
-/
namespace Sokoban.Props
open MapSpec HashTableSpec
variable {K V : Type} [DecidableEq K] {B M : Nat}

/-- C15: every history completes, with the results of a bounded finite map, and afterwards `get`,
`contains`, `len`, `is_empty` and `Index` agree with that map. -/
theorem C15_hash_refines_map (hB : 0 < B) (hM : M + 1 < 2 ^ 32) (hash : K → Nat) (z : HashNode K V)
    (ops : List (Op K V)) :
    ∃ (h : HashTable K V B M) (outs : List (Out K V)) (m : FMap K V),
      run (call hash) (HashTable.new z) ops = .ok (h, outs) ∧
      Steps (hashRules K V M) FMap.empty ops outs m ∧
      (∀ k, h.get hash k = .ok (m.get k)) ∧
      (∀ k, h.contains hash k = .ok (m.get k).isSome) ∧
      (∀ k, h.containsInherent hash k = .ok (m.get k).isSome) ∧
      (∀ k, h.index hash k = unwrap (m.get k)) ∧
      h.len = m.len ∧ m.len ≤ M ∧ h.isEmpty = decide (m.len = 0) := by
  obtain ⟨h, os, c, m, e, H, hm, hs⟩ := HashTable.run_new hB hM hash z ops
  have hget : ∀ k, h.get hash k = .ok (m.get k) ∧ h.containsInherent hash k = .ok (m.get k).isSome := by
    intro k
    rcases HashTable.lookup_spec H hm k with ⟨hg, _, e1, e2⟩ | ⟨i, v, hg, _, _, _, _, _, e1, e2⟩ <;>
      rw [e1, e2, hg] <;> exact ⟨rfl, rfl⟩
  have hlen : h.len = m.len := by rw [H.len, hm.len]; simp only [HashTable.kvs, List.length_map]
  refine ⟨h, os, m, e, hs, fun k => (hget k).1, fun k => ?_, fun k => (hget k).2, fun k => ?_, hlen, ?_, ?_⟩
  · unfold HashTable.contains; rw [(hget k).1]; rfl
  · unfold HashTable.index; rw [(hget k).1]; rfl
  · rw [← hlen, H.len]; exact H.le
  · unfold HashTable.isEmpty; rw [hlen]

/-- C16: on every reachable table, `insert` never panics; it returns `None` exactly when the key is
absent and the table full, and then nothing changes; otherwise the key is bound to the value
and no other key is affected. -/
theorem C16_hash_insert_refused (hB : 0 < B) (hM : M + 1 < 2 ^ 32) (hash : K → Nat) (z : HashNode K V)
    (ops : List (Op K V)) {h : HashTable K V B M} {outs : List (Out K V)}
    (hrun : run (call hash) (HashTable.new z) ops = .ok (h, outs)) (k : K) (v : V) :
    ∃ h' r, h.insert hash k v = .ok (h', r) ∧
      (r = none ↔ h.get hash k = .ok none ∧ h.len = h.capacity) ∧
      (r = none → h' = h) ∧
      (r ≠ none → h'.get hash k = .ok (some v) ∧
        (∀ k', k' ≠ k → h'.get hash k' = h.get hash k') ∧
        (h.get hash k = .ok none → h'.len = h.len + 1) ∧
        (h.get hash k ≠ .ok none → h'.len = h.len)) := by
  obtain ⟨h0, os, c, m, e, H, hm, hs⟩ := HashTable.run_new hB hM hash z ops
  rw [hrun] at e; cases e
  have hget : ∀ {h : HashTable K V B M} {c} {m : FMap K V}, HashTable.HRep hash h c → m.Lists (HashTable.kvs (HashTable.all B c)) →
      (∀ k, h.get hash k = .ok (m.get k)) ∧ h.len = m.len := by
    intro h c m H hm
    refine ⟨fun k => ?_, by rw [H.len, hm.len]; simp only [HashTable.kvs, List.length_map]⟩
    rcases HashTable.lookup_spec H hm k with ⟨hg, _, e1, e2⟩ | ⟨i, v, hg, _, _, _, _, _, e1, e2⟩ <;> rw [e1, hg]
  obtain ⟨g, l⟩ := hget H hm
  rcases HashTable.insert_spec H hM hm k v with ⟨hg, hl, e⟩ | ⟨h', i, c', hg, e, H', hm', _, hk⟩
  · refine ⟨h, none, e, ?_, fun _ => rfl, fun hc => absurd rfl hc⟩
    have hl : m.len = M := hl
    simp [g, hg, l, hl, HashTable.capacity]
  · obtain ⟨g', l'⟩ := hget H' hm'
    refine ⟨h', some i, e, ?_, by simp, fun _ => ⟨?_, fun k' hk' => ?_, fun hn => ?_, fun hn => ?_⟩⟩
    · simp only [reduceCtorEq, false_iff]
      rw [g, l]
      intro hc
      exact hg ⟨by simpa using hc.1, hc.2⟩
    · rw [g']; simp [FMap.insert]
    · rw [g', g]; simp [FMap.insert, hk']
    · rw [g] at hn; simp at hn
      rw [l', l]; simp [FMap.insert, hn]
    · rw [g] at hn; simp at hn
      rw [l', l]; simp [FMap.insert, Option.isSome_iff_ne_none, hn]

/-- C17: on every reachable table there is one list `L` of exactly the entries of the table, each
once, such that `iter()` driven by any number of `next()` calls yields `L` in order and then
`None`. -/
theorem C17_hash_iter (hB : 0 < B) (hM : M + 1 < 2 ^ 32) (hash : K → Nat) (z : HashNode K V)
    (ops : List (Op K V)) {h : HashTable K V B M} {outs : List (Out K V)}
    (hrun : run (call hash) (HashTable.new z) ops = .ok (h, outs)) :
    ∃ (L : List (K × V)) (it : HashTable.Iter), h.iter = .ok it ∧
      (L.map Prod.fst).Nodup ∧ (∀ k v, (k, v) ∈ L ↔ h.get hash k = .ok (some v)) ∧
      L.length = h.len ∧
      ∀ n, ∃ it', drive (HashTable.Iter.next h) HashTable.Iter.nextBack it (List.replicate n .front) =
        .ok (it', consume L (List.replicate n .front)) := by
  obtain ⟨h0, os, c, m, e, H, hm, hs⟩ := HashTable.run_new hB hM hash z ops
  rw [hrun] at e; cases e
  obtain ⟨it, _, ei, _⟩ := HashTable.drive_iter H.toHHeld []
  refine ⟨HashTable.kvs (HashTable.all B c), it, ei, hm.nodup, fun k v => ?_, ?_, fun n => ?_⟩
  · rw [hm.mem]
    rcases HashTable.lookup_spec H hm k with ⟨hg, _, e1, e2⟩ | ⟨i, v, hg, _, _, _, _, _, e1, e2⟩ <;>
      rw [e1, hg] <;> simp
  · rw [H.len]; simp only [HashTable.kvs, List.length_map]
  · obtain ⟨it1, it', e1, e2⟩ := HashTable.drive_iter H.toHHeld (List.replicate n .front)
    rw [ei] at e1; cases e1
    exact ⟨it', by rw [e2, consumeFwd_front]⟩

/-- C18: `get_mut(k)` on a reachable table: `None` and no change for an absent key; for a present
one a reference to its entry, and no lookup, `len` or address changes; `iter()` afterwards yields
a permutation. Writing `w` through the reference binds `k` to `w` and changes nothing else. -/
theorem C18_hash_get_mut (hB : 0 < B) (hM : M + 1 < 2 ^ 32) (hash : K → Nat) (z : HashNode K V)
    (ops : List (Op K V)) {h : HashTable K V B M} {outs : List (Out K V)}
    (hrun : run (call hash) (HashTable.new z) ops = .ok (h, outs)) (k : K) :
    (h.get hash k = .ok none ∧ h.getMut hash k = .ok (h, none)) ∨
    ∃ h' i v, h.get hash k = .ok (some v) ∧ h.getMut hash k = .ok (h', some i) ∧
      h'.getNode i = .ok ⟨k, v⟩ ∧ h'.len = h.len ∧
      (∀ k', h'.get hash k' = h.get hash k') ∧ (∀ k', h'.getAddr hash k' = h.getAddr hash k') ∧
      ∀ w, ∃ h'', h'.setNodeValue i w = .ok h'' ∧ h''.get hash k = .ok (some w) ∧
        h''.len = h.len ∧ (∀ k', k' ≠ k → h''.get hash k' = h.get hash k') := by
  obtain ⟨h0, os, c, m, e, H, hm, hs⟩ := HashTable.run_new hB hM hash z ops
  rw [hrun] at e; cases e
  have hget : ∀ {h : HashTable K V B M} {c} {m : FMap K V}, HashTable.HRep hash h c → m.Lists (HashTable.kvs (HashTable.all B c)) →
      (∀ k, h.get hash k = .ok (m.get k)) ∧ h.len = m.len := by
    intro h c m H hm
    refine ⟨fun k => ?_, by rw [H.len, hm.len]; simp only [HashTable.kvs, List.length_map]⟩
    rcases HashTable.lookup_spec H hm k with ⟨hg, _, e1, e2⟩ | ⟨i, v, hg, _, _, _, _, _, e1, e2⟩ <;> rw [e1, hg]
  obtain ⟨g, l⟩ := hget H hm
  rcases HashTable.getMut_spec H hm k with ⟨hg, e⟩ | ⟨h', c', i, v, hg, e, H', hm', hp, hmem⟩
  · exact Or.inl ⟨by rw [g, hg], e⟩
  · right
    obtain ⟨g', l'⟩ := hget H' hm'
    obtain ⟨b, hb, hmb⟩ := HashTable.mem_all.1 hmem
    refine ⟨h', i, v, by rw [g, hg], e, ?_, by rw [l', l], fun k' => by rw [g', g], fun k' => ?_, fun w => ?_⟩
    · unfold HashTable.getNode; rw [NodeAllocator.getValue_ok _ (H'.vals _ hb _ hmb)]
    · rcases HashTable.lookup_spec H hm k' with ⟨hg1, e1, _⟩ | ⟨i1, v1, hg1, hm1, e1, _⟩ <;>
        rcases HashTable.lookup_spec H' hm' k' with ⟨hg2, e2, _⟩ | ⟨i2, v2, hg2, hm2, e2, _⟩
      · rw [e1, e2]
      · rw [hg1] at hg2; cases hg2
      · rw [hg1] at hg2; cases hg2
      · rw [e1, e2]
        have := HashTable.addr_unique H (hp.mem_iff.2 hm2) hm1
        rw [this]
    · obtain ⟨h'', c'', e'', H'', hm'', _⟩ := HashTable.setNodeValue_spec' H' hm' hmem w
      obtain ⟨g'', l''⟩ := hget H'' hm''
      refine ⟨h'', e'', by rw [g'']; simp [FMap.insert], ?_, fun k' hk' => ?_⟩
      · rw [l'', l]; simp [FMap.insert, hg]
      · rw [g'', g]; simp [FMap.insert, hk']

omit [DecidableEq K] in
/-- C19 (deviation): `next_back()` yields nothing whatever the table holds, on `iter()` and on
`iter_mut()`. So the claim "`iter().rev()` visits every entry" is false for every non-empty
table: no number of `next_back()` calls yields any entry. -/
theorem C19_hash_rev_yields_nothing (h : HashTable K V B M) (it : HashTable.Iter) (n : Nat) :
    drive (HashTable.Iter.next h) HashTable.Iter.nextBack it (List.replicate n .back) =
      .ok (it, List.replicate n none) ∧
    HashTable.Iter.nextBackMut h it = .ok (it, none) := by
  refine ⟨?_, rfl⟩
  induction n with
  | zero => rfl
  | succ n ih => simp [List.replicate_succ, drive, HashTable.Iter.nextBack, ih]

/-- C19 (deviation): the double-ended contract fails on every non-empty reachable table: after
`len()` calls of `next_back()` nothing has been yielded, although the table is not empty. -/
theorem C19_hash_rev_contract_refuted (hB : 0 < B) (hM : M + 1 < 2 ^ 32) (hash : K → Nat)
    (z : HashNode K V) (ops : List (Op K V)) {h : HashTable K V B M} {outs : List (Out K V)}
    (hrun : run (call hash) (HashTable.new z) ops = .ok (h, outs)) (hne : h.len ≠ 0) :
    ¬ ∃ (L : List (K × V)) (it : HashTable.Iter), h.iter = .ok it ∧
      (∀ k v, h.get hash k = .ok (some v) → (k, v) ∈ L) ∧
      ∃ n it', drive (HashTable.Iter.next h) HashTable.Iter.nextBack it (List.replicate n .back) =
        .ok (it', L.reverse.map some) := by
  rintro ⟨L, it, _, hL, n, it', hd⟩
  rw [(C19_hash_rev_yields_nothing h it n).1] at hd
  have hL0 : L = [] := by
    cases L with
    | nil => rfl
    | cons x L =>
      have h1 := congrArg (fun r : R (HashTable.Iter × List (Option (K × V))) =>
        match r with | .ok (_, l) => l | .error _ => []) hd
      simp only at h1
      have : some x ∈ List.replicate n (none : Option (K × V)) := by rw [h1]; simp
      simp at this
  obtain ⟨L', it2, _, _, hmem, hlen, _⟩ := C17_hash_iter hB hM hash z ops hrun
  cases L' with
  | nil => simp at hlen; omega
  | cons x L' =>
    have := hL x.1 x.2 ((hmem x.1 x.2).1 (by simp))
    rw [hL0] at this; simp at this

/-- C19: for a mixed sequence of calls, `next_back()` yields `None` and does not disturb what
`next()` yields. -/
theorem C19_hash_mixed_iteration (hB : 0 < B) (hM : M + 1 < 2 ^ 32) (hash : K → Nat) (z : HashNode K V)
    (ops : List (Op K V)) {h : HashTable K V B M} {outs : List (Out K V)}
    (hrun : run (call hash) (HashTable.new z) ops = .ok (h, outs)) :
    ∃ (L : List (K × V)) (it : HashTable.Iter), h.iter = .ok it ∧
      (∀ k v, (k, v) ∈ L ↔ h.get hash k = .ok (some v)) ∧ (L.map Prod.fst).Nodup ∧
      ∀ es, ∃ it', drive (HashTable.Iter.next h) HashTable.Iter.nextBack it es =
        .ok (it', consumeFwd L es) := by
  obtain ⟨h0, os, c, m, e, H, hm, hs⟩ := HashTable.run_new hB hM hash z ops
  rw [hrun] at e; cases e
  obtain ⟨it, _, ei, _⟩ := HashTable.drive_iter H.toHHeld []
  refine ⟨HashTable.kvs (HashTable.all B c), it, ei, fun k v => ?_, hm.nodup, fun es => ?_⟩
  · rw [hm.mem]
    rcases HashTable.lookup_spec H hm k with ⟨hg, _, e1, e2⟩ | ⟨i, v, hg, _, _, _, _, _, e1, e2⟩ <;>
      rw [e1, hg] <;> simp
  · obtain ⟨it1, it', e1, e2⟩ := HashTable.drive_iter H.toHHeld es
    rw [ei] at e1; cases e1
    exact ⟨it', e2⟩

/-- C20: `iter_mut()` driven in any order with writes through every reference: the slots handed
out are pairwise distinct, in bounds, and each is the address of the key read there; the entries
read are a prefix of the list that `iter()` yields (all of it after enough calls); afterwards
exactly the entries visited have the new values, and no address changes. -/
theorem C20_hash_iter_mut (hB : 0 < B) (hM : M + 1 < 2 ^ 32) (hash : K → Nat) (z : HashNode K V)
    (ops : List (Op K V)) {h : HashTable K V B M} {outs : List (Out K V)}
    (hrun : run (call hash) (HashTable.new z) ops = .ok (h, outs)) (es : List (End × (K → V → V))) :
    ∃ (h' : HashTable K V B M) (it : HashTable.Iter) (items : List (Option (Nat × K × V))),
      iterMut h es = .ok (h', it, items) ∧
      ((items.filterMap id).map Prod.fst).Nodup ∧
      (∀ x ∈ items.filterMap id, 1 ≤ x.1 ∧ x.1 ≤ M ∧ h.getAddr hash x.2.1 = .ok x.1 ∧
        h.get hash x.2.1 = .ok (some x.2.2)) ∧
      h'.len = h.len ∧
      (∀ k, h'.getAddr hash k = h.getAddr hash k) ∧
      ∃ (L : List (K × V)), (L.map Prod.fst).Nodup ∧
        (∀ k v, (k, v) ∈ L ↔ h.get hash k = .ok (some v)) ∧
        items.map (Option.map Prod.snd) = (consumeMutFwd L (script es)).1 ∧
        (∀ k v, (k, v) ∈ (consumeMutFwd L (script es)).2 ↔ h'.get hash k = .ok (some v)) := by
  obtain ⟨h0, os, c, m, e, H, hm, hs⟩ := HashTable.run_new hB hM hash z ops
  rw [hrun] at e; cases e
  obtain ⟨h', c', it', e, H', hall⟩ := HashTable.iterMut_spec H es
  have hmap := consumeMutFwd_map (Prod.snd : HashTable.Ent K V → K × V)
    (fun f => HashTable.updE (MapSpec.upd f)) (fun f => MapSpec.upd f) (fun _ _ => rfl) es (HashTable.all B c)
  have hids := consumeMutFwd_snd_map (fun e : HashTable.Ent K V => (e.1, e.2.1))
    (es.map fun e => (e.1, HashTable.updE (MapSpec.upd e.2))) (HashTable.all B c) (by
      intro e he x
      obtain ⟨e', _, rfl⟩ := List.mem_map.1 he
      rfl)
  rw [← hall] at hids hmap
  have hm' := FMap.lists_ofList (L := HashTable.kvs (HashTable.all B c')) H'.keys_nodup
  obtain ⟨rest, hsub⟩ := consumeMutFwd_sub (es.map fun e => (e.1, HashTable.updE (MapSpec.upd e.2)))
    (HashTable.all B c)
  have hmemget : ∀ {h : HashTable K V B M} {c} {m : FMap K V}, HashTable.HRep hash h c → m.Lists (HashTable.kvs (HashTable.all B c)) →
      ∀ k v, (k, v) ∈ HashTable.kvs (HashTable.all B c) ↔ h.get hash k = .ok (some v) := by
    intro h c m H hm k v
    rw [hm.mem]
    rcases HashTable.lookup_spec H hm k with ⟨hg, _, e1, e2⟩ | ⟨i, v, hg, _, _, _, _, _, e1, e2⟩ <;>
      rw [e1, hg] <;> simp
  refine ⟨h', it', _, e, ?_, ?_, ?_, ?_, HashTable.kvs (HashTable.all B c), hm.nodup, hmemget H hm, hmap.1.symm, ?_⟩
  · have := H.nodup_all
    rw [← hsub, HashTable.ids, List.map_append] at this
    exact (List.nodup_append.1 this).1
  · intro x hx
    have hx' : x ∈ HashTable.all B c := by rw [← hsub]; exact List.mem_append_left _ hx
    have hx2 : (x.2.1, x.2.2) ∈ HashTable.kvs (HashTable.all B c) := List.mem_map_of_mem (f := Prod.snd) hx'
    have hx3 := (hm.mem _ _).1 hx2
    rcases HashTable.lookup_spec H hm x.2.1 with ⟨hg, _⟩ | ⟨i, v, hg, hi, ea, h1, h2, _, eg, _⟩
    · rw [hg] at hx3; cases hx3
    · have := HashTable.addr_unique H hi hx'
      rw [hg] at hx3; cases hx3
      rw [← this]; exact ⟨h1, h2, ea, eg⟩
  · rw [H.len, H'.len]
    have := congrArg List.length hids
    simpa only [List.length_map] using this
  · intro k
    rcases HashTable.lookup_spec H hm k with ⟨hg1, e1, _⟩ | ⟨i1, v1, hg1, hm1, e1, _⟩ <;>
      rcases HashTable.lookup_spec H' hm' k with ⟨hg2, e2, _⟩ | ⟨i2, v2, hg2, hm2, e2, _⟩
    · rw [e1, e2]
    · obtain ⟨v', hv'⟩ := MapSpec.all_of_ids hids.symm hm2
      rw [HashTable.get_of_mem hm hv'] at hg1; cases hg1
    · obtain ⟨v', hv'⟩ := MapSpec.all_of_ids hids hm1
      rw [HashTable.get_of_mem hm' hv'] at hg2; cases hg2
    · obtain ⟨v', hv'⟩ := MapSpec.all_of_ids hids hm1
      rw [e1, e2, HashTable.addr_unique H' hm2 hv']
  · unfold script
    rw [hmap.2]
    exact hmemget H' hm'

/-- C21: `insert` returns the address that `get_addr` reports. -/
theorem C21_hash_insert_addr (hB : 0 < B) (hM : M + 1 < 2 ^ 32) (hash : K → Nat) (z : HashNode K V)
    (ops : List (Op K V)) {h h' : HashTable K V B M} {outs : List (Out K V)}
    (hrun : run (call hash) (HashTable.new z) ops = .ok (h, outs)) (k : K) (v : V) (i : Nat)
    (hi : h.insert hash k v = .ok (h', some i)) :
    i ≠ 0 ∧ h'.getAddr hash k = .ok i ∧ h'.getNode i = .ok ⟨k, v⟩ := by
  obtain ⟨h0, os, c, m, e, H, hm, hs⟩ := HashTable.run_new hB hM hash z ops
  rw [hrun] at e; cases e
  rcases HashTable.insert_spec H hM hm k v with ⟨hg, hl, e⟩ | ⟨h', i, c', hg, e, H', hm', hmem, hk⟩
  · rw [hi] at e; cases e
  · rw [hi] at e; cases e
    rcases HashTable.lookup_spec H' hm' k with ⟨hg1, e1, _⟩ | ⟨i1, v1, hg1, hm1, e1, h1, _, e2, _⟩
    · simp [FMap.insert] at hg1
    · have := HashTable.addr_unique H' hm1 hmem
      subst this
      simp [FMap.insert] at hg1
      subst hg1
      exact ⟨by omega, e1, e2⟩

/-- C21: as long as `k` is not removed, its address stays the same and the node there holds
`k` and its current value, whatever else happens. -/
theorem C21_hash_addr_stable (hB : 0 < B) (hM : M + 1 < 2 ^ 32) (hash : K → Nat) (z : HashNode K V)
    (ops ops' : List (Op K V)) {h : HashTable K V B M} {outs : List (Out K V)}
    (hrun : run (call hash) (HashTable.new z) ops = .ok (h, outs)) (k : K) (i : Nat)
    (hi : h.getAddr hash k = .ok i) (hi0 : i ≠ 0) (hno : ∀ k', Op.remove k' ∈ ops' → k' ≠ k) :
    ∃ h' outs', run (call hash) h ops' = .ok (h', outs') ∧ h'.getAddr hash k = .ok i ∧
      ∃ v, h'.getNode i = .ok ⟨k, v⟩ ∧ h'.get hash k = .ok (some v) := by
  obtain ⟨h0, os, c, m, e, H, hm, hs⟩ := HashTable.run_new hB hM hash z ops
  rw [hrun] at e; cases e
  obtain ⟨h', os', E, m', e', ⟨c', H', rfl⟩, hm', _, hk⟩ :=
    MapSpec.run_steps (HashTable.call_spec (hash := hash) hM) ops' h _ m ⟨c, H, rfl⟩ hm
  rcases HashTable.lookup_spec H hm k with ⟨hg1, e1, _⟩ | ⟨i1, v1, hg1, hm1, e1, _⟩
  · rw [hi] at e1; cases e1; exact absurd rfl hi0
  · rw [hi] at e1; cases e1
    obtain ⟨v', hv'⟩ := hk _ _ _ hm1 (fun op hop k' heq => hno k' (heq ▸ hop))
    refine ⟨h', os', e', ?_⟩
    rcases HashTable.lookup_spec H' hm' k with ⟨hg2, e2, _⟩ | ⟨i2, v2, hg2, hm2, e2, _, _, e3, e4, _⟩
    · rw [HashTable.get_of_mem hm' hv'] at hg2; cases hg2
    · have := HashTable.addr_unique H' hm2 hv'
      subst this
      exact ⟨e2, v2, e3, e4⟩

/-- C06 for the hash table: `new_from_slice` on zeroed memory gives `HashTable::new()`, and after
any history a second `new_from_slice` / `initialize` panics. -/
theorem C06_hash_initialize (hB : 0 < B) (hM : M + 1 < 2 ^ 32) (hash : K → Nat) (z : HashNode K V) :
    (HashTable.zeroed z : HashTable K V B M).initialise = .ok (HashTable.new z) ∧
    ∀ (ops : List (Op K V)) (h : HashTable K V B M) (outs : List (Out K V)),
      run (call hash) (HashTable.new z) ops = .ok (h, outs) →
        h.initialise = .error .reinit ∧ ∃ e, h.newFromSlice = .error e := by
  refine ⟨rfl, fun ops h outs hrun => ?_⟩
  obtain ⟨h0, os, c, m, e, H, hm, hs⟩ := HashTable.run_new hB hM hash z ops
  rw [hrun] at e; cases e
  obtain ⟨free, hf⟩ := H.inv
  have : h.initialise = .error .reinit := by
    unfold HashTable.initialise
    rw [NodeAllocator.reinit_of_inv hf]; rfl
  refine ⟨this, ?_⟩
  unfold HashTable.newFromSlice HashTable.assertProperAlignment rassert
  rw [this]
  split <;> exact ⟨_, rfl⟩

/-- C31 for the hash table: with `MAX_SIZE = 0`, `insert` returns `None` and changes nothing (the trees
panic instead). -/
theorem C31_hash_capacity_zero (hB : 0 < B) (hash : K → Nat) (z : HashNode K V) (k : K) (v : V) :
    (HashTable.new z : HashTable K V B 0).insert hash k v = .ok (HashTable.new z, none) := by
  have hb : hash k % B < B := Nat.mod_lt _ hB
  have h0 : (HashTable.new z : HashTable K V B 0).bucket (hash k % B) = .ok SENTINEL := by
    unfold HashTable.bucket
    rw [dif_pos hb]
    simp [HashTable.new]
  unfold HashTable.insert HashTable.bucketIndex
  rw [if_neg (by omega), except_bind_ok, h0, except_bind_ok]
  rfl

omit [DecidableEq K] in
/-- C56: `new()` and `new_from_slice` on zeroed memory succeed exactly for an even number of
buckets. -/
theorem C56_hash_create_iff_even (z : HashNode K V) :
    ((HashTable.create z : R (HashTable K V B M)) = .ok (HashTable.new z) ↔ B % 2 = 0) ∧
    ((HashTable.zeroed z : HashTable K V B M).newFromSlice = .ok (HashTable.new z) ↔ B % 2 = 0) := by
  unfold HashTable.create HashTable.newFromSlice HashTable.assertProperAlignment rassert
  by_cases h : B % 2 = 0
  · simp only [h, decide_true, if_true, iff_true]; exact ⟨rfl, rfl⟩
  · simp only [h, decide_false, iff_false]
    constructor <;> intro hc <;> cases hc

/-- C56 (deviation): with `NUM_BUCKETS = 0` every access panics, on any table and for any key. -/
theorem C56_hash_zero_buckets_panics (hash : K → Nat) (h : HashTable K V 0 M) (k : K) (v : V) :
    h.get hash k = .error .divByZero ∧ h.contains hash k = .error .divByZero ∧
    h.containsInherent hash k = .error .divByZero ∧ h.getAddr hash k = .error .divByZero ∧
    h.getMut hash k = .error .divByZero ∧ h.insert hash k v = .error .divByZero ∧
    h.remove hash k = .error .divByZero ∧ h.iter = .error .indexOutOfBounds :=
  ⟨rfl, rfl, rfl, rfl, rfl, rfl, rfl, rfl⟩

/-! ### non-vacuity -/

/-- A history with collisions (all keys in one bucket), a full table, a refused insert, a
removal, reuse of the slot and an `iter_mut`. -/
example : ∃ h, run (call (fun _ => 0)) (HashTable.new ⟨0, 0⟩ : HashTable Nat Nat 2 2)
    [.insert 7 1, .insert 8 2, .insert 9 3, .getMut 7 (· + 10), .remove 8, .insert 9 4,
      .iterMut [(.back, fun _ v => v), (.front, fun k v => k + v)], .remove 5] =
    .ok (h, [.inserted true, .inserted true, .inserted false, .got (some 1), .removed (some 2),
      .inserted true, .seen [none, some (9, 4)], .removed none]) ∧ h.len = 2 := ⟨_, rfl, rfl⟩

/-- The hypotheses of `C21_hash_addr_stable` hold for key 7 after two colliding inserts. -/
example : ∃ h outs, run (call (fun _ => 0)) (HashTable.new ⟨0, 0⟩ : HashTable Nat Nat 2 2)
    [.insert 7 1, .insert 8 2] = .ok (h, outs) ∧ h.getAddr (fun _ => 0) 7 = .ok 1 := ⟨_, _, rfl, rfl⟩

end Sokoban.Props
