import Verif.Proof.Shared
import Verif.Model.Shared
import Verif.Spec.SharedCritbit
import Verif.Proof.CritbitLaws

/-
Several maps in the memory of one `Critbit`: one of them while the nodes and leaves of the others are in use.
-/
namespace Sokoban
open NodeAllocator MapSpec CritbitSpec
variable {V : Type} {N M : Nat}

namespace Critbit
open CT Ents
variable {s s' s0 : Critbit V N M} {t : CT V} {E : Ents (BitVec 128) V} {k : BitVec 128} {v : V}

/-- node at the top of a map that may be empty -/
def oroot : Option (CT V) → Nat
  | none => 0
  | some t => t.root

/-- its nodes -/
def oids : Option (CT V) → List Nat
  | none => []
  | some t => t.ids

/-- its entries -/
def oents : Option (CT V) → Ents (BitVec 128) V
  | none => []
  | some t => t.ents

theorem oents_nil {o : Option (CT V)} (h : oents o = []) : o = none := by
  cases o with
  | none => rfl
  | some t => exact absurd h t.ents_ne

/-- `s` has the map `o` in place; the nodes `F` and the leaf slots `FS` are in use elsewhere and as they are in `s0` -/
structure Part (F FS : List Nat) (s0 s : Critbit V N M) (o : Option (CT V)) : Prop where
  root : s.root = oroot o
  sh : ∀ t, o = some t → (∃ par, Sh s par t) ∧ Rad t
  gi : GI s (F ++ oids o) (FS ++ (oents o).map Prod.fst)
  reg : ∀ i ∈ F, ∀ r, s.nodeAllocator.reg i r = s0.nodeAllocator.reg i r
  val : ∀ i ∈ F, s.nodeAllocator.val? i = s0.nodeAllocator.val? i
  lv : ∀ i ∈ FS, s.leaves.val? i = s0.leaves.val? i

variable {F FS : List Nat} {o : Option (CT V)}

theorem Part.nodup (h : Part F FS s0 s o) : (oids o).Nodup := by
  obtain ⟨nf, lf, h1, _⟩ := h.gi
  exact (List.nodup_append.1 (List.nodup_append.1 h1.nodup).2.1).2.1

theorem Part.apart (h : Part F FS s0 s o) {i : Nat} (h1 : i ∈ F) (h2 : i ∈ oids o) : False := by
  obtain ⟨nf, lf, h3, _⟩ := h.gi
  exact (List.nodup_append.1 (List.nodup_append.1 h3.nodup).2.1).2.2 i h1 i h2 rfl

theorem Part.slots (h : Part F FS s0 s o) : ((oents o).map Prod.fst).Nodup := by
  obtain ⟨nf, lf, _, _, h3⟩ := h.gi
  exact (List.nodup_append.1 (List.nodup_append.1 h3.nodup).2.1).2.1

theorem Part.slots_apart (h : Part F FS s0 s o) {i : Nat} (h1 : i ∈ FS) (h2 : i ∈ (oents o).map Prod.fst) : False := by
  obtain ⟨nf, lf, _, _, h3⟩ := h.gi
  exact (List.nodup_append.1 (List.nodup_append.1 h3.nodup).2.1).2.2 i h1 i h2 rfl

theorem Part.lsize (h : Part F FS s0 s o) : s.leaves.size = FS.length + (oents o).length := by
  obtain ⟨nf, lf, _, _, h3⟩ := h.gi
  rw [h3.size, List.length_append, List.length_map]

theorem Part.nsize (h : Part F FS s0 s o) : s.nodeAllocator.size = F.length + (oids o).length := by
  obtain ⟨nf, lf, h1, _⟩ := h.gi
  rw [h1.size, List.length_append]

theorem Part.le (h : Part F FS s0 s o) : FS.length + (oents o).length ≤ M := by
  obtain ⟨nf, lf, _, _, h3⟩ := h.gi
  have := h3.live_le
  simpa using this

theorem Part.ids_le (h : Part F FS s0 s o) : F.length + (oids o).length ≤ N := by
  obtain ⟨nf, lf, h1, _⟩ := h.gi
  have := h1.live_le
  simpa using this

theorem Part.height (h : Part F FS s0 s (some t)) : t.height ≤ N := by
  have h1 := h.ids_le
  have h2 := t.height_le
  simp only [oids] at h1
  omega

theorem Part.root_ne (h : Part F FS s0 s (some t)) : ¬ s.root = SENTINEL := by
  obtain ⟨⟨par, hs⟩, _⟩ := h.sh t rfl
  rw [h.root]; exact hs.root_pos

theorem Part.len_ne (h : Part F FS s0 s o) (hl : FS ≠ [] ∨ o ≠ none) : s.len ≠ 0 := by
  have h1 := h.lsize
  unfold len
  rcases hl with hl | hl
  · have := List.length_pos_iff.2 hl; omega
  · have : 0 < (oents o).length := by
      refine List.length_pos_iff.2 fun hc => hl (oents_nil hc)
    omega

/-- the same map seen from another state -/
theorem Part.shift (h : Part F FS s0 s o) {F' FS' : List Nat} (hr : s'.root = s.root)
    (h1 : ∀ i ∈ oids o, ∀ r, s'.nodeAllocator.reg i r = s.nodeAllocator.reg i r)
    (h2 : ∀ i ∈ oids o, s'.nodeAllocator.val? i = s.nodeAllocator.val? i)
    (h3 : ∀ i ∈ (oents o).map Prod.fst, s'.leaves.val? i = s.leaves.val? i)
    (hg : GI s' (F' ++ oids o) (FS' ++ (oents o).map Prod.fst)) : Part F' FS' s' s' o where
  root := hr.trans h.root
  sh t ht := by
    obtain ⟨⟨par, hs⟩, hrad⟩ := h.sh t ht
    subst ht
    exact ⟨⟨par, hs.same h.nodup h1 h2 h3⟩, hrad⟩
  gi := hg
  reg _ _ _ := rfl
  val _ _ := rfl
  lv _ _ := rfl

/-- replacing a value -/
theorem Part.put (h : Part F FS s0 s (some t)) {j : Nat} (hj : j ∈ t.ents.map Prod.fst) (w : V) :
    Part F FS s0 ({ s with leaves := s.leaves.setVal j w }) (some (t.put j w)) := by
  obtain ⟨⟨par, hs⟩, hrad⟩ := h.sh t rfl
  have hE : (t.put j w).ents.map Prod.fst = t.ents.map Prod.fst := by
    rw [ents_put, List.map_map]
    apply List.map_congr_left
    intro e _
    simp only [Function.comp_apply, BT.putE]
    split <;> rfl
  refine ⟨by rw [oroot, root_put]; exact h.root, ?_, ?_, h.reg, h.val, ?_⟩
  · intro t' ht'
    cases ht'
    refine ⟨⟨par, hs.put rfl fun i => ?_⟩, hrad.put⟩
    show (s.leaves.setVal j w).val? i = _
    rw [val?_setVal]
  · obtain ⟨nf, lf, h1, h2, h3⟩ := h.gi
    simp only [oids, oents, ids_put, hE]
    exact ⟨nf, lf, h1, h2, h3.setVal _ _⟩
  · intro i hi
    show (s.leaves.setVal j w).val? i = _
    rw [val?_setVal, if_neg (fun hc => h.slots_apart hi (by rw [hc.1]; exact hj))]
    exact h.lv i hi

theorem Part.find_some (h : Part F FS s0 s (some t)) {n j : Nat} (hm : (n, j, k, v) ∈ t.nents) :
    s.findLoop k (N + 1) s.root = .ok (some n) := by
  have hh := h.height
  obtain ⟨⟨par, hs⟩, hrad⟩ := h.sh t rfl
  rw [show s.root = t.root from h.root]
  rcases findLoop_spec k hs hrad (fuel := N + 1) (by omega) with ⟨ha, _⟩ | ⟨n', j', v', e, hm'⟩
  · exact absurd rfl (ha _ (mem_nents hm).1)
  · obtain ⟨rfl, rfl, rfl⟩ := hrad.unique hm hm'
    exact e

theorem Part.find_none (h : Part F FS s0 s (some t)) (ha : Absent t.ents k) : s.findLoop k (N + 1) s.root = .ok none := by
  have hh := h.height
  obtain ⟨⟨par, hs⟩, hrad⟩ := h.sh t rfl
  rw [show s.root = t.root from h.root]
  rcases findLoop_spec k hs hrad (fuel := N + 1) (by omega) with ⟨_, e⟩ | ⟨n', j', v', e, hm'⟩
  · exact e
  · exact absurd rfl (ha _ (mem_nents hm').1)

theorem Part.leaf (h : Part F FS s0 s (some t)) {n j : Nat} (hm : (n, j, k, v) ∈ t.nents) :
    s.getLeafIndex n = .ok j ∧ s.getLeaf j = .ok v ∧ s.getKey n = .ok k := by
  obtain ⟨⟨par, hs⟩, _⟩ := h.sh t rfl
  obtain ⟨h1, h2, h3⟩ := hs.nents hm
  have hn := hs.range (mem_nents hm).2
  refine ⟨by rw [getLeafIndex_ok hn.2, h1], s.leaves.getValue_ok h3, ?_⟩
  unfold getKey
  rw [s.nodeAllocator.getValue_ok h2]; rfl

theorem Part.nonempty (h : Part F FS s0 s (some t)) : ¬ s.isEmpty = true := by
  have := h.len_ne (Or.inr (by simp))
  simp [isEmpty, this]

theorem Part.get_none (h : Part F FS s0 s (some t)) (ha : Absent t.ents k) : s.get k = .ok none := by
  unfold Critbit.get
  rw [if_neg h.nonempty, h.find_none ha]; rfl

theorem Part.get_some (h : Part F FS s0 s (some t)) {j : Nat} (hj : (j, k, v) ∈ t.ents) : s.get k = .ok (some v) := by
  unfold Critbit.get
  obtain ⟨n, hn⟩ := mem_ents hj
  obtain ⟨h1, h2, _⟩ := h.leaf hn
  rw [if_neg h.nonempty, h.find_some hn]
  simp only [except_bind_ok, h1, h2]; rfl

theorem Part.getMut_none (h : Part F FS s0 s (some t)) (ha : Absent t.ents k) : s.getMut k = .ok none := by
  unfold Critbit.getMut
  rw [if_neg h.nonempty, h.find_none ha]; rfl

theorem Part.getMut_some (h : Part F FS s0 s (some t)) {j : Nat} (hj : (j, k, v) ∈ t.ents) : s.getMut k = .ok (some j) := by
  unfold Critbit.getMut
  obtain ⟨n, hn⟩ := mem_ents hj
  obtain ⟨h1, h2, _⟩ := h.leaf hn
  rw [if_neg h.nonempty, h.find_some hn]
  simp only [except_bind_ok, h1, h2]; rfl

/-- a lookup in an empty map while others hold entries: the root is taken for a node -/
theorem find_sentinel (h : s.root = 0) (key : BitVec 128) : s.findLoop key (N + 1) s.root = .error .indexOutOfBounds := by
  rw [h]; rfl

theorem Part.get_stuck (h : Part F FS s0 s none) (hF : FS ≠ []) (k : BitVec 128) :
    s.get k = .error .indexOutOfBounds ∧ s.getMut k = .error .indexOutOfBounds ∧ s.remove k = .error .indexOutOfBounds := by
  have hl := h.len_ne (Or.inl hF)
  have he : ¬ s.isEmpty = true := by simp [isEmpty, hl]
  refine ⟨?_, ?_, ?_⟩
  · unfold Critbit.get
    rw [if_neg he, find_sentinel h.root]; rfl
  · unfold Critbit.getMut
    rw [if_neg he, find_sentinel h.root]; rfl
  · unfold Critbit.remove
    simp only [if_neg hl, show s.root = 0 from h.root]
    rfl

/-- The laws of iteration for the map in place. -/
theorem walks (F FS : List Nat) (s0 : Critbit V N M) :
    ((api : Api (Critbit V N M) (BitVec 128) V).less FS.length).Walks M
      (fun s E => ∃ o, Part F FS s0 s o ∧ E = oents o ∧ (o = none → s = s0)) It where
  slots := by rintro s E ⟨o, h, rfl, _⟩; exact h.slots
  range := by
    rintro s E ⟨o, h, rfl, _⟩ i hi
    cases o with
    | none => cases hi
    | some t => obtain ⟨⟨par, hs⟩, _⟩ := h.sh t rfl; exact hs.slot_range hi
  le := by rintro s E ⟨o, h, rfl, _⟩; have := h.le; omega
  len := by
    rintro s E ⟨o, h, rfl, _⟩
    have := h.lsize
    show s.leaves.size - FS.length = _
    omega
  empty s := rfl
  contains {s k r} e := by
    show Critbit.contains _ _ = _
    unfold Critbit.contains
    rw [show Critbit.get s k = _ from e]; rfl
  index {s k r} e := by
    show Critbit.index _ _ = _
    unfold Critbit.index
    rw [show Critbit.get s k = _ from e]; rfl
  readVal := by
    rintro s E ⟨o, h, rfl, _⟩ i k v hi
    cases o with
    | none => cases hi
    | some t => obtain ⟨n, hn⟩ := mem_ents hi; exact (h.leaf hn).2.1
  read := by
    rintro s E it l ⟨o, h, rfl, _⟩ hit ⟨n, j⟩ k v hr hi
    have hi : (j, k, v) ∈ oents o := hi
    show (do let v ← s.getLeaf j; let k ← s.getKey n; return (k, v)) = _
    cases o with
    | none => cases hi
    | some t =>
      have hi : (j, k, v) ∈ t.ents := hi
      obtain ⟨n0, hn0⟩ := mem_ents hi
      rw [(h.leaf hn0).2.1]
      obtain ⟨⟨par, hs⟩, _⟩ := h.sh t rfl
      obtain ⟨p, q, hW, _⟩ := hit
      have hmem : (n, j) ∈ t.refs := by
        rcases hW with ⟨h0, _⟩ | ⟨t', h1, h2, h3, h4, h5⟩
        · exact absurd h0 h.root_ne
        · rw [Sk.refs hs.sk h3 (by rw [h1, h.root]; rfl), ← h5]
          exact List.mem_append_left _ (List.mem_append_right _ hr)
      obtain ⟨⟨n', j', k', v'⟩, hm, he⟩ := List.mem_map.1 hmem
      simp only [Prod.mk.injEq] at he
      obtain ⟨rfl, rfl⟩ := he
      have hk : k' = k := by
        have hs : (t.ents.map Prod.fst).Nodup := h.slots
        have h1 := (mem_nents hm).1
        obtain ⟨L1, L2, hL⟩ := List.append_of_mem hi
        have hL : t.ents = _ := hL
        rw [hL] at hs h1
        simp only [List.map_append, List.map_cons] at hs
        obtain ⟨_, hs2, hs3⟩ := List.nodup_append.1 hs
        simp only [List.mem_append, List.mem_cons, Prod.mk.injEq] at h1
        rcases h1 with h1 | ⟨_, h1, _⟩ | h1
        · exact absurd rfl (hs3 j' (List.mem_map_of_mem (f := Prod.fst) h1) j' (List.mem_cons_self))
        · exact h1
        · exact absurd (List.mem_map_of_mem (f := Prod.fst) h1) (List.nodup_cons.1 hs2).1
      subst hk
      rw [except_bind_ok, (h.leaf hm).2.2]; rfl
  write := by
    rintro s L1 i k v L2 ⟨o, h, hE, _⟩ w
    cases o with
    | none => simp [oents] at hE
    | some t =>
      have hE : L1 ++ (i, k, v) :: L2 = t.ents := hE
      have hi : i ∈ t.ents.map Prod.fst := by rw [← hE]; simp
      obtain ⟨⟨par, hs⟩, _⟩ := h.sh t rfl
      have hr := hs.slot_range hi
      refine ⟨{ s with leaves := s.leaves.setVal i w }, ?_, ⟨_, h.put hi w, ?_, fun hc => by cases hc⟩,
        fun it l hi => It.congr (s := s) (s' := { s with leaves := s.leaves.setVal i w }) rfl rfl hi⟩
      · show replaceLeaf _ _ _ = _
        unfold replaceLeaf
        rw [s.leaves.setValue_ok w hr.1 hr.2]; rfl
      · show _ = (t.put i w).ents
        rw [ents_put, ← hE]
        exact (BT.putE_split w (by rw [hE]; exact h.slots)).symm
  it := by
    rintro s E ⟨o, h, rfl, _⟩
    have : ∃ W, Leaves s W ∧ W.map Prod.snd = (oents o).map Prod.fst := by
      cases o with
      | none => exact ⟨[], Or.inl ⟨h.root, rfl⟩, rfl⟩
      | some t =>
        obtain ⟨⟨par, hs⟩, _⟩ := h.sh t rfl
        exact ⟨t.refs, Or.inr ⟨t, h.root.symm, hs.root_pos, hs.sk, h.height, rfl⟩, t.refs_snd⟩
    obtain ⟨W, h1, h2⟩ := this
    exact ⟨W, It.new h1 (by rw [h2]; exact h.slots), h2⟩
  nextMut _ h := h.nextMut
  nextBackMut _ h := h.nextBackMut
  next s it := by
    show Iter.next s it = (Iter.nextMut s it >>= Api.item (Api.less api FS.length) s)
    exact (next_item s it).trans (congrArg (Iter.nextMut s it >>= ·) (Api.less_item api _ s).symm)
  nextBack s it := by
    show Iter.nextBack s it = (Iter.nextBackMut s it >>= Api.item (Api.less api FS.length) s)
    exact (nextBack_item s it).trans (congrArg (Iter.nextBackMut s it >>= ·) (Api.less_item api _ s).symm)

/-- `insert` into the map in place while others hold entries -/
theorem Part.insert (hN : N + 1 < 2 ^ 32) (hNM : 2 * M ≤ N) (h : Part F FS s s o) (hc : F.length + 1 ≤ 2 * FS.length)
    (key : BitVec 128) (v : V) :
    (o = none ∧ FS.length = M ∧ s.insert key v = .error .bufferFull) ∨
    (o ≠ none ∧ FS.length + (oents o).length = M ∧ s.insert key v = .ok (s, none)) ∨
    (FS.length + (oents o).length ≠ M ∧ ∃ s' n j t', s.insert key v = .ok (s', some n) ∧ Part F FS s s' (some t') ∧
      Ins (oents o) key v j t'.ents) := by
  have hM : M + 1 < 2 ^ 32 := by omega
  have hle := h.le
  have hgi := h.gi
  cases o with
  | none =>
    obtain ⟨nf, lf, h1, h2, h3⟩ := hgi
    simp only [oids, oents, List.map_nil, List.append_nil, List.length_nil, Nat.add_zero] at h1 h2 h3 hle
    by_cases hl : FS.length = M
    · refine Or.inl ⟨rfl, hl, ?_⟩
      unfold Critbit.insert
      rw [if_pos (show s.root = SENTINEL from h.root)]
      unfold addLeaf
      obtain ⟨na, a, e1, _⟩ := addNode_clean h1 h2 hN (by decide) (by omega) (⟨key, 128⟩ : CritbitNode)
      rw [e1]
      simp only [except_bind_ok]
      rw [addNode_full h3 hM hl v]
      rfl
    · refine Or.inr (Or.inr ⟨hl, ?_⟩)
      obtain ⟨s1, a, j, e, hr, k1, k2, k3, ha, hal, ha1, haN, hjl, hj1, hjM, ra0, ra1, ra2, ra3, rr, vv, ll⟩ :=
        addLeaf_spec h1 h2 h3 hN hM (by omega) (by omega) key v
      refine ⟨{ s1 with root := a }, a, j, .leaf a j key v, ?_, ⟨rfl, ?_, ⟨_, _, k1.perm ?_, k2.perm ?_, k3.perm ?_⟩, ?_, ?_, ?_⟩,
        Or.inr ⟨by simp [oents, Absent], by simp [oents], [], [], rfl, rfl⟩⟩
      · unfold Critbit.insert
        rw [if_pos (show s.root = SENTINEL from h.root)]
        simp only [e, except_bind_ok]; rfl
      · intro t ht
        cases ht
        refine ⟨⟨s1.nodeAllocator.reg a 2, ra0, ra1, rfl, ra3, ?_, ?_⟩, trivial⟩
        · show s1.nodeAllocator.val? a = _
          rw [vv, if_pos rfl]
        · show s1.leaves.val? j = _
          rw [ll, if_pos rfl]
      · exact (List.perm_append_singleton a F).symm
      · exact (List.perm_append_singleton a F).symm
      · exact (List.perm_append_singleton j FS).symm
      · intro i hi r
        exact rr i r (fun hc => hal (hc ▸ hi))
      · intro i hi
        show s1.nodeAllocator.val? i = _
        have : i ≠ a := fun hc => hal (hc ▸ hi)
        rw [vv, if_neg this]
      · intro i hi
        show s1.leaves.val? i = _
        have : i ≠ j := fun hc => hjl (hc ▸ hi)
        rw [ll, if_neg this]
  | some t =>
    obtain ⟨⟨par, hsh⟩, hrad⟩ := h.sh t rfl
    have hlsz := h.lsize
    have hids := t.ids_length
    have hhe := h.height
    have hnd : t.ids.Nodup := h.nodup
    simp only [oids, oents] at *
    by_cases hl : FS.length + t.ents.length = M
    · refine Or.inr (Or.inl ⟨by simp, hl, ?_⟩)
      unfold Critbit.insert
      rw [if_neg h.root_ne, if_pos (show s.len ≥ s.capacity by
        show s.leaves.size ≥ M
        rw [hlsz, hl])]
      rfl
    · refine Or.inr (Or.inr ⟨hl, ?_⟩)
      have hins : s.insert key v = s.insertLoop key v (N + 1) t.root := by
        unfold Critbit.insert
        rw [if_neg h.root_ne, if_neg (show ¬ s.len ≥ s.capacity by
          show ¬ s.leaves.size ≥ M
          rw [hlsz]; omega), show s.root = t.root from h.root]
      rw [hins]
      rcases insertLoop_spec hgi hN hM (by simp; omega) (by simp; omega) key v hsh hrad hnd
        (fun _ hx => List.mem_append_right _ hx) (fun _ hx => List.mem_append_right _ hx) (fuel := N + 1) (by omega) with
        ⟨n, j, v0, hm, e⟩ | ⟨ha, s', t', a, b, j, e, g⟩
      · obtain ⟨L1, L2, hL⟩ := List.append_of_mem (mem_nents hm).1
        have hE' : (t.put j v).ents = L1 ++ (j, key, v) :: L2 := by
          rw [ents_put, hL]
          exact BT.putE_split v (by rw [← hL]; exact h.slots)
        exact ⟨_, n, j, _, e, h.put (by rw [hL]; simp) v, by rw [hE']; exact Or.inl ⟨L1, v0, L2, hL, rfl⟩⟩
      · refine ⟨s', a, j, t', e, ⟨?_, ?_, g.gi.perm ?_ ?_, ?_, ?_, ?_⟩, g.ins⟩
        · show s'.root = t'.root
          rw [g.root, g.troot]; exact h.root
        · intro t1 ht1
          cases ht1
          exact ⟨⟨par, g.sh⟩, g.rad⟩
        · refine List.Perm.symm ((g.ids.append_left F).trans ?_)
          refine List.perm_middle.trans (List.Perm.cons _ List.perm_middle)
        · rcases g.ins with ⟨L1, v0, L2, h1, h2⟩ | ⟨_, _, L1, L2, h1, h2⟩
          · exact absurd rfl (ha (j, key, v0) (by rw [h1]; simp))
          · simp only [oents]
            rw [h1, h2]
            simp only [List.map_append, List.map_cons]
            rw [← List.append_assoc, ← List.append_assoc]
            exact List.perm_middle.symm
        · intro i hi r
          exact g.reg i (List.mem_append_left _ hi) (fun hc => h.apart hi hc) r
        · intro i hi
          exact g.val i (List.mem_append_left _ hi) (fun hc => h.apart hi hc)
        · intro i hi
          exact g.lv i (List.mem_append_left _ hi)

/-- `remove` from the map in place while others hold entries -/
theorem Part.remove (h : Part F FS s s (some t)) (hF : FS ≠ []) (key : BitVec 128) :
    (Absent t.ents key ∧ s.remove key = .ok (s, none)) ∨
    (∃ i j v, t = .leaf i j key v ∧ s.remove key = .error .assertion) ∨
    (∃ s' v t', s.remove key = .ok (s', some v) ∧ Part F FS s s' (some t') ∧ Del t.ents key v t'.ents) := by
  have hlen := h.len_ne (Or.inl hF)
  have hhe := h.height
  have hg := h.gi
  have hnd : t.ids.Nodup := h.nodup
  have hroot : s.root = t.root := h.root
  have hsz := h.nsize
  have hlsz := h.lsize
  obtain ⟨⟨par, hsh⟩, hrad⟩ := h.sh t rfl
  have hpos := List.length_pos_iff.2 hF
  cases t with
  | leaf y j k0 v0 =>
    obtain ⟨g1, g2, g3, g4, g5, g6⟩ := hsh.leaf
    simp only [root_leaf] at hroot
    simp only [oents, ents_leaf, List.length_singleton] at hlsz
    by_cases hk : k0 = key
    · subst hk
      refine Or.inr (Or.inl ⟨y, j, v0, rfl, ?_⟩)
      have hl1 : ¬ ({ s with root := SENTINEL } : Critbit V N M).len = 1 := by
        show ¬ s.leaves.size = 1
        omega
      unfold Critbit.remove
      simp only [hroot, if_neg hlen, g1, g2, except_bind_ok, Bool.false_eq_true, if_false, if_true]
      rw [decide_eq_false hl1]; rfl
    · refine Or.inl ⟨by intro e he; simp at he; subst he; exact hk, ?_⟩
      unfold Critbit.remove
      simp only [hroot, if_neg hlen, g1, g2, except_bind_ok, Bool.false_eq_true, if_false, if_neg hk]
      rfl
  | inner i p k l r =>
    obtain ⟨g1, g2, g3, g4, g5, g6⟩ := hsh.inner hrad.1
    simp only [CT.height] at hhe
    have hn := hnd
    simp only [ids_inner, List.nodup_cons] at hn
    obtain ⟨hnl, hnr, hlr⟩ := List.nodup_append.1 hn.2
    have hsub : ∀ x ∈ (CT.inner i p k l r).ids, x ∈ F ++ oids (some (CT.inner i p k l r)) :=
      fun _ hx => List.mem_append_right _ hx
    have hsl : ∀ x ∈ (CT.inner i p k l r).ents.map Prod.fst, x ∈ FS ++ (oents (some (CT.inner i p k l r))).map Prod.fst :=
      fun _ hx => List.mem_append_right _ hx
    have hR := removeLoop_spec hg key (fuel := N + 1) (b := true) hsh.2.2.2.2.2.2 hrad.2.2.2.2 hnr
      (fun x hx => hsub x (by simp [hx]))
      (fun x hx => hsl x (by rw [ents_inner, List.map_append, List.mem_append]; exact Or.inr hx)) (by omega)
    have hL := removeLoop_spec hg key (fuel := N + 1) (b := false) hsh.2.2.2.2.2.1 hrad.2.2.2.1 hnl
      (fun x hx => hsub x (by simp [hx]))
      (fun x hx => hsl x (by rw [ents_inner, List.map_append, List.mem_append]; exact Or.inl hx)) (by omega)
    obtain ⟨o, e, ho⟩ := remove_inner hsh hrad hnd hsub hsl hg hR hL
    simp only [root_inner] at hroot
    rcases ho with ⟨ha, rfl⟩ | ⟨pa, ch, b', s', v, t', y, z, j, rfl, ea, g⟩
    · refine Or.inl ⟨ha, ?_⟩
      unfold Critbit.remove
      simp only [hroot, if_neg hlen, g1, g2, g6, except_bind_ok, if_true, e]
      rfl
    · refine Or.inr (Or.inr ?_)
      obtain ⟨L1, L2, hE, hE'⟩ := g.ents
      have hgi : GI s' (F ++ t'.ids) (FS ++ t'.ents.map Prod.fst) := by
        refine g.gi.perm ?_ ?_
        · have hp : (F ++ (CT.inner i p k l r).ids).Perm (y :: z :: (F ++ t'.ids)) :=
            (g.ids.append_left F).trans (List.perm_middle.trans (List.Perm.cons _ List.perm_middle))
          have := (hp.erase y).erase z
          simpa [oids] using this
        · have hp : (FS ++ (CT.inner i p k l r).ents.map Prod.fst).Perm (j :: (FS ++ t'.ents.map Prod.fst)) := by
            rw [hE, hE']
            simp only [List.map_append, List.map_cons]
            rw [← List.append_assoc, ← List.append_assoc]
            exact List.perm_middle
          have := hp.erase j
          simpa [oents] using this
      have hh' : Part F FS s s' (some t') := ⟨by rw [g.root]; show s.root = t'.root; rw [g.troot]; exact hroot,
        fun t1 ht1 => by cases ht1; exact ⟨⟨par, g.sh⟩, g.rad⟩, hgi,
        fun x hx q => g.reg x (fun hc => h.apart hx hc) q, fun x hx => g.val x (fun hc => h.apart hx hc), fun x _ => g.lv x⟩
      have h1 := hh'.nsize
      have h2 := hh'.lsize
      have h4 := g.ids.length_eq
      have h3 : (CT.inner i p k l r).ents.length = t'.ents.length + 1 := by
        rw [hE, hE']; simp; omega
      simp only [oids, oents] at h1 h2 hsz hlsz
      simp only [List.length_cons] at h4
      refine ⟨s', v, t', ?_, hh', ⟨L1, j, L2, hE, hE'⟩⟩
      unfold Critbit.remove
      simp only [hroot, if_neg hlen, g1, g2, g6, except_bind_ok, if_true, e, ea]
      rw [if_neg (by omega), rassert_true (decide_eq_true (by omega)), if_neg (by omega), rassert_true (decide_eq_true (by omega))]
      rfl

/-- how a call on the map in place can fail while others hold entries -/
def Stuck (FS : List Nat) (M : Nat) (o : Option (CT V)) : Op (BitVec 128) V → Panic → Prop
  | .insert _ _, p => p = .bufferFull ∧ o = none ∧ FS.length = M
  | .remove k, p => (p = .indexOutOfBounds ∧ o = none) ∨ (p = .assertion ∧ ∃ i j v, o = some (.leaf i j k v))
  | .getMut _ _, p => p = .indexOutOfBounds ∧ o = none
  | .iterMut _, _ => False

/-- one call on the map in place while others hold entries -/
theorem Part.call (hN : N + 1 < 2 ^ 32) (hNM : 2 * M ≤ N) (h : Part F FS s s o) (hF : FS ≠ [])
    (hc : F.length + 1 ≤ 2 * FS.length) {m : FMap (BitVec 128) V} (hm : m.Lists ((oents o).map Prod.snd)) (op : Op (BitVec 128) V) :
    (∃ s' out o' m', api.call s op = .ok (s', out) ∧ Part F FS s s' o' ∧ m'.Lists ((oents o').map Prod.snd) ∧
      Step (critbitRules (BitVec 128) V (M - FS.length)) m op out m' ∧ (o' = none → s' = s ∧ o = none) ∧ ∀ p, ¬ Stuck FS M o op p) ∨
    (∃ p, Stuck FS M o op p ∧ api.call s op = .error p) := by
  have hle := h.le
  cases op with
  | insert k v =>
    rcases h.insert hN hNM hc k v with ⟨rfl, hl, e⟩ | ⟨ho, hl, e⟩ | ⟨hl, s', n, j, t', e, h', hi⟩
    · exact Or.inr ⟨.bufferFull, ⟨rfl, rfl, hl⟩, by simp only [Api.call, api, e]; rfl⟩
    · refine Or.inl ⟨s, .inserted false, o, m, by simp only [Api.call, api, e]; rfl, h, hm, Or.inl ⟨?_, rfl, rfl⟩,
        fun hn => absurd hn ho, fun p hp => ho hp.2.1⟩
      show m.len = _
      rw [hm.len, List.length_map]; omega
    · refine Or.inl ⟨s', .inserted true, some t', _, by simp only [Api.call, api, e]; rfl, h', hi.lists hm,
        Or.inr ⟨?_, rfl, rfl⟩, fun hn => (by cases hn), fun p hp => hl (by rw [hp.2.1, hp.2.2]; rfl)⟩
      show ¬ m.len = _
      rw [hm.len, List.length_map]; omega
  | remove k =>
    cases o with
    | none =>
      exact Or.inr ⟨.indexOutOfBounds, Or.inl ⟨rfl, rfl⟩, by simp only [Api.call, api, (h.get_stuck hF k).2.2]; rfl⟩
    | some t =>
      rcases h.remove hF k with ⟨ha, e⟩ | ⟨i, j, v, rfl, e⟩ | ⟨s', v, t', e, h', hd⟩
      · have hg := Ents.get_none hm ha
        exact Or.inl ⟨s, .removed none, some t, m, by simp only [Api.call, api, e]; rfl, h, hm,
          ⟨by rw [hg], (FMap.erase_none hg).symm⟩, fun hn => (by cases hn), fun p hp => by
            rcases hp with ⟨_, hp⟩ | ⟨_, i, j, v, hp⟩
            · cases hp
            · cases hp; exact ha (j, k, v) (by simp) rfl⟩
      · exact Or.inr ⟨.assertion, Or.inr ⟨rfl, i, j, v, rfl⟩, by simp only [Api.call, api, e]; rfl⟩
      · obtain ⟨i, hi⟩ := hd.mem
        exact Or.inl ⟨s', .removed (some v), some t', _, by simp only [Api.call, api, e]; rfl, h', hd.lists hm,
          ⟨by rw [Ents.get_some hm hi], rfl⟩, fun hn => (by cases hn), fun p hp => by
            rcases hp with ⟨_, hp⟩ | ⟨_, i, j, w, hp⟩
            · cases hp
            · cases hp
              obtain ⟨L1, i, L2, h1, h2⟩ := hd
              have h4 : ([(j, k, w)] : Ents (BitVec 128) V).length = (L1 ++ (i, k, v) :: L2).length := congrArg List.length h1
              have h3 := List.length_pos_iff.2 t'.ents_ne
              rw [h2] at h3
              rw [List.length_append] at h3 h4
              simp only [List.length_cons, List.length_nil] at h4
              omega⟩
  | getMut k f =>
    cases o with
    | none =>
      exact Or.inr ⟨.indexOutOfBounds, ⟨rfl, rfl⟩, by
        simp only [Api.call, Api.getMutWrite, api, (h.get_stuck hF k).2.1]; rfl⟩
    | some t =>
      left
      rcases Ents.cases t.ents k with ha | ⟨L1, i, v, L2, hE⟩
      · have hg := Ents.get_none hm ha
        exact ⟨s, .got none, some t, m, by simp only [Api.call, Api.getMutWrite, api, h.getMut_none ha]; rfl, h, hm,
          ⟨by rw [hg], (FMap.modify_none f hg).symm⟩, fun hn => (by cases hn), fun p hp => by cases hp.2⟩
      · have hi : (i, k, v) ∈ t.ents := by rw [hE]; simp
        have hg := Ents.get_some hm hi
        obtain ⟨s', e, ⟨o', h', hE', hx⟩, _⟩ := (walks F FS s).write (i := i) (k := k) (v := v) (L1 := L1) (L2 := L2)
          ⟨some t, h, hE.symm, fun hn => by cases hn⟩ (f v)
        have e : s.replaceLeaf i (f v) = .ok s' := e
        obtain ⟨n, hn⟩ := mem_ents hi
        refine ⟨s', .got (some v), o', _, ?_, h', ?_, ⟨by rw [hg], rfl⟩, fun hn => ?_, fun p hp => by cases hp.2⟩
        · simp only [Api.call, Api.getMutWrite, api, h.getMut_some hi, (h.leaf hn).2.1, e, except_bind_ok]; rfl
        · rw [FMap.modify_some f hg, ← hE']
          simp only [oents, hE, List.map_append, List.map_cons] at hm ⊢
          exact hm.insert_old _
        · rw [hn] at hE'; simp [oents] at hE'
  | iterMut es =>
    left
    have hr : ∃ o1, Part F FS s s o1 ∧ oents o = oents o1 ∧ (o1 = none → s = s) := ⟨o, h, rfl, fun _ => rfl⟩
    obtain ⟨s', it', e, ⟨o', h', hE', hx⟩⟩ := (walks F FS s).iterMut (s := s) (E := oents o) hr es
    have hmap := consumeMut_map (Prod.snd : Nat × BitVec 128 × V → BitVec 128 × V)
      (fun f => Api.updV (MapSpec.upd f)) (fun f => MapSpec.upd f) (fun _ _ => rfl) es (oents o)
    have hids := consumeMut_snd_map (fun e : Nat × BitVec 128 × V => (e.1, e.2.1))
      (es.map fun e => (e.1, Api.updV (MapSpec.upd e.2))) (oents o) (by
        intro e he x
        obtain ⟨e', _, rfl⟩ := List.mem_map.1 he
        rfl)
    have sorted : ∀ {s1 : Critbit V N M} {o1 : Option (CT V)}, Part F FS s s1 o1 → Sorted (oents o1) := by
      intro s1 o1 h1
      cases o1 with
      | none => exact List.Pairwise.nil
      | some t => exact (h1.sh t rfl).2.sorted
    have e : api.iterMut s es = _ := e
    have hl : (FMap.ofList ((oents o').map Prod.snd)).Lists ((oents o').map Prod.snd) := by
      refine FMap.lists_ofList ?_
      have := sorted h'
      rw [List.map_map, List.nodup_iff_pairwise_ne, List.pairwise_map]
      exact this.imp (fun h hc => by
        simp only [Function.comp_apply] at hc
        rw [hc] at h; exact BitVec.lt_irrefl _ h)
    refine ⟨s', _, o', _, by simp only [Api.call, e]; rfl, h', hl, ⟨(oents o).map Prod.snd, hm, ?_, ?_, ?_⟩, ?_, fun _ hp => hp⟩
    · show List.Pairwise _ _
      rw [List.pairwise_map]; exact sorted h
    · show Out.seen _ = Out.seen (consumeMut _ _).1
      unfold script; rw [hmap.1]
    · show FMap.Lists _ (consumeMut _ _).2
      unfold script; rw [hmap.2, hE']; exact hl
    · intro hn
      refine ⟨hx hn, oents_nil ?_⟩
      rw [hn] at hE'
      have h0 : oents (none : Option (CT V)) = [] := rfl
      rw [hE', h0] at hids
      exact List.map_eq_nil_iff.1 hids.symm

theorem Inv.part (h : Inv s E) (s0 : Critbit V N M) : ∃ o, E = oents o ∧ Part [] [] s0 s o := by
  rcases h with ⟨⟨h0, nf, lf, h1, h2, h3, _⟩, rfl⟩ | ⟨t, h, rfl⟩
  · exact ⟨none, rfl, h0, (fun _ hc => by cases hc), ⟨nf, lf, h1, h2, h3⟩, fun _ hi => (nomatch hi), fun _ hi => (nomatch hi),
      fun _ hi => (nomatch hi)⟩
  · exact ⟨some t, rfl, h.root, (fun _ hc => by cases hc; exact ⟨⟨0, h.sh⟩, h.rad⟩), h.gi, fun _ hi => (nomatch hi),
      fun _ hi => (nomatch hi), fun _ hi => (nomatch hi)⟩

/-! ### the family of maps -/

open Shared
variable {n : Nat}

/-- the nodes of the maps, in the shape of entries -/
def nodesOf (D : Fin n → Option (CT V)) (j : Fin n) : Ents Unit Unit := (oids (D j)).map fun i => (i, (), ())

/-- the entries of the maps -/
def entsOf (D : Fin n → Option (CT V)) (j : Fin n) : Ents (BitVec 128) V := oents (D j)

theorem nodesOf_fst (D : Fin n → Option (CT V)) (j : Fin n) : (nodesOf D j).map Prod.fst = oids (D j) := by
  unfold nodesOf
  rw [List.map_map]
  exact List.map_id' _

theorem slots_count (D : Fin n → Option (CT V)) (L : List (Fin n)) :
    (slots (nodesOf D) L).length ≤ 2 * (slots (entsOf D) L).length ∧
    (slots (entsOf D) L ≠ [] → (slots (nodesOf D) L).length + 1 ≤ 2 * (slots (entsOf D) L).length) := by
  induction L with
  | nil => exact ⟨Nat.le_refl _, fun h => absurd rfl h⟩
  | cons j L ih =>
    have e1 : (slots (nodesOf D) (j :: L)).length = (oids (D j)).length + (slots (nodesOf D) L).length := by
      unfold slots
      rw [List.flatMap_cons, List.length_append, nodesOf_fst]
    have e2 : (slots (entsOf D) (j :: L)).length = (oents (D j)).length + (slots (entsOf D) L).length := by
      unfold slots
      rw [List.flatMap_cons, List.length_append, List.length_map]; rfl
    have e3 : slots (entsOf D) (j :: L) ≠ [] ↔ 0 < (oents (D j)).length + (slots (entsOf D) L).length := by
      rw [← e2, List.length_pos_iff]
    rw [e3, e1, e2]
    have e4 : slots (entsOf D) L ≠ [] ↔ 0 < (slots (entsOf D) L).length := List.length_pos_iff.symm
    rw [e4] at ih
    cases hD : D j with
    | none => simp only [oids, oents, List.length_nil]; omega
    | some t =>
      have := t.ids_length
      simp only [oids, oents]; omega

theorem total_eq {x : Maps n (BitVec 128) V} {Es : Fin n → Ents (BitVec 128) V}
    (h : ∀ j, (x.maps j).Lists ((Es j).map Prod.snd)) (j : Fin n) :
    x.total = (foreign Es j).length + (Es j).length := by
  have h1 := (foreign_perm Es j).length_eq
  have : x.total = (slots Es (List.finRange n)).length := by
    unfold Maps.total slots
    rw [List.length_flatMap]
    congr 1
    apply List.map_congr_left
    intro j _
    rw [(h j).len]; simp
  rw [this, ← h1, List.length_append, List.length_map]

/-- the client holds the maps `x` -/
structure Fam (c : Client n (Critbit V N M) Nat) (x : Maps n (BitVec 128) V) (D : Fin n → Option (CT V)) : Prop where
  rep : ∀ j, Part (foreign (nodesOf D) j) (foreign (entsOf D) j) c.state (c.view Critbit.root setRoot j) (D j)
  lists : ∀ j, (x.maps j).Lists ((oents (D j)).map Prod.snd)
  cur : c.cur = x.cur
  tidy : ∀ j, (∀ l, l ≠ j → D l = none) → Inv (c.view Critbit.root setRoot j) (oents (D j))

theorem view_cur (c : Client n (Critbit V N M) Nat) : c.view Critbit.root setRoot c.cur = c.state := by
  unfold Client.view Client.aside; rw [if_pos rfl]; rfl

theorem Fam.others {c : Client n (Critbit V N M) Nat} {x : Maps n (BitVec 128) V} {D : Fin n → Option (CT V)} (h : Fam c x D) :
    x.others = (foreign (entsOf D) c.cur).length ∧ x.total = (foreign (entsOf D) c.cur).length + (oents (D c.cur)).length ∧
      (x.maps x.cur).len = (oents (D c.cur)).length := by
  have h1 := total_eq (Es := entsOf D) h.lists c.cur
  have h2 := (h.lists c.cur).len
  rw [List.length_map] at h2
  rw [← h.cur]
  refine ⟨?_, h1, h2⟩
  unfold Maps.others
  have : (entsOf D c.cur).length = (oents (D c.cur)).length := rfl
  rw [← h.cur]; omega

theorem Fam.alone {c : Client n (Critbit V N M) Nat} {x : Maps n (BitVec 128) V} {D : Fin n → Option (CT V)} (_ : Fam c x D)
    {j : Fin n} (hj : foreign (entsOf D) j = []) : ∀ l, l ≠ j → D l = none := by
  intro l hl
  refine oents_nil ?_
  rw [List.eq_nil_iff_forall_not_mem]
  intro e he
  have : e.1 ∈ foreign (entsOf D) j := mem_foreign.2 ⟨l, hl, List.mem_map_of_mem he⟩
  rw [hj] at this; cases this

theorem Fam.alone_nodes {D : Fin n → Option (CT V)} {j : Fin n} (hj : ∀ l, l ≠ j → D l = none) :
    foreign (nodesOf D) j = [] ∧ foreign (entsOf D) j = [] := by
  constructor <;> rw [List.eq_nil_iff_forall_not_mem] <;> intro i hi <;> obtain ⟨l, hl, hi⟩ := mem_foreign.1 hi
  · rw [nodesOf_fst, hj l hl] at hi; cases hi
  · unfold entsOf at hi; rw [hj l hl] at hi; cases hi

theorem Fam.switch {c : Client n (Critbit V N M) Nat} {x : Maps n (BitVec 128) V} {D : Fin n → Option (CT V)} (h : Fam c x D)
    (j : Fin n) : Fam (c.switch Critbit.root setRoot j) ⟨x.maps, j⟩ D := by
  have e : ∀ l, (c.switch Critbit.root setRoot j).view Critbit.root setRoot l = c.view Critbit.root setRoot l := by
    intro l
    unfold Client.view Client.switch Client.aside
    by_cases hl : l = j
    · subst hl; simp [setRoot]
    · simp [setRoot, hl]
  refine ⟨fun l => ?_, h.lists, rfl, fun l hl => ?_⟩
  · rw [e]
    have h1 := h.rep l
    exact ⟨h1.root, h1.sh, h1.gi, h1.reg, h1.val, h1.lv⟩
  · rw [e]; exact h.tidy l hl

/-- the map in place changes -/
theorem Fam.update {c : Client n (Critbit V N M) Nat} {x : Maps n (BitVec 128) V} {D : Fin n → Option (CT V)} (h : Fam c x D)
    {s' : Critbit V N M} {o' : Option (CT V)} {m' : FMap (BitVec 128) V}
    (hp : Part (foreign (nodesOf D) c.cur) (foreign (entsOf D) c.cur) c.state s' o') (hm : m'.Lists ((oents o').map Prod.snd))
    (t1 : (∀ l, l ≠ c.cur → D l = none) → Inv s' (oents o'))
    (t2 : o' = none → (∀ l, l ≠ c.cur → D l = none) ∨ (s' = c.state ∧ D c.cur = none)) :
    Fam { c with state := s' } ⟨fun j => if j = x.cur then m' else x.maps j, x.cur⟩ (fun j => if j = c.cur then o' else D j) := by
  have hn : foreign (nodesOf fun j => if j = c.cur then o' else D j) c.cur = foreign (nodesOf D) c.cur :=
    foreign_congr fun l hl => by simp only [nodesOf, if_neg hl]
  have he : foreign (entsOf fun j => if j = c.cur then o' else D j) c.cur = foreign (entsOf D) c.cur :=
    foreign_congr fun l hl => by simp only [entsOf, if_neg hl]
  have hv : Client.view Critbit.root setRoot { c with state := s' } c.cur = s' := by
    unfold Client.view Client.aside; rw [if_pos rfl]; rfl
  have hg0 := hp.gi
  refine ⟨fun j => ?_, fun j => ?_, h.cur, fun j hj => ?_⟩
  · by_cases hj : j = c.cur
    · subst hj
      rw [hv, hn, he, if_pos rfl]
      exact hp.shift rfl (fun _ _ _ => rfl) (fun _ _ => rfl) (fun _ _ => rfl) hp.gi
    · rw [if_neg hj]
      have hin : ∀ i ∈ oids (D j), i ∈ foreign (nodesOf D) c.cur := fun i hi =>
        mem_foreign.2 ⟨j, hj, by rw [nodesOf_fst]; exact hi⟩
      have hil : ∀ i ∈ (oents (D j)).map Prod.fst, i ∈ foreign (entsOf D) c.cur := fun i hi =>
        mem_foreign.2 ⟨j, hj, hi⟩
      have h1 := (h.rep j).shift (s' := Client.view Critbit.root setRoot { c with state := s' } j)
        (F' := foreign (nodesOf fun j => if j = c.cur then o' else D j) j)
        (FS' := foreign (entsOf fun j => if j = c.cur then o' else D j) j)
        (by simp only [Client.view, Client.aside, if_neg hj, setRoot]) (fun i hi r => hp.reg i (hin i hi) r)
        (fun i hi => hp.val i (hin i hi)) (fun i hi => hp.lv i (hil i hi)) (by
          have p1 := foreign_perm (nodesOf fun j => if j = c.cur then o' else D j) c.cur
          have p2 := foreign_perm (nodesOf fun j => if j = c.cur then o' else D j) j
          rw [hn, nodesOf_fst, if_pos rfl] at p1
          rw [nodesOf_fst, if_neg hj] at p2
          have q1 := foreign_perm (entsOf fun j => if j = c.cur then o' else D j) c.cur
          have q2 := foreign_perm (entsOf fun j => if j = c.cur then o' else D j) j
          rw [he] at q1
          simp only [entsOf, if_pos] at q1
          simp only [entsOf, if_neg hj] at q2
          exact GI.perm (s := s') hg0 (p1.trans p2.symm) (q1.trans q2.symm))
      exact ⟨h1.root, h1.sh, h1.gi, fun _ _ _ => rfl, fun _ _ => rfl, fun _ _ => rfl⟩
  · simp only [← h.cur]
    by_cases hj : j = c.cur
    · simp only [if_pos hj]; exact hm
    · simp only [if_neg hj]; exact h.lists j
  · by_cases hjc : j = c.cur
    · subst hjc
      rw [hv, if_pos rfl]
      exact t1 fun l hl => by have := hj l hl; rwa [if_neg hl] at this
    · rw [if_neg hjc]
      have ho : o' = none := by have := hj c.cur (Ne.symm hjc); rwa [if_pos rfl] at this
      rcases t2 ho with h1 | ⟨h1, h2⟩
      · rw [h1 j hjc]
        have h3 := t1 h1
        rw [ho] at h3
        have h4 : s'.root = 0 := by rw [hp.root, ho]; rfl
        have h5 : c.saved j = 0 := by
          have := (h.rep j).root
          rw [h1 j hjc] at this
          simpa [Client.view, Client.aside, hjc, setRoot, oroot] using this
        have h6 : Client.view Critbit.root setRoot { c with state := s' } j = s' := by
          simp only [Client.view, Client.aside, if_neg hjc, h5, setRoot]
          rw [← h4]
        rw [h6]; exact h3
      · have h3 := h.tidy j (fun l hl => by
          by_cases hlc : l = c.cur
          · rw [hlc]; exact h2
          · have := hj l hl; rwa [if_neg hlc] at this)
        rw [h1]; exact h3

theorem fails_unique {cap : Nat} {x : Maps n (BitVec 128) V} {op : Op (BitVec 128) V} {p q : Panic}
    (h1 : CritbitFails cap x op p) (h2 : CritbitFails cap x op q) : p = q := by
  cases op with
  | insert k v => exact h1.1.trans h2.1.symm
  | remove k =>
    rcases h1 with ⟨rfl, h1, _⟩ | ⟨rfl, h1, _⟩ <;> rcases h2 with ⟨rfl, h2, _⟩ | ⟨rfl, h2, _⟩
    · rfl
    · omega
    · omega
    · rfl
  | getMut k f => exact h1.1.trans h2.1.symm
  | iterMut es => exact absurd h1 (fun h => h)

/-- the two descriptions of failing calls -/
theorem Fam.stuck {c : Client n (Critbit V N M) Nat} {x : Maps n (BitVec 128) V} {D : Fin n → Option (CT V)} (h : Fam c x D)
    (hF : foreign (entsOf D) c.cur ≠ []) (op : Op (BitVec 128) V) (p : Panic) :
    Stuck (foreign (entsOf D) c.cur) M (D c.cur) op p ↔ CritbitFails M x op p := by
  obtain ⟨h1, h2, h3⟩ := h.others
  have hpos := List.length_pos_iff.2 hF
  have hm := h.lists c.cur
  have hnone : D c.cur = none ↔ (oents (D c.cur)).length = 0 :=
    ⟨fun hd => by rw [hd]; rfl, fun hd => oents_nil (List.length_eq_zero_iff.1 hd)⟩
  cases op with
  | insert k v =>
    simp only [Stuck, CritbitFails, hnone, h2, h3]
    constructor
    · rintro ⟨e1, e2, e3⟩; exact ⟨e1, e2, by omega⟩
    · rintro ⟨e1, e2, e3⟩; exact ⟨e1, e2, by omega⟩
  | getMut k f =>
    simp only [Stuck, CritbitFails, hnone, h2, h3]
    constructor
    · rintro ⟨e1, e2⟩; exact ⟨e1, e2, by omega⟩
    · rintro ⟨e1, e2, e3⟩; exact ⟨e1, e2⟩
  | iterMut es => exact Iff.rfl
  | remove k =>
    simp only [Stuck, CritbitFails, hnone, h2, h3]
    refine or_congr ⟨fun ⟨e1, e2⟩ => ⟨e1, e2, by omega⟩, fun ⟨e1, e2, _⟩ => ⟨e1, e2⟩⟩ (and_congr Iff.rfl ?_)
    constructor
    · rintro ⟨i, j, v, hd⟩
      rw [hd] at hm
      rw [hd, ← h.cur, Ents.get_some hm (i := j) (k := k) (v := v) (by simp [oents])]
      simp only [oents, ents_leaf, List.length_cons, List.length_nil]
      exact ⟨by simp, by simp, by omega⟩
    · rintro ⟨e1, e2, _⟩
      cases hd : D c.cur with
      | none => rw [hd] at e1; simp [oents] at e1
      | some t =>
        rw [hd] at e1 hm
        cases t with
        | leaf i j k' v =>
          by_cases hk : k' = k
          · subst hk; exact ⟨i, j, v, rfl⟩
          · rw [← h.cur, Ents.get_none hm (by intro e he; simp [oents] at he; subst he; exact hk)] at e2
            exact absurd rfl e2
        | inner i q k' l r =>
          have q1 := List.length_pos_iff.2 l.ents_ne
          have q2 := List.length_pos_iff.2 r.ents_ne
          simp only [oents, ents_inner, List.length_append] at e1
          omega

/-- one call of the client -/
theorem Fam.act (hN : N + 1 < 2 ^ 32) (hNM : 2 * M ≤ N) (hM0 : 0 < M) {c : Client n (Critbit V N M) Nat}
    {x : Maps n (BitVec 128) V} {D : Fin n → Option (CT V)} (h : Fam c x D) (op : Op (BitVec 128) V) :
    (∃ s' o D' y, api.call c.state op = .ok (s', o) ∧ Fam { c with state := s' } y D' ∧
      Shared.Step (critbitRules (BitVec 128) V) M x (.call op) (.did o) y ∧ (∀ p, ¬ CritbitFails M x op p) ∧
      ∀ i j, i ≠ j → D i ≠ none → D j ≠ none → D' i ≠ none ∧ D' j ≠ none) ∨
    (∃ p, CritbitFails M x op p ∧ api.call c.state op = .error p) := by
  obtain ⟨h1, h2, h3⟩ := h.others
  by_cases hF : foreign (entsOf D) c.cur = []
  · left
    have hal := h.alone hF
    obtain ⟨hn0, _⟩ := Fam.alone_nodes hal
    have hi := h.tidy c.cur hal
    rw [view_cur] at hi
    obtain ⟨s', o, E', m', e, hi', hm', hst, _⟩ := call_spec hN hNM hM0 c.state _ _ op hi (h.lists c.cur)
    obtain ⟨o', rfl, hp⟩ := hi'.part c.state
    refine ⟨s', o, _, _, e, h.update (m' := m') (by rw [hn0, hF]; exact hp) hm' (fun _ => hi') (fun _ => Or.inl hal),
      ⟨m', ?_, rfl⟩, ?_, ?_⟩
    · rw [h1, hF, ← h.cur]; exact hst
    · intro p hp
      rw [hF, List.length_nil, Nat.zero_add] at h2
      cases op with
      | insert k v => have := hp.2.1; have := hp.2.2; omega
      | remove k => rcases hp with ⟨_, q1, q2⟩ | ⟨_, q1, _, q2⟩ <;> omega
      | getMut k f => have := hp.2.1; have := hp.2.2; omega
      | iterMut es => exact hp
    · intro i j hij hi hj
      by_cases hic : i = c.cur
      · exact absurd (hal j (fun hc => hij (hic.trans hc.symm))) hj
      · exact absurd (hal i hic) hi
  · have hp := h.rep c.cur
    rw [view_cur] at hp
    have hc := (slots_count D ((List.finRange n).filter (· ≠ c.cur))).2 hF
    rcases hp.call hN hNM hF hc (h.lists c.cur) op with ⟨s', o, o', m', e, hp', hm', hst, ho, hns⟩ | ⟨p, hs, e⟩
    · left
      refine ⟨s', o, _, _, e, h.update (m' := m') hp' hm' (fun hal => absurd (Fam.alone_nodes hal).2 hF) (fun hn => Or.inr (ho hn)),
        ⟨m', ?_, rfl⟩, fun p hp => hns p ((h.stuck hF op p).2 hp), fun i j _ hi hj => ?_⟩
      · rw [h1, ← h.cur]; exact hst
      · have keep : ∀ l, D l ≠ none → (if l = c.cur then o' else D l) ≠ none := by
          intro l hl
          split
          · rename_i hlc
            intro hn
            exact hl (by rw [hlc]; exact (ho hn).2)
          · exact hl
        exact ⟨keep i hi, keep j hj⟩
    · exact Or.inr ⟨p, (h.stuck hF op p).1 hs, e⟩

theorem run_fam (hN : N + 1 < 2 ^ 32) (hNM : 2 * M ≤ N) (hM0 : 0 < M) : ∀ (ops : List (Shared.Op n (BitVec 128) V))
    (c : Client n (Critbit V N M) Nat) (x : Maps n (BitVec 128) V) (D : Fin n → Option (CT V)), Fam c x D →
    ∀ c' os, run (exec Critbit.root setRoot api.call) c ops = .ok (c', os) →
    ∃ x' D', Trace (Shared.Step (critbitRules (BitVec 128) V) M) x ops os x' ∧ Fam c' x' D' ∧
      ∀ i j, i ≠ j → D i ≠ none → D j ≠ none → D' i ≠ none ∧ D' j ≠ none
  | [], c, x, D, h, c', os, e => by cases e; exact ⟨x, D, rfl, h, fun i j _ hi hj => ⟨hi, hj⟩⟩
  | .switch j :: ops, c, x, D, h, c', os, e => by
    have e0 : exec Critbit.root setRoot (api (V := V) (N := N) (M := M)).call c (.switch j) = .ok (c.switch Critbit.root setRoot j, .switched) := rfl
    simp only [run, e0, except_bind_ok] at e
    cases er : run (exec Critbit.root setRoot api.call) (c.switch Critbit.root setRoot j) ops with
    | error p => rw [er] at e; cases e
    | ok r =>
      obtain ⟨c1, os1⟩ := r
      rw [er] at e; cases e
      obtain ⟨x', D', ht, hf, hk⟩ := run_fam hN hNM hM0 ops _ _ _ (h.switch j) _ _ er
      exact ⟨x', D', ⟨_, rfl, ht⟩, hf, hk⟩
  | .call op :: ops, c, x, D, h, c', os, e => by
    rcases h.act hN hNM hM0 op with ⟨s', o, D1, y, e0, hf1, hst, _, hk1⟩ | ⟨p, _, e0⟩
    · have e1 : exec Critbit.root setRoot api.call c (.call op) = .ok ({ c with state := s' }, .did o) := by
        simp only [exec, e0, except_bind_ok]; rfl
      simp only [run, e1, except_bind_ok] at e
      cases er : run (exec Critbit.root setRoot api.call) { c with state := s' } ops with
      | error p => rw [er] at e; cases e
      | ok r =>
        obtain ⟨c1, os1⟩ := r
        rw [er] at e; cases e
        obtain ⟨x', D', ht, hf, hk⟩ := run_fam hN hNM hM0 ops _ _ _ hf1 _ _ er
        refine ⟨x', D', ⟨_, hst, ht⟩, hf, fun i j hij hi hj => ?_⟩
        obtain ⟨q1, q2⟩ := hk1 i j hij hi hj
        exact hk i j hij q1 q2
    · simp only [run, exec, e0] at e; cases e

/-- a client of a new tree -/
theorem Fam.start (z : CritbitNode) (w : V) (j0 : Fin n) :
    Fam ⟨(new z w : Critbit V N M), fun _ => SENTINEL, j0⟩ ⟨fun _ => FMap.empty, j0⟩ (fun _ => none) := by
  have hi : Inv (new z w : Critbit V N M) [] := Inv.new z w
  have e : ∀ j, Client.view Critbit.root setRoot (⟨(new z w : Critbit V N M), fun _ => SENTINEL, j0⟩ : Client n _ _) j = new z w := by
    intro j
    unfold Client.view Client.aside
    split <;> rfl
  obtain ⟨o, ho, hp⟩ := hi.part (new z w)
  obtain rfl := oents_nil ho.symm
  refine ⟨fun j => ?_, fun _ => FMap.lists_empty, rfl, fun j _ => by rw [e]; exact hi⟩
  obtain ⟨h1, h2⟩ := Fam.alone_nodes (D := fun _ : Fin n => (none : Option (CT V))) (j := j) (fun _ _ => rfl)
  rw [e, h1, h2]; exact hp

theorem Fam.shows (hN : N + 1 < 2 ^ 32) (hNM : 2 * M ≤ N) (hM0 : 0 < M) {c : Client n (Critbit V N M) Nat}
    {x : Maps n (BitVec 128) V} {D : Fin n → Option (CT V)} (h : Fam c x D) (j : Fin n) :
    CritbitShows (c.view Critbit.root setRoot j) (x.maps j) x.total := by
  have hr := h.rep j
  have hm := h.lists j
  have ht := total_eq (Es := entsOf D) h.lists j
  have hl : (x.maps j).len = (oents (D j)).length := by rw [hm.len, List.length_map]
  have ht : x.total = (foreign (entsOf D) j).length + (oents (D j)).length := ht
  have hr' : Part (foreign (nodesOf D) j) (foreign (entsOf D) j) (c.view Critbit.root setRoot j) (c.view Critbit.root setRoot j) (D j) :=
    hr.shift rfl (fun _ _ _ => rfl) (fun _ _ => rfl) (fun _ _ => rfl) hr.gi
  have hd := (walks (foreign (nodesOf D) j) (foreign (entsOf D) j) (c.view Critbit.root setRoot j)).drive
    (s := c.view Critbit.root setRoot j) (E := oents (D j)) ⟨D j, hr', rfl, fun _ => rfl⟩
  refine ⟨fun h0 h1 => ⟨fun k => ?_, ?_⟩, fun h0 => ?_⟩
  · have hn : D j = none := oents_nil (List.length_eq_zero_iff.1 (by omega))
    have hF : foreign (entsOf D) j ≠ [] := List.length_pos_iff.1 (by omega)
    rw [hn] at hr
    have e := (hr.get_stuck hF k).1
    refine ⟨e, ?_, ?_⟩
    · unfold Critbit.contains; rw [e]; rfl
    · unfold Critbit.index; rw [e]; rfl
  · have hn : D j = none := oents_nil (List.length_eq_zero_iff.1 (by omega))
    rw [hn] at hd
    exact hd
  · by_cases hn : D j = none
    · have h0' : x.total = 0 := by
        rw [hn] at hl
        have : (oents (none : Option (CT V))).length = 0 := rfl
        omega
      have hF : foreign (entsOf D) j = [] := List.length_eq_zero_iff.1 (by omega)
      have hi := h.tidy j (h.alone hF)
      have H := laws (V := V) hN hNM hM0
      obtain ⟨g1, g2, g3, _⟩ := H.observe hi hm
      exact ⟨g1, g2, g3, _, hm, by rw [List.pairwise_map]; exact H.sorted hi, H.drive hi⟩
    · obtain ⟨t, hD⟩ := Option.ne_none_iff_exists'.1 hn
      rw [hD] at hr hm hd
      have hg : ∀ k, (c.view Critbit.root setRoot j).get k = .ok ((x.maps j).get k) := by
        intro k
        rcases Ents.cases t.ents k with ha | ⟨L1, i, v, L2, hE⟩
        · rw [hr.get_none ha, Ents.get_none hm ha]
        · have hi : (i, k, v) ∈ t.ents := by rw [hE]; simp
          rw [hr.get_some hi, Ents.get_some hm hi]
      refine ⟨hg, fun k => ?_, fun k => ?_, _, hm, ?_, hd⟩
      · show Critbit.contains _ _ = _
        unfold Critbit.contains; rw [hg]; rfl
      · show Critbit.index _ _ = _
        unfold Critbit.index; rw [hg]; rfl
      · rw [List.pairwise_map]; exact (hr.sh t rfl).2.sorted

/-- the roots show which maps are empty -/
theorem Fam.roots {c : Client n (Critbit V N M) Nat} {x : Maps n (BitVec 128) V} {D : Fin n → Option (CT V)} (h : Fam c x D)
    (j : Fin n) : c.aside Critbit.root j = SENTINEL ↔ D j = none := by
  have hr := h.rep j
  have e : (c.view Critbit.root setRoot j).root = c.aside Critbit.root j := rfl
  cases hd : D j with
  | none => rw [hd] at hr; exact ⟨fun _ => rfl, fun _ => by rw [← e, hr.root]; rfl⟩
  | some t => rw [hd] at hr; exact ⟨fun q => absurd (e.trans q) hr.root_ne, fun q => by cases q⟩

theorem Fam.size {c : Client n (Critbit V N M) Nat} {x : Maps n (BitVec 128) V} {D : Fin n → Option (CT V)} (h : Fam c x D) :
    c.state.len = x.total ∧ x.total ≤ M := by
  have h1 := h.rep c.cur
  rw [view_cur] at h1
  obtain ⟨_, h2, _⟩ := h.others
  have := h1.lsize
  have := h1.le
  exact ⟨by show c.state.leaves.size = _; omega, by omega⟩

end Critbit
end Sokoban
