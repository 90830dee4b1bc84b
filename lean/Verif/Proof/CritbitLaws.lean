import Verif.Proof.CritbitIter
import Verif.Proof.CritbitRemove

/-
A `Critbit` satisfies the laws of a map interface (`Api.Laws`).
-/
namespace Sokoban
open NodeAllocator MapSpec CritbitSpec
variable {V : Type} {N M : Nat}

namespace Critbit
open CT Ents
variable {s s' : Critbit V N M} {t : CT V} {E : Ents (BitVec 128) V} {k : BitVec 128} {v : V}

/-- a tree that holds no key; the next node that `add_node` takes has no stale parent -/
def Empty (s : Critbit V N M) : Prop :=
  s.root = 0 ∧ ∃ nf lf, AInv s.nodeAllocator nf [] ∧ Clean s.nodeAllocator Sr [] ∧ AInv s.leaves lf [] ∧
    s.nodeAllocator.reg (nf.headD s.nodeAllocator.bumpIndex) 2 = 0

/-- the registers of `s` spell the tree `t`, both allocators are in order -/
structure Holds (s : Critbit V N M) (t : CT V) : Prop where
  root : s.root = t.root
  sh : Sh s 0 t
  rad : Rad t
  gi : GI s t.ids (t.ents.map Prod.fst)

/-- the state `s` holds the entries `E` -/
def Inv (s : Critbit V N M) (E : Ents (BitVec 128) V) : Prop :=
  (Empty s ∧ E = []) ∨ ∃ t, Holds s t ∧ E = t.ents

theorem Inv.new (z : CritbitNode) (w : V) : Inv (new z w : Critbit V N M) [] :=
  Or.inl ⟨⟨rfl, [], [], new_AInv _, new_Clean _ _, new_AInv _, reg_new _ _ _⟩, rfl⟩

theorem Holds.nodup (h : Holds s t) : t.ids.Nodup := by
  obtain ⟨nf, lf, h1, _⟩ := h.gi
  exact (List.nodup_append.1 h1.nodup).2.1

theorem Holds.slots (h : Holds s t) : (t.ents.map Prod.fst).Nodup := by
  obtain ⟨nf, lf, _, _, h3⟩ := h.gi
  exact (List.nodup_append.1 h3.nodup).2.1

theorem Holds.lsize (h : Holds s t) : s.leaves.size = t.ents.length := by
  obtain ⟨nf, lf, _, _, h3⟩ := h.gi
  rw [h3.size, List.length_map]

theorem Holds.nsize (h : Holds s t) : s.nodeAllocator.size + 1 = 2 * t.ents.length := by
  obtain ⟨nf, lf, h1, _⟩ := h.gi
  rw [h1.size, t.ids_length]

theorem Holds.le (h : Holds s t) : t.ents.length ≤ M := by
  obtain ⟨nf, lf, _, _, h3⟩ := h.gi
  have := h3.live_le
  simpa using this

theorem Holds.ids_le (h : Holds s t) : t.ids.length ≤ N := by
  obtain ⟨nf, lf, h1, _⟩ := h.gi
  exact h1.live_le

theorem Holds.height (h : Holds s t) : t.height ≤ N := Nat.le_trans t.height_le h.ids_le

theorem Holds.root_ne (h : Holds s t) : ¬ s.root = SENTINEL := by
  rw [h.root]; exact h.sh.root_pos

theorem Holds.len_ne (h : Holds s t) : s.len ≠ 0 := by
  have := h.lsize
  unfold len
  rw [this]
  have := List.length_pos_iff.2 t.ents_ne; omega

theorem Empty.len (h : Empty s) : s.len = 0 := by
  obtain ⟨_, nf, lf, _, _, h3, _⟩ := h
  exact h3.size

theorem Inv.len (h : Inv s E) : s.len = E.length := by
  rcases h with ⟨h, rfl⟩ | ⟨t, h, rfl⟩
  · exact h.len
  · exact h.lsize

theorem Inv.sizes (h : Inv s E) : s.nodeAllocator.size = 2 * E.length - 1 ∧ s.leaves.size = E.length := by
  rcases h with ⟨⟨_, nf, lf, h1, _, h3, _⟩, rfl⟩ | ⟨t, h, rfl⟩
  · exact ⟨h1.size, h3.size⟩
  · have := h.nsize
    exact ⟨by omega, h.lsize⟩

theorem Inv.le (h : Inv s E) : E.length ≤ M := by
  rcases h with ⟨h, rfl⟩ | ⟨t, h, rfl⟩
  · simp
  · exact h.le

/-- replacing a value -/
theorem Holds.put (h : Holds s t) {j : Nat} (w : V) :
    Holds ({ s with leaves := s.leaves.setVal j w }) (t.put j w) := by
  refine ⟨by rw [root_put]; exact h.root, h.sh.put rfl (fun i => ?_), h.rad.put, ?_⟩
  · show (s.leaves.setVal j w).val? i = _
    rw [val?_setVal]
  · obtain ⟨nf, lf, h1, h2, h3⟩ := h.gi
    refine ⟨nf, lf, by rw [ids_put]; exact h1, by rw [ids_put]; exact h2, ?_⟩
    have : (t.put j w).ents.map Prod.fst = t.ents.map Prod.fst := by
      rw [ents_put, List.map_map]
      apply List.map_congr_left
      intro e _
      simp only [Function.comp_apply, BT.putE]
      split <;> rfl
    rw [this]
    exact h3.setVal _ _

theorem Holds.find (h : Holds s t) (key : BitVec 128) {fuel : Nat} (hf : t.height ≤ fuel) :
    (Absent t.ents key ∧ s.findLoop key fuel s.root = .ok none) ∨
    (∃ n j v, s.findLoop key fuel s.root = .ok (some n) ∧ (n, j, key, v) ∈ t.nents) := by
  rw [h.root]; exact findLoop_spec key h.sh h.rad hf

theorem Holds.find_some (h : Holds s t) {n j : Nat} (hm : (n, j, k, v) ∈ t.nents) :
    s.findLoop k (N + 1) s.root = .ok (some n) := by
  have hh := h.height
  rcases h.find k (fuel := N + 1) (by omega) with ⟨ha, _⟩ | ⟨n', j', v', e, hm'⟩
  · exact absurd rfl (ha _ (mem_nents hm).1)
  · obtain ⟨rfl, rfl, rfl⟩ := h.rad.unique hm hm'
    exact e

theorem Holds.find_none (h : Holds s t) (ha : Absent t.ents k) : s.findLoop k (N + 1) s.root = .ok none := by
  have hh := h.height
  rcases h.find k (fuel := N + 1) (by omega) with ⟨_, e⟩ | ⟨n', j', v', e, hm'⟩
  · exact e
  · exact absurd rfl (ha _ (mem_nents hm').1)

theorem Holds.leaf (h : Holds s t) {n j : Nat} (hm : (n, j, k, v) ∈ t.nents) :
    s.getLeafIndex n = .ok j ∧ s.getLeaf j = .ok v ∧ s.getKey n = .ok k ∧ s.getNode n = .ok ⟨k, 128⟩ ∧
      1 ≤ n ∧ n ≤ N := by
  obtain ⟨h1, h2, h3⟩ := h.sh.nents hm
  have hn := h.sh.range (mem_nents hm).2
  refine ⟨by rw [getLeafIndex_ok hn.2, h1], s.leaves.getValue_ok h3, ?_, s.nodeAllocator.getValue_ok h2, hn⟩
  unfold getKey
  rw [s.nodeAllocator.getValue_ok h2]; rfl

theorem Inv.get_none (h : Inv s E) (ha : Absent E k) : s.get k = .ok none := by
  unfold Critbit.get
  rcases h with ⟨h, rfl⟩ | ⟨t, h, rfl⟩
  · rw [if_pos (show s.isEmpty = true by simp [isEmpty, h.len])]; rfl
  · rw [if_neg (show ¬ s.isEmpty = true by simp [isEmpty, h.len_ne]), h.find_none ha]; rfl

theorem Inv.get_some (h : Inv s E) {j : Nat} (hj : (j, k, v) ∈ E) : s.get k = .ok (some v) := by
  unfold Critbit.get
  rcases h with ⟨h, rfl⟩ | ⟨t, h, rfl⟩
  · cases hj
  · obtain ⟨n, hn⟩ := mem_ents hj
    obtain ⟨h1, h2, _⟩ := h.leaf hn
    rw [if_neg (show ¬ s.isEmpty = true by simp [isEmpty, h.len_ne]), h.find_some hn]
    simp only [except_bind_ok, h1, h2]; rfl

theorem Inv.getMut_none (h : Inv s E) (ha : Absent E k) : s.getMut k = .ok none := by
  unfold Critbit.getMut
  rcases h with ⟨h, rfl⟩ | ⟨t, h, rfl⟩
  · rw [if_pos (show s.isEmpty = true by simp [isEmpty, h.len])]; rfl
  · rw [if_neg (show ¬ s.isEmpty = true by simp [isEmpty, h.len_ne]), h.find_none ha]; rfl

theorem Inv.getMut_some (h : Inv s E) {j : Nat} (hj : (j, k, v) ∈ E) : s.getMut k = .ok (some j) := by
  unfold Critbit.getMut
  rcases h with ⟨h, rfl⟩ | ⟨t, h, rfl⟩
  · cases hj
  · obtain ⟨n, hn⟩ := mem_ents hj
    obtain ⟨h1, h2, _⟩ := h.leaf hn
    rw [if_neg (show ¬ s.isEmpty = true by simp [isEmpty, h.len_ne]), h.find_some hn]
    simp only [except_bind_ok, h1, h2]; rfl

theorem Holds.getAddr_none (h : Holds s t) (ha : Absent t.ents k) : s.getAddr k = .ok SENTINEL := by
  unfold getAddr
  rw [h.find_none ha]; rfl

theorem Holds.getAddr_some (h : Holds s t) {n j : Nat} (hm : (n, j, k, v) ∈ t.nents) : s.getAddr k = .ok n := by
  unfold getAddr
  rw [h.find_some hm]; rfl

theorem Empty.getAddr (h : Empty s) (k : BitVec 128) : s.getAddr k = .error .indexOutOfBounds := by
  unfold Critbit.getAddr
  rw [h.1]; rfl

/-- the bump index of the nodes follows their number, and the nodes from there on keep their contents -/
def Past (s s' : Critbit V N M) : Prop :=
  s'.nodeAllocator.bumpIndex = max s.nodeAllocator.bumpIndex (s'.nodeAllocator.size + 1) ∧
    ∀ i, s'.nodeAllocator.bumpIndex ≤ i → s'.nodeAllocator.val? i = s.nodeAllocator.val? i

/-- `insert` -/
theorem Inv.insert (hN : N + 1 < 2 ^ 32) (hNM : 2 * M ≤ N) (hM0 : 0 < M) (h : Inv s E) (key : BitVec 128) (v : V) :
    (E.length = M ∧ s.insert key v = .ok (s, none)) ∨
    (E.length ≠ M ∧ ∃ s' n j t', s.insert key v = .ok (s', some n) ∧ Holds s' t' ∧ (n, j, key, v) ∈ t'.nents ∧
      Ins E key v j t'.ents ∧ (E ≠ [] → s'.root = s.root) ∧ Past s s' ∧
      ∀ lf, AInv s.leaves lf (E.map Prod.fst) →
        AInv s'.leaves (if j ∈ E.map Prod.fst then lf else lf.tail) (t'.ents.map Prod.fst)) := by
  have hM : M + 1 < 2 ^ 32 := by omega
  rcases h with ⟨⟨h0, nf, lf, h1, h2, h3, h4⟩, rfl⟩ | ⟨t, h, rfl⟩
  · right
    refine ⟨by simp; omega, ?_⟩
    obtain ⟨s1, a, j, e, hr, k1, k2, k3, ha, hal, ha1, haN, hjl, hj1, hjM, ra0, ra1, ra2, ra3, rr, vv, ll⟩ :=
      addLeaf_spec h1 h2 h3 hN hM (by simp; omega) (by simpa using hM0) key v
    refine ⟨{ s1 with root := a }, a, j, .leaf a j key v, ?_, ⟨rfl, ⟨ra0, ra1, ?_, ra3, ?_, ?_⟩, trivial,
      ⟨_, _, k1, k2, k3⟩⟩, by simp, Or.inr ⟨by simp [Absent], by simp, [], [], rfl, rfl⟩,
      fun hc => absurd rfl hc, ⟨?_, fun i hi => ?_⟩,
      fun lf' h' => by rw [if_neg (by simp), h'.free_unique h3]; exact k3⟩
    · unfold Critbit.insert
      rw [if_pos (show s.root = SENTINEL from h0)]
      simp only [e, except_bind_ok]; rfl
    · show s1.nodeAllocator.reg a 2 = 0
      rw [ra2, ha]; exact h4
    · show s1.nodeAllocator.val? a = _
      rw [vv, if_pos rfl]
    · show s1.leaves.val? j = _
      rw [ll, if_pos rfl]
    · show s1.nodeAllocator.bumpIndex = max _ (s1.nodeAllocator.size + 1)
      have q1 := h1.length_eq
      have q2 := k1.length_eq
      have q3 := h1.bump_pos
      have q4 := k1.bump_pos
      rw [k1.size]
      simp only [List.length_cons, List.length_tail, List.length_nil] at q1 q2 ⊢
      omega
    · show s1.nodeAllocator.val? i = _
      have hi' : s1.nodeAllocator.bumpIndex ≤ i := hi
      have := ((k1.mem a).1 (by simp)).2
      rw [vv, if_neg (by omega)]
  · by_cases hl : t.ents.length = M
    · left
      refine ⟨hl, ?_⟩
      unfold Critbit.insert
      rw [if_neg h.root_ne, if_pos (show s.len ≥ s.capacity by
        show s.leaves.size ≥ M
        rw [h.lsize, hl])]
      rfl
    · right
      refine ⟨hl, ?_⟩
      have hle := h.le
      have hhe := h.height
      have hids := t.ids_length
      have hins : s.insert key v = s.insertLoop key v (N + 1) t.root := by
        unfold Critbit.insert
        rw [if_neg h.root_ne, if_neg (show ¬ s.len ≥ s.capacity by
          show ¬ s.leaves.size ≥ M
          rw [h.lsize]; omega), h.root]
      rw [hins]
      rcases insertLoop_spec h.gi hN hM (by omega) (by simp; omega) key v h.sh h.rad h.nodup (fun _ hx => hx)
        (fun _ hx => hx) (fuel := N + 1) (by omega) with ⟨n, j, v0, hm, e⟩ | ⟨ha, s', t', a, b, j, e, g⟩
      · obtain ⟨L1, L2, hL⟩ := List.append_of_mem (mem_nents hm).1
        have hE' : (t.put j v).ents = L1 ++ (j, key, v) :: L2 := by
          rw [ents_put, hL]
          exact BT.putE_split v (by rw [← hL]; exact h.slots)
        refine ⟨_, n, j, _, e, h.put v, ?_, ?_, fun _ => rfl, ⟨?_, fun _ _ => rfl⟩, fun lf' h' => ?_⟩
        · clear hL hE' e hins hids hhe hle hl h
          induction t with
          | leaf i sl k w =>
            simp at hm; obtain ⟨rfl, rfl, rfl, rfl⟩ := hm
            simp [CT.put]
          | inner i p k l r ihl ihr =>
            rcases List.mem_append.1 hm with hm | hm
            · exact List.mem_append_left _ (ihl hm)
            · exact List.mem_append_right _ (ihr hm)
        · rw [hE']; exact Or.inl ⟨L1, v0, L2, hL, rfl⟩
        · obtain ⟨nf, _, hna, _⟩ := h.gi
          have q1 := hna.length_eq
          have q2 := hna.bump_pos
          have q3 := hna.size
          show s.nodeAllocator.bumpIndex = max _ (s.nodeAllocator.size + 1)
          omega
        · rw [if_pos (List.mem_map_of_mem (f := Prod.fst) (mem_nents hm).1), hE']
          have := h'.setVal j v
          rw [hL] at this
          simpa using this
      · refine ⟨s', a, j, t', e, ⟨by rw [g.root, g.troot]; exact h.root, g.sh, g.rad, ?_⟩, g.leaf, g.ins,
          fun _ => g.root, ?_, fun lf' h' => ?_⟩
        · refine g.gi.perm g.ids.symm ?_
          rcases g.ins with ⟨L1, v0, L2, h1, h2⟩ | ⟨_, _, L1, L2, h1, h2⟩
          · exact absurd rfl (ha (j, key, v0) (by rw [h1]; simp))
          · rw [h1, h2]
            simp only [List.map_append, List.map_cons]
            exact List.perm_middle.symm
        · obtain ⟨nf, _, hna, _⟩ := h.gi
          obtain ⟨nf', _, hna', _⟩ := g.gi
          have q1 := hna.length_eq
          have q2 := hna.bump_pos
          have q3 := hna'.size
          simp only [List.length_cons] at q3
          refine ⟨by rw [g.bump, q3], fun i hi => g.past i ?_ ?_ ?_⟩
          · have := ((hna'.mem a).1 (by simp)).2
            omega
          · have := ((hna'.mem b).1 (by simp)).2
            omega
          · intro hc
            have := ((hna'.mem i).1 (by simp [hc])).2
            omega
        · rw [if_neg g.slot]
          refine (g.lfree lf' h').perm ?_
          rcases g.ins with ⟨L1, v0, L2, h1, h2⟩ | ⟨_, _, L1, L2, h1, h2⟩
          · exact absurd rfl (ha (j, key, v0) (by rw [h1]; simp))
          · rw [h1, h2]
            simp only [List.map_append, List.map_cons]
            exact List.perm_middle.symm

/-- `remove` -/
theorem Inv.remove (h : Inv s E) (key : BitVec 128) :
    (Absent E key ∧ s.remove key = .ok (s, none)) ∨
    (∃ s' v E', s.remove key = .ok (s', some v) ∧ Inv s' E' ∧ Del E key v E' ∧ (E' ≠ [] → s'.root = s.root) ∧ Past s s' ∧
      ∃ j, (j, key, v) ∈ E ∧ ∀ lf, AInv s.leaves lf (E.map Prod.fst) → AInv s'.leaves (j :: lf) (E'.map Prod.fst)) := by
  rcases h with ⟨h, rfl⟩ | ⟨t, h, rfl⟩
  · left
    refine ⟨by simp [Absent], ?_⟩
    unfold Critbit.remove
    simp only [h.len, if_true]; rfl
  · have hlen := h.len_ne
    have hhe := h.height
    have hg := h.gi
    have hnd := h.nodup
    have hroot := h.root
    have hsz := h.nsize
    have hlsz := h.lsize
    have hh := h
    obtain ⟨-, hsh, hrad, -⟩ := h
    cases t with
    | leaf y j k0 v0 =>
      obtain ⟨g1, g2, g3, g4, g5, g6⟩ := hsh.leaf
      simp only [root_leaf] at hroot
      by_cases hk : k0 = key
      · subst hk
        right
        obtain ⟨nf, lf, h1, h2, h3⟩ := hg
        obtain ⟨s1, e, k0', k1, k2, k3, k4, k5⟩ := removeLeaf_root (s := { s with root := SENTINEL }) h1 h2 h3 hsh (by simp) (by simp)
        refine ⟨s1, v0, [], ?_, Or.inl ⟨⟨k0', _, _, by simpa using k1, by simpa using k2, by simpa using k3, by simpa using k4⟩, rfl⟩,
          ⟨[], j, [], rfl, rfl⟩, fun hc => absurd rfl hc, ⟨?_, fun x _ => k5 x⟩, j, by simp,
          fun lf' h' => by rw [h'.free_unique h3]; simpa using k3⟩
        rotate_left
        · have q1 := h1.length_eq
          have q2 := k1.length_eq
          have q3 := h1.bump_pos
          have q4 := k1.bump_pos
          have q5 := k1.size
          simp only [ids_leaf, List.erase_cons_head, List.length_cons, List.length_nil] at q1 q2 q5
          dsimp only at *
          omega
        have hl1 : ({ s with root := SENTINEL } : Critbit V N M).len = 1 := hlsz
        unfold Critbit.remove
        simp only [hroot, if_neg hlen, g1, g2, except_bind_ok, Bool.false_eq_true, if_false, if_true]
        rw [rassert_true (decide_eq_true hl1), except_bind_ok, e]
        rfl
      · left
        refine ⟨by intro e he; simp at he; subst he; exact hk, ?_⟩
        unfold Critbit.remove
        simp only [hroot, if_neg hlen, g1, g2, except_bind_ok, Bool.false_eq_true, if_false, if_neg hk]
        rfl
    | inner i p k l r =>
      obtain ⟨g1, g2, g3, g4, g5, g6⟩ := hsh.inner hrad.1
      simp only [CT.height] at hhe
      have hn := hnd
      simp only [ids_inner, List.nodup_cons] at hn
      obtain ⟨hnl, hnr, hlr⟩ := List.nodup_append.1 hn.2
      have hR := removeLoop_spec hg key (fuel := N + 1) (b := true) hsh.2.2.2.2.2.2 hrad.2.2.2.2 hnr (fun x hx => by simp [hx])
        (fun x hx => by rw [ents_inner, List.map_append, List.mem_append]; exact Or.inr hx) (by omega)
      have hL := removeLoop_spec hg key (fuel := N + 1) (b := false) hsh.2.2.2.2.2.1 hrad.2.2.2.1 hnl (fun x hx => by simp [hx])
        (fun x hx => by rw [ents_inner, List.map_append, List.mem_append]; exact Or.inl hx) (by omega)
      obtain ⟨o, e, ho⟩ := remove_inner hsh hrad hnd (fun _ hx => hx) (fun _ hx => hx) hg hR hL
      simp only [root_inner] at hroot
      rcases ho with ⟨ha, rfl⟩ | ⟨pa, ch, b', s', v, t', y, z, j, rfl, ea, g⟩
      · refine Or.inl ⟨ha, ?_⟩
        unfold Critbit.remove
        simp only [hroot, if_neg hlen, g1, g2, g6, except_bind_ok, if_true, e]
        rfl
      · right
        obtain ⟨L1, L2, hE, hE'⟩ := g.ents
        have hgi : GI s' t'.ids (t'.ents.map Prod.fst) := by
          refine g.gi.perm ?_ ?_
          · have := (g.ids.erase y).erase z
            simpa using this
          · rw [hE, hE']
            simp only [List.map_append, List.map_cons]
            refine (List.perm_middle.erase j).trans ?_
            simp
        have hh' : Holds s' t' := ⟨by rw [g.root, g.troot]; exact hroot, g.sh, g.rad, hgi⟩
        have h1 := hh'.nsize
        have h2 := hh'.lsize
        have h3 : (CT.inner i p k l r).ents.length = t'.ents.length + 1 := by
          rw [hE, hE']; simp; omega
        refine ⟨s', v, t'.ents, ?_, Or.inr ⟨t', hh', rfl⟩, ⟨L1, j, L2, hE, hE'⟩, fun _ => g.root, ⟨?_, fun x hx => g.val x ?_⟩, j,
          by rw [hE]; simp, fun lf' h' => ?_⟩
        rotate_left
        · obtain ⟨nf, _, hna, _⟩ := hgi
          have q1 := hna.length_eq
          have q2 := hna.bump_pos
          have q3 := hna.size
          have q4 := g.bump
          omega
        · obtain ⟨nf, _, hna, _⟩ := hh.gi
          intro hc
          have := ((hna.mem x).1 (by simp only [List.mem_append]; exact Or.inr hc)).2
          have q4 := g.bump
          omega
        · refine (g.lfree lf' h').perm ?_
          rw [hE, hE']
          simp only [List.map_append, List.map_cons]
          refine (List.perm_middle.erase j).trans ?_
          simp
        unfold Critbit.remove
        simp only [hroot, if_neg hlen, g1, g2, g6, except_bind_ok, if_true, e, ea]
        rw [if_neg (by omega), rassert_true (decide_eq_true (by omega)), if_neg (by omega), rassert_true (decide_eq_true (by omega))]
        rfl

theorem Inv.leaves (h : Inv s E) : ∃ W, Leaves s W ∧ W.map Prod.snd = E.map Prod.fst := by
  rcases h with ⟨h, rfl⟩ | ⟨t, h, rfl⟩
  · exact ⟨[], Or.inl ⟨h.1, rfl⟩, rfl⟩
  · exact ⟨t.refs, Or.inr ⟨t, h.root.symm, h.sh.root_pos, h.sh.sk, h.height, rfl⟩, t.refs_snd⟩

theorem Inv.slots (h : Inv s E) : (E.map Prod.fst).Nodup := by
  rcases h with ⟨h, rfl⟩ | ⟨t, h, rfl⟩
  · simp
  · exact h.slots

theorem Inv.sorted (h : Inv s E) : Sorted E := by
  rcases h with ⟨h, rfl⟩ | ⟨t, h, rfl⟩
  · exact List.Pairwise.nil
  · exact h.rad.sorted

theorem Inv.getLeaf (h : Inv s E) {j : Nat} (hj : (j, k, v) ∈ E) : s.getLeaf j = .ok v := by
  rcases h with ⟨h, rfl⟩ | ⟨t, h, rfl⟩
  · cases hj
  · obtain ⟨n, hn⟩ := mem_ents hj
    exact (h.leaf hn).2.1

theorem next_item (s : Critbit V N M) (it : Iter) : Iter.next s it = (Iter.nextMut s it >>= Api.item api s) := by
  show Iter.next s it = (Iter.nextLoop s (N + 1) it >>= _)
  unfold Iter.next
  cases Iter.nextLoop s (N + 1) it with
  | error _ => rfl
  | ok p =>
    obtain ⟨it, o⟩ := p
    cases o with
    | none => rfl
    | some r =>
      obtain ⟨n, i⟩ := r
      show (s.getLeaf i >>= _) = ((s.getLeaf i >>= _) >>= _)
      cases s.getLeaf i with
      | error _ => rfl
      | ok v => simp only [except_bind_ok]; cases s.getKey n <;> rfl

theorem nextBack_item (s : Critbit V N M) (it : Iter) :
    Iter.nextBack s it = (Iter.nextBackMut s it >>= Api.item api s) := by
  show Iter.nextBack s it = (Iter.nextBackLoop s (N + 1) it >>= _)
  unfold Iter.nextBack
  cases Iter.nextBackLoop s (N + 1) it with
  | error _ => rfl
  | ok p =>
    obtain ⟨it, o⟩ := p
    cases o with
    | none => rfl
    | some r =>
      obtain ⟨n, i⟩ := r
      show (s.getLeaf i >>= _) = ((s.getLeaf i >>= _) >>= _)
      cases s.getLeaf i with
      | error _ => rfl
      | ok v => simp only [except_bind_ok]; cases s.getKey n <;> rfl

/-- The laws that do not speak of `insert` need no room for nodes: stated for the interface with an `insert` that
does nothing. -/
theorem lawsRest :
    Api.Laws ({ api with insert := fun s _ _ => .ok (s, none) } : Api (Critbit V N M) (BitVec 128) V) M
      (fun _ _ => True) Inv It where
  sorted h := h.sorted
  keys h := by
    have := h.sorted
    rw [List.nodup_iff_pairwise_ne, List.pairwise_map]
    exact this.imp (fun h hc => by rw [hc] at h; exact BitVec.lt_irrefl _ h)
  slots h := h.slots
  range h i hi := by
    rcases h with ⟨h, rfl⟩ | ⟨t, h, rfl⟩
    · cases hi
    · exact h.sh.slot_range hi
  le h := h.le
  len h := h.len
  empty _ := rfl
  insert h _ _ := Or.inl ⟨trivial, rfl⟩
  remove h k := by
    rcases h.remove k with h | ⟨s', v, E', h1, h2, h3, _⟩
    · exact Or.inl h
    · exact Or.inr ⟨s', v, E', h1, h2, h3⟩
  get_none h _ ha := h.get_none ha
  get_some h _ _ _ hi := h.get_some hi
  contains {s k r} e := by
    show Critbit.contains _ _ = _
    unfold Critbit.contains
    rw [show Critbit.get s k = _ from e]; rfl
  index {s k r} e := by
    show Critbit.index _ _ = _
    unfold Critbit.index
    rw [show Critbit.get s k = _ from e]; rfl
  getMut_none h _ ha := h.getMut_none ha
  getMut_some h _ _ _ hi := h.getMut_some hi
  readVal h _ _ _ hi := h.getLeaf hi
  read {s E it l} h hit {r k v} hr hi := by
    obtain ⟨n, j⟩ := r
    have hi : (j, k, v) ∈ E := hi
    show (do let v ← s.getLeaf j; let k ← s.getKey n; return (k, v)) = _
    rw [h.getLeaf hi]
    rcases h with ⟨h, rfl⟩ | ⟨t, h, rfl⟩
    · cases hi
    · obtain ⟨p, q, hW, _⟩ := hit
      have hmem : (n, j) ∈ t.refs := by
        rcases hW with ⟨h0, _⟩ | ⟨t', h1, h2, h3, h4, h5⟩
        · exact absurd h0 h.root_ne
        · rw [Sk.refs h.sh.sk h3 (by rw [h1, h.root]), ← h5]
          exact List.mem_append_left _ (List.mem_append_right _ hr)
      obtain ⟨⟨n', j', k', v'⟩, hm, he⟩ := List.mem_map.1 hmem
      simp only [Prod.mk.injEq] at he
      obtain ⟨rfl, rfl⟩ := he
      have hk : k' = k := by
        have hs := h.slots
        have h1 := (mem_nents hm).1
        obtain ⟨L1, L2, hL⟩ := List.append_of_mem hi
        rw [hL] at hs h1
        simp only [List.map_append, List.map_cons] at hs
        obtain ⟨_, hs2, hs3⟩ := List.nodup_append.1 hs
        simp only [List.mem_append, List.mem_cons, Prod.mk.injEq] at h1
        rcases h1 with h1 | ⟨_, h1, _⟩ | h1
        · exact absurd rfl (hs3 j' (List.mem_map_of_mem (f := Prod.fst) h1) j' (List.mem_cons_self))
        · exact h1
        · exact absurd (List.mem_map_of_mem (f := Prod.fst) h1) (List.nodup_cons.1 hs2).1
      subst hk
      rw [(h.leaf hm).2.2.1]; rfl
  write := by
    rintro s L1 i k v L2 h w
    rcases h with ⟨h, hE⟩ | ⟨t, h, hE⟩
    · simp at hE
    · have hr := h.sh.slot_range (j := i) (by rw [← hE]; simp)
      refine ⟨{ s with leaves := s.leaves.setVal i w }, ?_, Or.inr ⟨_, h.put w, ?_⟩, fun it l hi => It.congr (s := s) (s' := { s with leaves := s.leaves.setVal i w }) rfl rfl hi⟩
      · show replaceLeaf _ _ _ = _
        unfold replaceLeaf
        rw [s.leaves.setValue_ok w hr.1 hr.2]; rfl
      · rw [ents_put, ← hE]
        exact (BT.putE_split w (by rw [hE]; exact h.slots)).symm
  it h := by
    obtain ⟨W, h1, h2⟩ := h.leaves
    exact ⟨W, It.new h1 (by rw [h2]; exact h.slots), h2⟩
  nextMut _ h := h.nextMut
  nextBackMut _ h := h.nextBackMut
  next s it := by
    show Iter.next s it = (Iter.nextLoop s (N + 1) it >>= _)
    unfold Iter.next
    cases Iter.nextLoop s (N + 1) it with
    | error _ => rfl
    | ok p =>
      obtain ⟨it, o⟩ := p
      cases o with
      | none => rfl
      | some r =>
        obtain ⟨n, i⟩ := r
        show (s.getLeaf i >>= _) = ((s.getLeaf i >>= _) >>= _)
        cases s.getLeaf i with
        | error _ => rfl
        | ok v => simp only [except_bind_ok]; cases s.getKey n <;> rfl
  nextBack s it := by
    show Iter.nextBack s it = (Iter.nextBackLoop s (N + 1) it >>= _)
    unfold Iter.nextBack
    cases Iter.nextBackLoop s (N + 1) it with
    | error _ => rfl
    | ok p =>
      obtain ⟨it, o⟩ := p
      cases o with
      | none => rfl
      | some r =>
        obtain ⟨n, i⟩ := r
        show (s.getLeaf i >>= _) = ((s.getLeaf i >>= _) >>= _)
        cases s.getLeaf i with
        | error _ => rfl
        | ok v => simp only [except_bind_ok]; cases s.getKey n <;> rfl

/-- The interface of a `Critbit` satisfies the laws of a map that refuses every key when full. -/
theorem laws (hN : N + 1 < 2 ^ 32) (hNM : 2 * M ≤ N) (hM0 : 0 < M) :
    Api.Laws (api : Api (Critbit V N M) (BitVec 128) V) M (fun E _ => E.length = M) Inv It :=
  { lawsRest with
    next := next_item
    nextBack := nextBack_item
    insert h k v := by
      rcases h.insert hN hNM hM0 k v with h | ⟨h1, s', n, j, t', e, h', _, hi, _⟩
      · exact Or.inl h
      · exact Or.inr ⟨h1, s', n, j, _, e, Or.inr ⟨t', h', rfl⟩, hi⟩ }

/-- One call is one step of a bounded finite map; entries keep their slots. -/
theorem call_spec (hN : N + 1 < 2 ^ 32) (hNM : 2 * M ≤ N) (hM0 : 0 < M) (s : Critbit V N M) (E : Ents (BitVec 128) V)
    (m : FMap (BitVec 128) V) (op : Op (BitVec 128) V) (h : Inv s E) (hm : m.Lists (E.map Prod.snd)) :
    ∃ s' o E' m', call s op = .ok (s', o) ∧ Inv s' E' ∧ m'.Lists (E'.map Prod.snd) ∧
      Step (critbitRules (BitVec 128) V M) m op o m' ∧
      ∀ i k v, (i, k, v) ∈ E → ¬ op = .remove k → ∃ v', (i, k, v') ∈ E' := by
  obtain ⟨s', o, E', m', e, h', hm', hst, hk⟩ := (laws hN hNM hM0).call_spec (Rl := critbitRules (BitVec 128) V M)
    (by
      intro E m k hm
      simp only [critbitRules, hm.len, List.length_map])
    (fun _ h => h) rfl s E m op h hm
  refine ⟨s', o, E', m', e, h', hm', hst, ?_⟩
  intro i k v hi hr
  refine hk i k v hi ?_
  rintro k' rfl rfl
  exact hr rfl

/-- every history on a new tree -/
theorem run_new (hN : N + 1 < 2 ^ 32) (hNM : 2 * M ≤ N) (hM0 : 0 < M) (z : CritbitNode) (w : V) (ops : List (Op (BitVec 128) V)) :
    ∃ s os E m, run call (new z w : Critbit V N M) ops = .ok (s, os) ∧ Inv s E ∧
      m.Lists (E.map Prod.snd) ∧ Steps (critbitRules (BitVec 128) V M) FMap.empty ops os m := by
  obtain ⟨s, os, E, m, e, h, hm, ht, _⟩ := run_trace (gone := fun op _ k => op = .remove k) (call_spec hN hNM hM0) ops
    (new z w) [] FMap.empty (Inv.new z w) ⟨List.Pairwise.nil, by simp [FMap.empty], rfl⟩
  exact ⟨s, os, E, m, e, h, hm, ht⟩

/-! ### least and greatest key -/

theorem minLoop_spec : ∀ {t : CT V} {par fuel : Nat}, Sh s par t → t.height ≤ fuel →
    ∃ e l, t.nents = e :: l ∧ s.minLoop fuel t.root = .ok e.1 := by
  intro t
  induction t with
  | leaf i j k v =>
    intro par fuel h hf
    obtain ⟨fuel, rfl⟩ : ∃ f, fuel = f + 1 := ⟨fuel - 1, by simp [CT.height] at hf; omega⟩
    have := h.range (i := i) (by simp)
    refine ⟨_, [], rfl, ?_⟩
    simp [minLoop, getLeft_ok this.2, h.1, SENTINEL]
  | inner i p k l r ihl ihr =>
    intro par fuel h hf
    obtain ⟨fuel, rfl⟩ : ∃ f, fuel = f + 1 := ⟨fuel - 1, by simp [CT.height] at hf; omega⟩
    simp only [CT.height] at hf
    have hi := h.range (i := i) (by simp)
    have hl := h.2.2.2.2.2.1
    obtain ⟨e, l', h1, h2⟩ := ihl (fuel := fuel) hl (by omega)
    refine ⟨e, l' ++ r.nents, by simp [h1], ?_⟩
    simp only [root_inner, minLoop, getLeft_ok hi.2, h.1, except_bind_ok]
    rw [if_pos (show l.root ≠ SENTINEL from hl.root_pos), h2]

theorem maxLoop_spec : ∀ {t : CT V} {par fuel : Nat}, Sh s par t → t.height ≤ fuel →
    ∃ e l, t.nents = l ++ [e] ∧ s.maxLoop fuel t.root = .ok e.1 := by
  intro t
  induction t with
  | leaf i j k v =>
    intro par fuel h hf
    obtain ⟨fuel, rfl⟩ : ∃ f, fuel = f + 1 := ⟨fuel - 1, by simp [CT.height] at hf; omega⟩
    have := h.range (i := i) (by simp)
    refine ⟨_, [], rfl, ?_⟩
    simp [maxLoop, getRight_ok this.2, h.2.1, SENTINEL]
  | inner i p k l r ihl ihr =>
    intro par fuel h hf
    obtain ⟨fuel, rfl⟩ : ∃ f, fuel = f + 1 := ⟨fuel - 1, by simp [CT.height] at hf; omega⟩
    simp only [CT.height] at hf
    have hi := h.range (i := i) (by simp)
    have hr := h.2.2.2.2.2.2
    obtain ⟨e, l', h1, h2⟩ := ihr (fuel := fuel) hr (by omega)
    refine ⟨e, l.nents ++ l', by simp [h1], ?_⟩
    simp only [root_inner, maxLoop, getRight_ok hi.2, h.2.1, except_bind_ok]
    rw [if_pos (show r.root ≠ SENTINEL from hr.root_pos), h2]

theorem Holds.entryAt (h : Holds s t) {n j : Nat} (hm : (n, j, k, v) ∈ t.nents) : s.entryAt n = .ok (some (k, v)) := by
  obtain ⟨h1, h2, h3, h4, h5, h6⟩ := h.leaf hm
  unfold Critbit.entryAt
  rw [if_neg (show ¬ n = SENTINEL by simp [SENTINEL]; omega)]
  simp only [h4, h1, h2, except_bind_ok]; rfl

theorem Empty.extremes (h : Empty s) : s.getMinIndex = .ok SENTINEL ∧ s.getMaxIndex = .ok SENTINEL ∧
    s.getMin = .ok none ∧ s.getMax = .ok none := by
  have h1 : s.getMinIndex = .ok SENTINEL := by
    unfold getMinIndex
    rw [h.1]
    simp [minLoop, getLeft_ok (s := s) (Nat.zero_le N), SENTINEL]
  have h2 : s.getMaxIndex = .ok SENTINEL := by
    unfold getMaxIndex
    rw [h.1]
    simp [maxLoop, getRight_ok (s := s) (Nat.zero_le N), SENTINEL]
  refine ⟨h1, h2, ?_, ?_⟩
  · unfold getMin; rw [h1]; rfl
  · unfold getMax; rw [h2]; rfl

theorem Holds.min (h : Holds s t) : ∃ n j k v l, t.nents = (n, j, k, v) :: l ∧ s.getMinIndex = .ok n ∧
    s.getMin = .ok (some (k, v)) := by
  have hh := h.height
  obtain ⟨⟨n, j, k, v⟩, l, h1, h2⟩ := minLoop_spec h.sh (fuel := N + 1) (by omega)
  rw [← h.root] at h2
  refine ⟨n, j, k, v, l, h1, h2, ?_⟩
  unfold getMin getMinIndex
  rw [h2, except_bind_ok]
  exact h.entryAt (j := j) (by rw [h1]; simp)

theorem Holds.max (h : Holds s t) : ∃ n j k v l, t.nents = l ++ [(n, j, k, v)] ∧ s.getMaxIndex = .ok n ∧
    s.getMax = .ok (some (k, v)) := by
  have hh := h.height
  obtain ⟨⟨n, j, k, v⟩, l, h1, h2⟩ := maxLoop_spec h.sh (fuel := N + 1) (by omega)
  rw [← h.root] at h2
  refine ⟨n, j, k, v, l, h1, h2, ?_⟩
  unfold getMax getMaxIndex
  rw [h2, except_bind_ok]
  exact h.entryAt (j := j) (by rw [h1]; simp)

/-! ### more loop iterations allowed: same result -/

theorem findLoop_mono (k : BitVec 128) {r : Option Nat} : ∀ {f f' i : Nat}, s.findLoop k f i = .ok r → f ≤ f' →
    s.findLoop k f' i = .ok r := by
  intro f
  induction f with
  | zero => intro f' i h; cases h
  | succ f ih =>
    intro f' i h hf
    obtain ⟨g, rfl⟩ : ∃ g, f' = g + 1 := ⟨f' - 1, by omega⟩
    simp only [findLoop] at h ⊢
    cases e : s.getNode i with
    | error _ => rw [e] at h; cases h
    | ok n =>
      simp only [e, except_bind_ok] at h ⊢
      cases e1 : s.isInnerNode i with
      | error _ => rw [e1] at h; cases h
      | ok b =>
        simp only [e1, except_bind_ok] at h ⊢
        cases b with
        | false => exact h
        | true =>
          simp only [Bool.not_true, Bool.false_eq_true, if_false] at h ⊢
          by_cases h1 : leadingZeros (n.key ^^^ k) ≥ n.prefixLen
          · rw [if_pos h1] at h ⊢
            cases e2 : s.getChild n.prefixLen i k with
            | error _ => rw [e2] at h; cases h
            | ok c =>
              rw [e2, except_bind_ok] at h; rw [except_bind_ok]
              exact ih h (by omega)
          · rw [if_neg h1] at h ⊢; exact h

theorem insertLoop_mono (k : BitVec 128) (v : V) {r : Critbit V N M × Option Nat} : ∀ {f f' i : Nat},
    s.insertLoop k v f i = .ok r → f ≤ f' → s.insertLoop k v f' i = .ok r := by
  intro f
  induction f with
  | zero => intro f' i h; cases h
  | succ f ih =>
    intro f' i h hf
    obtain ⟨g, rfl⟩ : ∃ g, f' = g + 1 := ⟨f' - 1, by omega⟩
    simp only [insertLoop] at h ⊢
    cases e : s.getNode i with
    | error _ => rw [e] at h; cases h
    | ok n =>
      simp only [e, except_bind_ok] at h ⊢
      cases e1 : (if n.key = k then do return !(← s.isInnerNode i) else pure false : R Bool) with
      | error _ => rw [e1] at h; cases h
      | ok b =>
        simp only [e1, except_bind_ok] at h ⊢
        cases b with
        | true => exact h
        | false =>
          simp only [Bool.false_eq_true, if_false] at h ⊢
          by_cases h1 : leadingZeros (n.key ^^^ k) ≥ n.prefixLen
          · rw [if_pos h1] at h ⊢
            cases e2 : s.getChild n.prefixLen i k with
            | error _ => rw [e2] at h; cases h
            | ok c =>
              rw [e2, except_bind_ok] at h; rw [except_bind_ok]
              exact ih h (by omega)
          · rw [if_neg h1] at h ⊢; exact h

theorem removeLoop_mono (k : BitVec 128) {r : Option (Nat × Nat × Bool)} : ∀ {f f' p c : Nat} {b : Bool},
    s.removeLoop k f p c b = .ok r → f ≤ f' → s.removeLoop k f' p c b = .ok r := by
  intro f
  induction f with
  | zero => intro f' p c b h; cases h
  | succ f ih =>
    intro f' p c b h hf
    obtain ⟨g, rfl⟩ : ∃ g, f' = g + 1 := ⟨f' - 1, by omega⟩
    simp only [removeLoop] at h ⊢
    cases e : s.getNode c with
    | error _ => rw [e] at h; cases h
    | ok n =>
      simp only [e, except_bind_ok] at h ⊢
      cases e1 : s.isInnerNode c with
      | error _ => rw [e1] at h; cases h
      | ok b =>
        simp only [e1, except_bind_ok] at h ⊢
        cases b with
        | false => exact h
        | true =>
          simp only [if_true] at h ⊢
          cases e2 : s.getChild n.prefixLen c k with
          | error _ => rw [e2] at h; cases h
          | ok c =>
            rw [e2, except_bind_ok] at h; rw [except_bind_ok]
            exact ih h (by omega)

theorem minLoop_mono {r : Nat} : ∀ {f f' i : Nat}, s.minLoop f i = .ok r → f ≤ f' → s.minLoop f' i = .ok r := by
  intro f
  induction f with
  | zero => intro f' i h; cases h
  | succ f ih =>
    intro f' i h hf
    obtain ⟨g, rfl⟩ : ∃ g, f' = g + 1 := ⟨f' - 1, by omega⟩
    simp only [minLoop] at h ⊢
    cases e : s.getLeft i with
    | error _ => rw [e] at h; cases h
    | ok n =>
      simp only [e, except_bind_ok] at h ⊢
      by_cases h1 : n ≠ SENTINEL
      · rw [if_pos h1] at h ⊢; exact ih h (by omega)
      · rw [if_neg h1] at h ⊢; exact h

theorem maxLoop_mono {r : Nat} : ∀ {f f' i : Nat}, s.maxLoop f i = .ok r → f ≤ f' → s.maxLoop f' i = .ok r := by
  intro f
  induction f with
  | zero => intro f' i h; cases h
  | succ f ih =>
    intro f' i h hf
    obtain ⟨g, rfl⟩ : ∃ g, f' = g + 1 := ⟨f' - 1, by omega⟩
    simp only [maxLoop] at h ⊢
    cases e : s.getRight i with
    | error _ => rw [e] at h; cases h
    | ok n =>
      simp only [e, except_bind_ok] at h ⊢
      by_cases h1 : n ≠ SENTINEL
      · rw [if_pos h1] at h ⊢; exact ih h (by omega)
      · rw [if_neg h1] at h ⊢; exact h

/-- two fuels that are both enough -/
theorem eq_of_mono {α : Type} {F : Nat → R α} (hm : ∀ {f f' r}, F f = .ok r → f ≤ f' → F f' = .ok r) {f g : Nat}
    (hf : ∃ r, F f = .ok r) (hg : ∃ r, F g = .ok r) : F f = F g := by
  obtain ⟨r, hr⟩ := hf
  obtain ⟨q, hq⟩ := hg
  rcases Nat.le_total f g with h | h
  · rw [hm hr h, hr]
  · rw [hm hq h, hq]

/-- the loops stop after 129 nodes -/
theorem Holds.depth (hN : N + 1 < 2 ^ 32) (hNM : 2 * M ≤ N) (h : Holds s t) (k : BitVec 128) (v : V) {fuel : Nat} (hf : 129 ≤ fuel) :
    s.findLoop k fuel s.root = s.findLoop k (N + 1) s.root ∧
    (s.len < M → s.insertLoop k v fuel s.root = s.insert k v) ∧
    (∀ n c b, s.isInnerNode s.root = .ok true → s.getNode s.root = .ok n → s.getChild n.prefixLen s.root k = .ok (c, b) →
      s.removeLoop k (fuel - 1) s.root c b = s.removeLoop k (N + 1) s.root c b) ∧
    s.minLoop fuel s.root = s.getMinIndex ∧ s.maxLoop fuel s.root = s.getMaxIndex := by
  have hh := h.height
  have h129 := h.rad.height_129
  have hgi := h.gi
  refine ⟨?_, ?_, ?_, ?_, ?_⟩
  · refine eq_of_mono (F := fun f => s.findLoop k f s.root) (findLoop_mono k) ?_ ?_
    · rcases h.find k (fuel := fuel) (by omega) with ⟨_, e⟩ | ⟨_, _, _, e, _⟩ <;> exact ⟨_, e⟩
    · rcases h.find k (fuel := N + 1) (by omega) with ⟨_, e⟩ | ⟨_, _, _, e, _⟩ <;> exact ⟨_, e⟩
  · intro hl
    have hids := t.ids_length
    have hls := h.lsize
    unfold len at hl
    have key : ∀ f, t.height ≤ f → ∃ r, s.insertLoop k v f s.root = .ok r := by
      intro f hf
      rw [h.root]
      rcases insertLoop_spec hgi hN (by omega) (by omega) (by simp; omega) k v h.sh h.rad h.nodup (fun _ hx => hx)
        (fun _ hx => hx) hf with ⟨_, _, _, _, e⟩ | ⟨_, _, _, _, _, _, e, _⟩ <;> exact ⟨_, e⟩
    have : s.insert k v = s.insertLoop k v (N + 1) s.root := by
      unfold Critbit.insert
      rw [if_neg h.root_ne, if_neg (show ¬ s.len ≥ s.capacity by
        show ¬ s.leaves.size ≥ M
        omega)]
    rw [this]
    exact eq_of_mono (F := fun f => s.insertLoop k v f s.root) (insertLoop_mono k v) (key _ (by omega)) (key _ (by omega))
  · intro n c b hi hn hc
    have hroot := h.root
    have hnd := h.nodup
    obtain ⟨-, hsh, hrad, -⟩ := h
    cases t with
    | leaf y j k0 v0 =>
      obtain ⟨_, g2, _⟩ := hsh.leaf
      rw [hroot, root_leaf, g2] at hi; cases hi
    | inner i p k0 l r =>
      obtain ⟨g1, g2, g3, g4, g5, g6⟩ := hsh.inner hrad.1
      simp only [root_inner] at hroot
      rw [hroot, g1] at hn; cases hn
      rw [hroot, g6] at hc
      simp only [CT.height] at hh h129
      have hn := hnd
      simp only [ids_inner, List.nodup_cons] at hn
      obtain ⟨hnl, hnr, hlr⟩ := List.nodup_append.1 hn.2
      have key : ∀ f, l.height ≤ f → r.height ≤ f → ∃ o, s.removeLoop k f s.root c b = .ok o := by
        intro f hfl hfr
        have hR := removeLoop_spec hgi k (fuel := f) (b := true) hsh.2.2.2.2.2.2 hrad.2.2.2.2 hnr (fun x hx => by simp [hx])
          (fun x hx => by rw [ents_inner, List.map_append, List.mem_append]; exact Or.inr hx) (by omega)
        have hL := removeLoop_spec hgi k (fuel := f) (b := false) hsh.2.2.2.2.2.1 hrad.2.2.2.1 hnl (fun x hx => by simp [hx])
          (fun x hx => by rw [ents_inner, List.map_append, List.mem_append]; exact Or.inl hx) (by omega)
        obtain ⟨o, e, _⟩ := remove_inner hsh hrad hnd (fun _ hx => hx) (fun _ hx => hx) hgi hR hL
        simp only [Except.ok.injEq] at hc
        rw [hc] at e
        rw [hroot]
        exact ⟨o, e⟩
      exact eq_of_mono (F := fun f => s.removeLoop k f s.root c b) (removeLoop_mono k) (key _ (by omega) (by omega)) (key _ (by omega) (by omega))
  · have key : ∀ f, t.height ≤ f → ∃ r, s.minLoop f s.root = .ok r := by
      intro f hf
      rw [h.root]
      obtain ⟨_, _, _, e⟩ := minLoop_spec h.sh hf
      exact ⟨_, e⟩
    exact eq_of_mono (F := fun f => s.minLoop f s.root) minLoop_mono (key _ (by omega)) (key (N + 1) (by omega))
  · have key : ∀ f, t.height ≤ f → ∃ r, s.maxLoop f s.root = .ok r := by
      intro f hf
      rw [h.root]
      obtain ⟨_, _, _, e⟩ := maxLoop_spec h.sh hf
      exact ⟨_, e⟩
    exact eq_of_mono (F := fun f => s.maxLoop f s.root) maxLoop_mono (key _ (by omega)) (key (N + 1) (by omega))

/-! ### addresses -/

/-- in a tree of two or more entries no leaf is at the root -/
theorem Holds.addr_ne_root (h : Holds s t) (h2 : 2 ≤ t.ents.length) {n j : Nat} (hm : (n, j, k, v) ∈ t.nents) :
    n ≠ s.root := by
  have hnd := h.nodup
  rw [h.root]
  cases t with
  | leaf i j0 k0 v0 => simp at h2
  | inner i p k0 l r =>
    simp only [ids_inner, List.nodup_cons] at hnd
    rintro rfl
    refine hnd.1 ?_
    rcases List.mem_append.1 hm with hm | hm
    · exact List.mem_append_left _ (mem_nents hm).2
    · exact List.mem_append_right _ (mem_nents hm).2

/-- in a tree of one entry the leaf is at the root -/
theorem Holds.addr_root (h : Holds s t) (h1 : t.ents.length = 1) {n j : Nat} (hm : (n, j, k, v) ∈ t.nents) :
    n = s.root := by
  rw [h.root]
  cases t with
  | leaf i j0 k0 v0 => simp at hm; simp [hm]
  | inner i p k0 l r =>
    have := List.length_pos_iff.2 l.ents_ne
    have := List.length_pos_iff.2 r.ents_ne
    simp at h1; omega

/-- a replaced value changes no address -/
theorem findLoop_frame {s' : Critbit V N M} (h : s'.nodeAllocator = s.nodeAllocator) (k : BitVec 128) :
    ∀ fuel i, s'.findLoop k fuel i = s.findLoop k fuel i := by
  intro fuel
  induction fuel with
  | zero => intro i; rfl
  | succ f ih =>
    intro i
    have h1 : s'.getNode i = s.getNode i := by unfold getNode; rw [h]
    have h2 : s'.isInnerNode i = s.isInnerNode i := by unfold isInnerNode; rw [h]
    have h3 : ∀ p, s'.getChild p i k = s.getChild p i k := by
      intro p; unfold getChild getLeft getRight; rw [h]
    simp only [findLoop, h1, h2, h3, ih]

end Critbit
end Sokoban
