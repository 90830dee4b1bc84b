import Verif.Proof.CritbitLaws
import Verif.Proof.KeepInsert
import Verif.Spec.CritbitWalk

/-
Critbit tree: removing a key just inserted gives back the tree, node by node.
-/
namespace Sokoban
open NodeAllocator Ents
namespace Critbit
open CT
variable {V : Type} {N M : Nat} {s s' : Critbit V N M} {t t' t'' : CT V}

theorem CT.reroot_root (t : CT V) (b : Nat) : (t.reroot b).reroot t.root = t := by cases t <;> rfl

theorem Pruned.mem {key : BitVec 128} (h : Pruned key t t') : ∃ e ∈ t.ents, e.2.1 = key := by
  induction h with
  | left => exact ⟨_, List.mem_append_left _ (by simp; rfl), rfl⟩
  | right => exact ⟨_, List.mem_append_right _ (by simp; rfl), rfl⟩
  | inl _ ih => obtain ⟨e, he, hk⟩ := ih; exact ⟨e, List.mem_append_left _ he, hk⟩
  | inr _ ih => obtain ⟨e, he, hk⟩ := ih; exact ⟨e, List.mem_append_right _ he, hk⟩

theorem Split.inner {key : BitVec 128} {v : V} {a b j : Nat} (h : Split key v a b j t t') {y j' : Nat} {k : BitVec 128} {w : V} :
    t' ≠ .leaf y j' k w := by
  cases h with
  | top q => unfold splitT; split <;> simp
  | left => simp
  | right => simp

/-- cutting off the leaf that was put in undoes the split -/
theorem Split.undo {key : BitVec 128} {v : V} {a b j : Nat} (h : Split key v a b j t t') (ha : Absent t.ents key)
    (hp : Pruned key t' t'') : t'' = t := by
  induction h generalizing t'' with
  | top t q =>
    unfold splitT at hp
    have hno : ∀ {y j' : Nat} {w : V}, t.reroot b ≠ .leaf y j' key w := by
      intro y j' w hc
      have : (t.reroot b).ents = [(j', key, w)] := by rw [hc]; rfl
      rw [ents_reroot] at this
      exact ha (j', key, w) (by rw [this]; simp) rfl
    split at hp
    · generalize hT : t.reroot b = T at hp
      cases hp with
      | left => exact absurd hT hno
      | right => rw [← hT]; exact CT.reroot_root t b
      | inl h => obtain ⟨e, he, hk⟩ := h.mem; rw [← hT, ents_reroot] at he; exact absurd hk (ha e he)
      | inr h => cases h
    · generalize hT : t.reroot b = T at hp
      cases hp with
      | right => exact absurd hT hno
      | left => rw [← hT]; exact CT.reroot_root t b
      | inr h => obtain ⟨e, he, hk⟩ := h.mem; rw [← hT, ents_reroot] at he; exact absurd hk (ha e he)
      | inl h => cases h
  | left hs ih =>
    have hl := fun e he => ha e (List.mem_append_left _ he)
    have hr := fun e he => ha e (List.mem_append_right _ he)
    cases hp with
    | left => exact absurd rfl hs.inner
    | right => exact absurd rfl (hr _ (by simp; rfl))
    | inl h => rw [ih hl h]
    | inr h => obtain ⟨e, he, hk⟩ := h.mem; exact absurd hk (hr e he)
  | right hs ih =>
    have hl := fun e he => ha e (List.mem_append_left _ he)
    have hr := fun e he => ha e (List.mem_append_right _ he)
    cases hp with
    | right => exact absurd rfl hs.inner
    | left => exact absurd rfl (hl _ (by simp; rfl))
    | inr h => rw [ih hr h]
    | inl h => obtain ⟨e, he, hk⟩ := h.mem; exact absurd hk (hl e he)

/-- `insert` of a new key into a tree that is not empty -/
theorem Holds.insert_split (hN : N + 1 < 2 ^ 32) (hNM : 2 * M ≤ N) (h : Holds s t) {key : BitVec 128} {v : V} {n : Nat}
    (ha : Absent t.ents key) (e : s.insert key v = .ok (s', some n)) :
    ∃ t' b j, Holds s' t' ∧ Split key v n b j t t' := by
  have hle := h.le
  have hhe := h.height
  have hids := t.ids_length
  have hl : t.ents.length ≠ M := by
    intro hl
    unfold Critbit.insert at e
    rw [if_neg h.root_ne, if_pos (show s.len ≥ s.capacity by show s.leaves.size ≥ M; rw [h.lsize, hl])] at e
    cases e
  have hins : s.insert key v = s.insertLoop key v (N + 1) t.root := by
    unfold Critbit.insert
    rw [if_neg h.root_ne, if_neg (show ¬ s.len ≥ s.capacity by show ¬ s.leaves.size ≥ M; rw [h.lsize]; omega), h.root]
  rw [hins] at e
  rcases insertLoop_spec h.gi hN (by omega) (by omega) (by simp; omega) key v h.sh h.rad h.nodup (fun _ hx => hx)
    (fun _ hx => hx) (fuel := N + 1) (by omega) with ⟨n, j, v0, hm, e'⟩ | ⟨ha, s1, t', a, b, j, e', g⟩
  · exact absurd rfl (ha _ (mem_nents hm).1)
  · rw [e] at e'; cases e'
    refine ⟨t', b, j, ⟨by rw [g.root, g.troot]; exact h.root, g.sh, g.rad, ?_⟩, g.shape⟩
    refine g.gi.perm g.ids.symm ?_
    rcases g.ins with ⟨L1, v0, L2, h1, h2⟩ | ⟨_, _, L1, L2, h1, h2⟩
    · exact absurd rfl (ha (j, key, v0) (by rw [h1]; simp))
    · rw [h1, h2]
      simp only [List.map_append, List.map_cons]
      exact List.perm_middle.symm

/-- `remove` from a tree with more than one leaf -/
theorem Holds.remove_pruned {i p : Nat} {k key : BitVec 128} {l r : CT V} {w : V} (h : Holds s (.inner i p k l r))
    (hrem : s.remove key = .ok (s', some w)) : ∃ t', Holds s' t' ∧ Pruned key (.inner i p k l r) t' := by
  have hlen := h.len_ne
  have hhe := h.height
  have hg := h.gi
  have hnd := h.nodup
  have hroot := h.root
  have hsz := h.nsize
  have hlsz := h.lsize
  obtain ⟨-, hsh, hrad, -⟩ := h
  obtain ⟨g1, g2, g3, g4, g5, g6⟩ := hsh.inner hrad.1
  simp only [CT.height] at hhe
  have hn := hnd
  simp only [ids_inner, List.nodup_cons] at hn
  obtain ⟨hnl, hnr, hlr⟩ := List.nodup_append.1 hn.2
  have hR := removeLoop_spec hg key (fuel := N + 1) (b := true) hsh.2.2.2.2.2.2 hrad.2.2.2.2 hnr (fun x hx => by simp [hx])
    (fun x hx => by rw [ents_inner, List.map_append, List.mem_append]; exact Or.inr hx) (by omega)
  have hL := removeLoop_spec hg key (fuel := N + 1) (b := false) hsh.2.2.2.2.2.1 hrad.2.2.2.1 hnl (fun x hx => by simp [hx])
    (fun x hx => by rw [ents_inner, List.map_append, List.mem_append]; exact Or.inl hx) (by omega)
  obtain ⟨o, e, ho⟩ := remove_inner hsh hrad hnd (fun _ hx => hx) (fun _ hx => hx) hg hR hL
  simp only [root_inner] at hroot
  rcases ho with ⟨ha, rfl⟩ | ⟨pa, ch, b', s1, v, t', y, z, j, rfl, ea, g⟩
  · unfold Critbit.remove at hrem
    simp only [hroot, if_neg hlen, g1, g2, g6, except_bind_ok, if_true, e] at hrem
    cases hrem
  · obtain ⟨L1, L2, hE, hE'⟩ := g.ents
    have hgi : GI s1 t'.ids (t'.ents.map Prod.fst) := by
      refine g.gi.perm ?_ ?_
      · have := (g.ids.erase y).erase z
        simpa using this
      · rw [hE, hE']
        simp only [List.map_append, List.map_cons]
        refine (List.perm_middle.erase j).trans ?_
        simp
    have hh' : Holds s1 t' := ⟨by rw [g.root, g.troot]; exact hroot, g.sh, g.rad, hgi⟩
    have h1 := hh'.nsize
    have h2 := hh'.lsize
    have h3 : (CT.inner i p k l r).ents.length = t'.ents.length + 1 := by
      rw [hE, hE']; simp; omega
    have : s.remove key = .ok (s1, some v) := by
      unfold Critbit.remove
      simp only [hroot, if_neg hlen, g1, g2, g6, except_bind_ok, if_true, e, ea]
      rw [if_neg (by omega), rassert_true (decide_eq_true (by omega)), if_neg (by omega), rassert_true (decide_eq_true (by omega))]
      rfl
    rw [hrem] at this; cases this
    exact ⟨t', hh', g.shape⟩

/-! ### what can be seen of a tree -/

theorem walk_zero (s : Critbit V N M) : ∀ p, CritbitSpec.walk s SENTINEL p = .ok SENTINEL
  | [] => rfl
  | d :: p => by
    simp only [CritbitSpec.walk]
    have h1 : s.getLeft SENTINEL = .ok SENTINEL := by rw [getLeft_ok (by simp [SENTINEL]), SENTINEL, reg_zero]
    have h2 : s.getRight SENTINEL = .ok SENTINEL := by rw [getRight_ok (by simp [SENTINEL]), SENTINEL, reg_zero]
    cases d <;> simp only [h1, h2, Bool.false_eq_true, if_false, if_true, except_bind_ok] <;> exact walk_zero s p

/-- the nodes reached are those of the tree -/
theorem Sh.walk {s2 : Critbit V N M} : ∀ (p : List Bool) {t : CT V} {par : Nat}, Sh s par t → Sh s2 par t → ∃ i,
    CritbitSpec.walk s t.root p = .ok i ∧ CritbitSpec.walk s2 t.root p = .ok i ∧
    (i = SENTINEL ∨ s2.getNode i = s.getNode i ∧ s2.getParent i = s.getParent i ∧ s2.isInnerNode i = s.isInnerNode i ∧
      s2.getLeft i = s.getLeft i ∧ s2.getRight i = s.getRight i ∧
      s2.getLeafIndex i = s.getLeafIndex i ∧ ∀ j, s.isInnerNode i = .ok false → s.getLeafIndex i = .ok j → s2.getLeaf j = s.getLeaf j)
  | [], t, par, h, h2 => by
    have hr := h.range t.root_mem
    refine ⟨t.root, rfl, rfl, Or.inr ?_⟩
    cases t with
    | leaf i j k v =>
      obtain ⟨a0, a1, a2, a3, a4, a5⟩ := h
      obtain ⟨b0, b1, b2, b3, b4, b5⟩ := h2
      simp only [root_leaf] at hr ⊢
      refine ⟨getValue_eq (b4.trans a4.symm), ?_, ?_, ?_, ?_, ?_, ?_⟩
      · rw [getParent_ok hr.2, getParent_ok hr.2, a2, b2]
      · rw [isInnerNode_ok hr.2, isInnerNode_ok hr.2, a3, b3]
      · rw [getLeft_ok hr.2, getLeft_ok hr.2, a0, b0]
      · rw [getRight_ok hr.2, getRight_ok hr.2, a1, b1]
      · rw [getLeafIndex_ok hr.2, getLeafIndex_ok hr.2, a3, b3]
      · intro j' _ hj
        rw [getLeafIndex_ok hr.2, a3] at hj; cases hj
        exact getValue_eq (b5.trans a5.symm)
    | inner i p k l r =>
      obtain ⟨a0, a1, a2, a3, a4, -⟩ := h
      obtain ⟨b0, b1, b2, b3, b4, -⟩ := h2
      simp only [root_inner] at hr ⊢
      refine ⟨getValue_eq (b4.trans a4.symm), ?_, ?_, ?_, ?_, ?_, ?_⟩
      · rw [getParent_ok hr.2, getParent_ok hr.2, a2, b2]
      · rw [isInnerNode_ok hr.2, isInnerNode_ok hr.2, a3, b3]
      · rw [getLeft_ok hr.2, getLeft_ok hr.2, a0, b0]
      · rw [getRight_ok hr.2, getRight_ok hr.2, a1, b1]
      · rw [getLeafIndex_ok hr.2, getLeafIndex_ok hr.2, a3, b3]
      · intro j' hi _
        rw [isInnerNode_ok hr.2, a3] at hi
        simp at hi
  | d :: p, t, par, h, h2 => by
    have hr := h.range t.root_mem
    simp only [CritbitSpec.walk]
    cases t with
    | leaf i j k v =>
      obtain ⟨a0, a1, -⟩ := h
      obtain ⟨b0, b1, -⟩ := h2
      simp only [root_leaf] at hr ⊢
      refine ⟨SENTINEL, ?_, ?_, Or.inl rfl⟩
      · rw [getLeft_ok hr.2, getRight_ok hr.2, a0, a1]
        cases d <;> exact walk_zero s p
      · rw [getLeft_ok hr.2, getRight_ok hr.2, b0, b1]
        cases d <;> exact walk_zero s2 p
    | inner i q k l r =>
      obtain ⟨a0, a1, a2, a3, a4, hl, hrr⟩ := h
      obtain ⟨b0, b1, b2, b3, b4, hl', hrr'⟩ := h2
      simp only [root_inner] at hr ⊢
      rw [getLeft_ok hr.2, getRight_ok hr.2, getLeft_ok hr.2, getRight_ok hr.2, a0, a1, b0, b1]
      cases d
      · exact Sh.walk p hl hl'
      · exact Sh.walk p hrr hrr'

/-- `insert` of a new key and `remove` of it -/
theorem Inv.insert_remove (hN : N + 1 < 2 ^ 32) (hNM : 2 * M ≤ N) (hM0 : 0 < M) {E : Ents (BitVec 128) V} (h : Inv s E)
    {k : BitVec 128} {v : V} {n : Nat} (ha : Absent E k) (e : s.insert k v = .ok (s', some n)) :
    ∃ s2, s'.remove k = .ok (s2, some v) ∧ Inv s2 E ∧ s2.root = s.root ∧ ∀ p, ∃ i,
      CritbitSpec.walk s s.root p = .ok i ∧ CritbitSpec.walk s2 s.root p = .ok i ∧
      (i = SENTINEL ∨ s2.getNode i = s.getNode i ∧ s2.getParent i = s.getParent i ∧ s2.isInnerNode i = s.isInnerNode i ∧
        s2.getLeft i = s.getLeft i ∧ s2.getRight i = s.getRight i ∧ s2.getLeafIndex i = s.getLeafIndex i ∧
        ∀ j, s.isInnerNode i = .ok false → s.getLeafIndex i = .ok j → s2.getLeaf j = s.getLeaf j) := by
  rcases h.insert hN hNM hM0 k v with ⟨_, e'⟩ | ⟨_, s1, n1, j, t', e', h', hm, hi, _⟩
  · rw [e] at e'; cases e'
  rw [e] at e'; cases e'
  have hm := (mem_nents hm).1
  have hI : Inv s' t'.ents := Or.inr ⟨t', h', rfl⟩
  rcases hI.remove k with ⟨hn, _⟩ | ⟨s2, w, E', e2, h2, hd, -, -, j2, hj2, -⟩
  · exact absurd rfl (hn _ hm)
  obtain rfl : w = v := by
    have h3 := hI.get_some hm
    rw [hI.get_some hj2] at h3
    cases h3; rfl
  rcases h with ⟨h, rfl⟩ | ⟨t, h, rfl⟩
  · have hE : E' = [] := by
      obtain ⟨L1, i, L2, h3, h4⟩ := hd
      rcases hi with ⟨A, _, B, h5, _⟩ | ⟨_, _, A, B, h5, h6⟩
      · simp at h5
      · obtain ⟨rfl, rfl⟩ := List.append_eq_nil_iff.1 h5.symm
        have := congrArg List.length (h3.symm.trans h6)
        simp at this
        have h7 : L1 = [] := List.length_eq_zero_iff.1 (by omega)
        have h8 : L2 = [] := List.length_eq_zero_iff.1 (by omega)
        rw [h4, h7, h8]; rfl
    subst hE
    have hr : s2.root = 0 := by
      rcases h2 with ⟨h2, _⟩ | ⟨t2, h2, h3⟩
      · exact h2.1
      · have := h2.len_ne
        have := h2.lsize
        rw [← h3] at this
        exact absurd this h2.len_ne
    refine ⟨s2, e2, h2, hr.trans h.1.symm, fun p => ⟨SENTINEL, ?_, ?_, Or.inl rfl⟩⟩
    · rw [h.1]; exact walk_zero s p
    · rw [h.1]; exact walk_zero s2 p
  · obtain ⟨T, b, j', hT, hs⟩ := h.insert_split hN hNM ha e
    cases T with
    | leaf i j k v => exact absurd rfl hs.inner
    | inner i p k l r =>
      obtain ⟨t2, hh, hp⟩ := hT.remove_pruned e2
      have := hs.undo ha hp
      subst this
      refine ⟨s2, e2, Or.inr ⟨_, hh, rfl⟩, hh.root.trans h.root.symm, fun p => ?_⟩
      rw [h.root]
      exact h.sh.walk p hh.sh

end Critbit
end Sokoban
