import Verif.Proof.InPlace
import Verif.Proof.CritbitLaws

/-
The in-place methods of `Critbit` return what Model/Critbit.lean says; what a panic of `insert` leaves behind.
-/
namespace Sokoban.InPlace
variable {σ α : Type}

@[simp] theorem func_check (c : Bool) (s : σ) : func (check c : U σ Unit) s = (rassert c >>= fun _ => .ok (s, ())) := by
  unfold check rassert; cases c <;> rfl

theorem Alloc.func_disconnect {T : Type} {M N : Nat} (i j r q : Nat) (a : NodeAllocator T M N) :
    func (Alloc.disconnect i j r q) a = (a.disconnect i j r q >>= fun a => .ok (a, ())) := by
  unfold Alloc.disconnect NodeAllocator.disconnect
  inplace
  simp only [Alloc.func_clearRegister, bind_assoc', except_bind_ok]

namespace Crit
variable {V : Type} {N M : Nat}

macro "inplace'" : tactic => `(tactic| simp only [func_bind, func_get, func_ite, func_throw, func_modify, func_look,
  func_store, func_pure, func_onField, func_atomic, func_check, except_bind_ok, except_bind_error, except_throw,
  except_pure, bind_assoc', ite_bind, Alloc.func_addNode, Alloc.func_setValue, Alloc.func_removeNode,
  Alloc.func_clearRegister, Alloc.func_setRegister, Alloc.func_connect, Alloc.func_disconnect, onNodes, onLeaves])

theorem func_addLeaf (k : BitVec 128) (v : V) (s : Critbit V N M) : func (addLeaf k v) s = s.addLeaf k v := by
  unfold addLeaf Critbit.addLeaf
  inplace'

theorem func_duplicate (i : Nat) (s : Critbit V N M) : func (duplicate i) s = s.duplicate i := by
  unfold duplicate Critbit.duplicate
  inplace'

theorem func_replaceNode (i : Nat) (c : CritbitNode) (l r : Nat) (s : Critbit V N M) :
    func (replaceNode i c l r) s = (s.replaceNode i c l r >>= fun s => .ok (s, ())) := by
  unfold replaceNode Critbit.replaceNode
  inplace'

theorem func_insertSplit (k : BitVec 128) (v : V) (i q : Nat) (s : Critbit V N M) :
    func (insertSplit k v i q) s = s.insertSplit k v i q := by
  unfold insertSplit Critbit.insertSplit
  inplace'
  simp only [func_addLeaf, func_duplicate, func_replaceNode, bind_assoc', except_bind_ok]

theorem func_insertLoop (k : BitVec 128) (v : V) : ∀ (fuel i : Nat) (s : Critbit V N M),
    func (insertLoop k v fuel i) s = s.insertLoop k v fuel i
  | 0, _, _ => rfl
  | fuel + 1, i, s => by
    unfold insertLoop Critbit.insertLoop
    inplace'
    simp only [func_insertLoop k v fuel, func_insertSplit, Critbit.replaceLeaf, bind_assoc', except_bind_ok, except_pure]

theorem func_insert (k : BitVec 128) (v : V) (s : Critbit V N M) : func (insert k v) s = s.insert k v := by
  unfold insert Critbit.insert
  inplace'
  simp only [func_addLeaf, func_insertLoop]

theorem func_migrate (i j : Nat) (s : Critbit V N M) :
    func (migrate i j) s = (s.migrate i j >>= fun s => .ok (s, ())) := by
  unfold migrate Critbit.migrate Critbit.migrateLeaf
  inplace'

theorem func_removeLeaf (i : Nat) (s : Critbit V N M) : func (removeLeaf i) s = s.removeLeaf i := by
  unfold removeLeaf Critbit.removeLeaf
  inplace'

theorem func_remove (k : BitVec 128) (s : Critbit V N M) : func (remove k) s = s.remove k := by
  unfold remove Critbit.remove
  inplace'
  by_cases h0 : s.len = 0
  · simp only [if_pos h0]
  simp only [if_neg h0]
  refine bind_congr fun inner => ?_
  by_cases hi : inner = true
  · simp only [if_pos hi]
    refine bind_congr fun node => bind_congr fun child => bind_congr fun found => ?_
    rcases found with _ | ⟨p, c, r⟩
    · rfl
    · unfold Critbit.removeAt
      inplace'
      simp only [func_removeLeaf, func_migrate, bind_assoc', except_bind_ok]
  · simp only [if_neg hi, func_removeLeaf]

end Crit

theorem func_mapCall {S K V : Type} (A : Api S K V) {ins : K → V → U S (Option Nat)} {rem : K → U S (Option V)}
    (h1 : ∀ k v s, func (ins k v) s = A.insert s k v) (h2 : ∀ k s, func (rem k) s = A.remove s k)
    (op : MapSpec.Op K V) (s : S) : func (mapCall A ins rem op) s = A.call s op := by
  cases op with
  | insert k v => simp only [mapCall, Api.call]; inplace; simp only [h1]
  | remove k => simp only [mapCall, Api.call]; inplace; simp only [h2]
  | getMut k f =>
    simp only [mapCall, Api.call, Api.getMutWrite]
    inplace
    refine bind_congr fun o => ?_
    cases o with
    | none => rfl
    | some i => inplace
  | iterMut es =>
    simp only [mapCall, Api.call, Api.iterMut]; inplace; simp only [func_driveMut, List.map_map]
    refine bind_congr fun o => ?_
    congr 4
    funext x
    cases x <;> rfl

namespace Crit
open Critbit NodeAllocator CT Ents
open AllocSpec (usable fullPanic)
variable {V : Type} {N M : Nat} {s : Critbit V N M} {live ls nf lf : List Nat}

theorem fullPanic_eq (hM : M + 1 < 2 ^ 32) : fullPanic M = .bufferFull := by
  unfold fullPanic; rw [if_neg (by rw [Nat.mod_eq_of_lt hM]; omega)]

/-- `add_leaf` without a free node changes nothing. -/
theorem addLeaf_noNode (hna : AInv s.nodeAllocator nf live) (hN : N + 1 < 2 ^ 32) (h1 : live.length = N)
    (k : BitVec 128) (v : V) : addLeaf k v s = .error .bufferFull s := by
  have := Alloc.addNode_caught hna (by rw [usable_eq hN]; exact h1) (⟨k, 128⟩ : CritbitNode)
  rw [fullPanic_eq hN] at this
  have e : onNodes (Alloc.addNode ⟨k, 128⟩) s = .error .bufferFull s := run_onField_error _ _ _ _ this
  unfold addLeaf; rw [run_bind, e]

/-- Where `insert` of an absent key ends: the split of a node. -/
theorem insertLoop_descend (key : BitVec 128) (v : V) : ∀ {t : CT V} {par fuel : Nat}, Sh s par t → Rad t →
    t.height ≤ fuel →
    (∃ n j v0, (n, j, key, v0) ∈ t.nents ∧
      insertLoop key v fuel t.root s = .ok (some n) { s with leaves := s.leaves.setVal j v }) ∨
    (Absent t.ents key ∧ ∃ i q, i ∈ t.ids ∧ q < 128 ∧
      insertLoop key v fuel t.root s = insertSplit key v i q s) := by
  intro t
  induction t with
  | leaf i j k v0 =>
    intro par fuel h hr hf
    obtain ⟨fuel, rfl⟩ : ∃ f, fuel = f + 1 := ⟨fuel - 1, by simp [height] at hf; omega⟩
    obtain ⟨g1, g2, g3, g4, g5, g6⟩ := h.leaf
    have hj := s.leaves.val?_range h.2.2.2.2.2
    by_cases hk : k = key
    · subst hk
      left
      refine ⟨i, j, v0, by simp, of_func ?_⟩
      rw [func_insertLoop]
      simp only [root_leaf, Critbit.insertLoop, g1, g2, g3, except_bind_ok]
      simp only [if_true, Bool.not_false, except_pure, except_bind_ok, replaceLeaf]
      rw [s.leaves.setValue_ok v hj.1 hj.2]
      rfl
    · right
      have habs : Absent (CT.leaf i j k v0).ents key := by
        intro e he; simp at he; subst he; exact hk
      have hlt : leadingZeros (k ^^^ key) < 128 := by
        refine Classical.byContradiction fun hc => hk ?_
        exact ((le_leadingZeros (Nat.le_refl _)).1 (by omega)).eq
      refine ⟨habs, i, leadingZeros (k ^^^ key), by simp, hlt, ?_⟩
      simp only [root_leaf, insertLoop, run_bind, look, g1, if_neg hk, except_pure, Bool.false_eq_true, if_false]
      rw [if_neg (by simp only [ge_iff_le]; omega)]
  | inner i p k l r ihl ihr =>
    intro par fuel h hr hf
    obtain ⟨fuel, rfl⟩ : ∃ f, fuel = f + 1 := ⟨fuel - 1, by simp [height] at hf; omega⟩
    obtain ⟨r1, r2, r3, r4, r5⟩ := hr
    obtain ⟨g1, g2, g3, g4, g5, g6⟩ := h.inner r1
    simp only [height] at hf
    have hhead : insertLoop key v (fuel + 1) i s = (if leadingZeros (k ^^^ key) ≥ p then
        insertLoop key v fuel (if key.getMsbD p then (r.root, true) else (l.root, false)).1 s
        else insertSplit key v i (leadingZeros (k ^^^ key)) s) := by
      simp only [insertLoop, run_bind, look, g1, g2, g6, except_bind_ok, Bool.not_true, except_pure, ite_self,
        Bool.false_eq_true, if_false, run_ite]
    rw [root_inner, hhead]
    by_cases hs : leadingZeros (k ^^^ key) ≥ p
    · rw [if_pos hs]
      by_cases hb : key.getMsbD p = true
      · rw [if_pos hb]
        rcases ihr (fuel := fuel) h.2.2.2.2.2.2 r5 (by omega) with ⟨n, j, v0, hm, e⟩ | ⟨ha, x, q, hx, hq, e⟩
        · exact Or.inl ⟨n, j, v0, List.mem_append_right _ hm, e⟩
        · right
          refine ⟨?_, x, q, by simp [hx], hq, e⟩
          intro x hx
          rcases List.mem_append.1 hx with hx | hx
          · intro hc
            have := (r2 x hx).2
            rw [hc, hb] at this; cases this
          · exact ha x hx
      · rw [if_neg hb]
        rcases ihl (fuel := fuel) h.2.2.2.2.2.1 r4 (by omega) with ⟨n, j, v0, hm, e⟩ | ⟨ha, x, q, hx, hq, e⟩
        · exact Or.inl ⟨n, j, v0, List.mem_append_left _ hm, e⟩
        · right
          refine ⟨?_, x, q, by simp [hx], hq, e⟩
          intro x hx
          rcases List.mem_append.1 hx with hx | hx
          · exact ha x hx
          · intro hc
            have := (r3 x hx).2
            rw [hc] at this; exact hb this
    · rw [if_neg hs]
      right
      have hlt : leadingZeros (k ^^^ key) < 128 := by omega
      obtain ⟨ha, hb⟩ := lt_leadingZeros rfl hlt
      have hall : ∀ e ∈ (CT.inner i p k l r).ents, Agree p k e.2.1 := by
        intro e he
        rcases List.mem_append.1 he with he | he
        · exact (r2 e he).1
        · exact (r3 e he).1
      refine ⟨fun e he hc => ?_, i, _, by simp, hlt, rfl⟩
      have h1 := hall e he (leadingZeros (k ^^^ key)) (by omega)
      rw [hc] at h1
      exact hb h1

/-- what `s` shows to a reader: the tree `t`, whatever the allocators have set aside -/
structure Reads (s : Critbit V N M) (t : CT V) : Prop where
  root : s.root = t.root
  sh : Sh s 0 t
  rad : Rad t
  slots : (t.ents.map Prod.fst).Nodup
  height : t.height ≤ N
  len : s.len ≠ 0

theorem Reads.of (h : Holds s t) : Reads s t := ⟨h.root, h.sh, h.rad, h.slots, h.height, h.len_ne⟩

variable {t : CT V}

theorem Reads.leaf (h : Reads s t) {n j : Nat} {k : BitVec 128} {v : V} (hm : (n, j, k, v) ∈ t.nents) :
    s.getLeafIndex n = .ok j ∧ s.getLeaf j = .ok v ∧ s.getKey n = .ok k := by
  obtain ⟨h1, h2, h3⟩ := h.sh.nents hm
  have hn := h.sh.range (mem_nents hm).2
  refine ⟨by rw [getLeafIndex_ok hn.2, h1], s.leaves.getValue_ok h3, ?_⟩
  unfold getKey
  rw [s.nodeAllocator.getValue_ok h2]; rfl

theorem Reads.get_none (h : Reads s t) {k : BitVec 128} (ha : Absent t.ents k) : s.get k = .ok none := by
  have hh := h.height
  unfold Critbit.get
  rw [if_neg (show ¬ s.isEmpty = true by simp [isEmpty, h.len]), h.root]
  rcases findLoop_spec k h.sh h.rad (fuel := N + 1) (by omega) with ⟨_, e⟩ | ⟨n', j', v', e, hm'⟩
  · rw [e]; rfl
  · exact absurd rfl (ha _ (mem_nents hm').1)

theorem Reads.get_some (h : Reads s t) {j : Nat} {k : BitVec 128} {v : V} (hj : (j, k, v) ∈ t.ents) :
    s.get k = .ok (some v) := by
  have hh := h.height
  obtain ⟨n, hn⟩ := mem_ents hj
  unfold Critbit.get
  rw [if_neg (show ¬ s.isEmpty = true by simp [isEmpty, h.len]), h.root]
  rcases findLoop_spec k h.sh h.rad (fuel := N + 1) (by omega) with ⟨ha, e⟩ | ⟨n', j', v', e, hm'⟩
  · exact absurd rfl (ha _ (mem_nents hn).1)
  · obtain ⟨rfl, rfl, rfl⟩ := h.rad.unique hn hm'
    obtain ⟨h1, h2, _⟩ := h.leaf hn
    rw [e]
    simp only [except_bind_ok, h1, h2]; rfl

theorem Reads.get (h : Reads s t) {s1 : Critbit V N M} (h1 : Reads s1 t) (k : BitVec 128) : s1.get k = s.get k := by
  rcases Ents.cases t.ents k with ha | ⟨L1, i, v, L2, he⟩
  · rw [h.get_none ha, h1.get_none ha]
  · rw [h.get_some (j := i) (v := v) (by rw [he]; simp), h1.get_some (j := i) (v := v) (by rw [he]; simp)]

theorem Reads.drive (h : Reads s t) (es : List End) :
    ∃ it', drive (Critbit.Iter.next s) (Critbit.Iter.nextBack s) s.iter es = .ok (it', consume (t.ents.map Prod.snd) es) := by
  have hW : It s s.iter t.refs :=
    It.new (Or.inr ⟨t, h.root.symm, h.sh.root_pos, h.sh.sk, h.height, rfl⟩) (by rw [t.refs_snd]; exact h.slots)
  have hitem : ∀ e ∈ t.nents, ∀ it, Api.item (CritbitSpec.api : Api (Critbit V N M) (BitVec 128) V) s (it, some (e.1, e.2.1))
      = .ok (it, some e.2.2) := by
    rintro ⟨n, j, k, v⟩ he it
    obtain ⟨_, h2, h3⟩ := h.leaf he
    show ((s.getLeaf j >>= fun v => s.getKey n >>= fun k => _) >>= _) = _
    rw [h2, except_bind_ok, h3]; rfl
  refine drive_spec (Inv := fun it l => ∃ m : List (Nat × Nat × BitVec 128 × V), It s it (m.map fun e : Nat × Nat × BitVec 128 × V => (e.1, e.2.1)) ∧
      l = m.map (fun e : Nat × Nat × BitVec 128 × V => e.2.2) ∧ ∀ e ∈ m, e ∈ t.nents) ?_ ?_ es _ _
    ⟨t.nents, hW, ?_, fun _ h => h⟩
  · rintro it l ⟨m, hi, rfl, hsub⟩
    obtain ⟨it', e, hi'⟩ := hi.nextMut
    refine ⟨it', ?_, m.tail, by simpa using hi', by simp, fun e he => hsub e (List.mem_of_mem_tail he)⟩
    rw [next_item, e]
    cases m with
    | nil => rfl
    | cons x m => exact hitem x (hsub x (by simp)) it'
  · rintro it l ⟨m, hi, rfl, hsub⟩
    obtain ⟨it', e, hi'⟩ := hi.nextBackMut
    refine ⟨it', ?_, m.dropLast, by simpa using hi', by simp, fun e he => hsub e (List.dropLast_subset _ he)⟩
    rw [nextBack_item, e]
    rcases List.eq_nil_or_concat m with rfl | ⟨m, x, rfl⟩
    · rfl
    · simp only [List.concat_eq_append, List.map_append, List.map_cons, List.map_nil, List.getLast?_append,
        List.getLast?_singleton, Option.some_or]
      exact hitem x (hsub x (by simp)) it'
  · rw [← t.map_nents, List.map_map]; rfl

theorem insertSplit_noNode (hna : AInv s.nodeAllocator nf live) (hN : N + 1 < 2 ^ 32) (h1 : live.length = N)
    (k : BitVec 128) (v : V) (i : Nat) {q : Nat} (hq : q < 128) : insertSplit k v i q s = .error .bufferFull s := by
  unfold insertSplit
  rw [run_bind, run_look (fun _ => critBitMask q) _ (critBitMask_ok hq)]
  simp only [run_bind, addLeaf_noNode hna hN h1]

/-- With one free node the split takes it and a leaf, and then panics in `duplicate`. -/
theorem insertSplit_half (h : Holds s t) (hN : N + 1 < 2 ^ 32) (hM : M + 1 < 2 ^ 32) (h1 : t.ids.length + 1 = N)
    (h2 : t.ents.length < M) (k : BitVec 128) (v : V) {i q : Nat} (hi : i ∈ t.ids) (hq : q < 128) :
    ∃ s', insertSplit k v i q s = .error .bufferFull s' ∧ Reads s' t ∧ s'.len = t.ents.length + 1 ∧
      s'.nodeAllocator.size = N := by
  obtain ⟨nf, lf, hna, hcl, hlv⟩ := h.gi
  obtain ⟨s1, a, j, e1, k0, k1, k2, k3, -, hal, ha1, haN, hjl, hj1, hjM, ra0, ra1, -, ra3, rr1, vv1, ll1⟩ :=
    addLeaf_spec hna hcl hlv hN hM (by omega) (by simpa using h2) k v
  have hta : ∀ x ∈ t.ids, x ≠ a := fun x hx hc => hal (hc ▸ hx)
  have hs1 : Sh s1 0 t := h.sh.same h.nodup (fun x hx r => rr1 x r (hta x hx))
    (fun x hx => by rw [vv1, if_neg (hta x hx)])
    (fun x hx => by rw [ll1, if_neg (fun hc => hjl (by rw [← hc]; exact hx))])
  have hlen : s1.len = t.ents.length + 1 := by
    show s1.leaves.size = _
    rw [k3.size]; simp
  refine ⟨s1, ?_, ⟨by rw [k0]; exact h.root, hs1, h.rad, h.slots, h.height, by omega⟩, hlen, by rw [k1.size]; simpa using h1⟩
  have hi' := hs1.range hi
  obtain ⟨n, hn⟩ := s1.nodeAllocator.val?_isSome hi'.1 hi'.2
  have ef := Alloc.addNode_caught k1 (by rw [usable_eq hN]; simpa using h1) n
  rw [fullPanic_eq hN] at ef
  have ef' : onNodes (Alloc.addNode n) s1 = .error .bufferFull s1 := run_onField_error _ _ _ _ ef
  have ed : duplicate i s1 = .error .bufferFull s1 := by
    unfold duplicate
    rw [run_bind, run_look (Critbit.getNode · i) _ (x := n) (s1.nodeAllocator.getValue_ok hn)]
    simp only [run_bind, ef']
  unfold insertSplit
  rw [run_bind, run_look (fun _ => critBitMask q) _ (critBitMask_ok hq)]
  simp only [run_bind, of_func ((func_addLeaf k v s).trans e1), ed]

/-- `insert` with any number of nodes -/
theorem insert_any (hN : N + 1 < 2 ^ 32) (hM : M + 1 < 2 ^ 32) (hM0 : 0 < M) {E : Ents (BitVec 128) V} (h : Inv s E)
    (k : BitVec 128) (v : V) :
    (E.length = M ∧ insert k v s = .ok none s) ∨
    (E.length < M ∧ (Absent E k → 2 * E.length + 1 ≤ N) ∧
      ∃ s' n j E', insert k v s = .ok (some n) s' ∧ Inv s' E' ∧ Ins E k v j E') ∨
    (E.length < M ∧ Absent E k ∧ N < 2 * E.length + 1 ∧ ∃ s', insert k v s = .error .bufferFull s' ∧
      (s' = s ∧ N + 1 = 2 * E.length ∨ s' = s ∧ N = 0 ∨
        N = 2 * E.length ∧ E ≠ [] ∧ s'.len = E.length + 1 ∧ s'.nodeAllocator.size = N ∧
        ∃ t, Reads s t ∧ Reads s' t ∧ E = t.ents)) := by
  rcases h with ⟨⟨h0, nf, lf, h1, h2, h3, h4⟩, rfl⟩ | ⟨t, h, rfl⟩
  · right
    by_cases hN0 : N = 0
    · right
      refine ⟨by simpa using hM0, by simp [Absent], by simp [hN0], s, ?_, Or.inr (Or.inl ⟨rfl, hN0⟩)⟩
      unfold insert
      simp only [run_bind, run_get, run_ite]
      rw [if_pos (show s.root = SENTINEL from h0), addLeaf_noNode h1 hN (by simpa using hN0.symm)]
    · left
      refine ⟨by simpa using hM0, fun _ => by simp; omega, ?_⟩
      obtain ⟨s1, a, j, e, hr, k1, k2, k3, ha, hal, ha1, haN, hjl, hj1, hjM, ra0, ra1, ra2, ra3, rr, vv, ll⟩ :=
        addLeaf_spec h1 h2 h3 hN hM (by simp; omega) (by simpa using hM0) k v
      refine ⟨{ s1 with root := a }, a, j, _, of_func ?_, Or.inr ⟨.leaf a j k v, ⟨rfl, ⟨ra0, ra1, ?_, ra3, ?_, ?_⟩, trivial,
        ⟨_, _, k1, k2, k3⟩⟩, rfl⟩, Or.inr ⟨by simp [Absent], by simp, [], [], rfl, rfl⟩⟩
      · rw [func_insert]
        unfold Critbit.insert
        rw [if_pos (show s.root = SENTINEL from h0)]
        simp only [e, except_bind_ok]; rfl
      · show s1.nodeAllocator.reg a 2 = 0
        rw [ra2, ha]; exact h4
      · show s1.nodeAllocator.val? a = _
        rw [vv, if_pos rfl]
      · show s1.leaves.val? j = _
        rw [ll, if_pos rfl]
  · have hle := h.le
    have hlz : s.len = t.ents.length := h.lsize
    have hcap : s.capacity = M := rfl
    have hids := t.ids_length
    have hidN := h.ids_le
    have hpos := List.length_pos_iff.2 t.ents_ne
    have hhe := h.height
    by_cases hl : t.ents.length = M
    · left
      refine ⟨hl, ?_⟩
      unfold insert
      simp only [run_bind, run_get, run_ite]
      rw [if_neg h.root_ne, if_pos (by omega)]; rfl
    · right
      have hins : insert k v s = insertLoop k v (N + 1) t.root s := by
        unfold insert
        simp only [run_bind, run_get, run_ite]
        rw [if_neg h.root_ne, if_neg (by omega), h.root]
      rw [hins]
      have hlt : t.ents.length < M := by omega
      by_cases hroom : 2 * t.ents.length + 1 ≤ N
      · left
        refine ⟨hlt, fun _ => hroom, ?_⟩
        rcases insertLoop_spec h.gi hN hM (by omega) (by simp; omega) k v h.sh h.rad h.nodup (fun _ hx => hx)
          (fun _ hx => hx) (fuel := N + 1) (by omega) with ⟨n, j, v0, hm, e⟩ | ⟨ha, s', t', a, b, j, e, g⟩
        · obtain ⟨L1, L2, hL⟩ := List.append_of_mem (mem_nents hm).1
          have hE' : (t.put j v).ents = L1 ++ (j, k, v) :: L2 := by
            rw [ents_put, hL]
            exact BT.putE_split v (by rw [← hL]; exact h.slots)
          exact ⟨_, n, j, _, of_func ((func_insertLoop k v _ _ s).trans e), Or.inr ⟨_, h.put v, rfl⟩, by
            rw [hE']; exact Or.inl ⟨L1, v0, L2, hL, rfl⟩⟩
        · refine ⟨s', a, j, _, of_func ((func_insertLoop k v _ _ s).trans e),
            Or.inr ⟨t', ⟨by rw [g.root, g.troot]; exact h.root, g.sh, g.rad, ?_⟩, rfl⟩, g.ins⟩
          refine g.gi.perm g.ids.symm ?_
          rcases g.ins with ⟨L1, v0, L2, h1, h2⟩ | ⟨_, _, L1, L2, h1, h2⟩
          · exact absurd rfl (ha (j, k, v0) (by rw [h1]; simp))
          · rw [h1, h2]
            simp only [List.map_append, List.map_cons]
            exact List.perm_middle.symm
      · rcases insertLoop_descend k v h.sh h.rad (fuel := N + 1) (by omega) with ⟨n, j, v0, hm, e⟩ | ⟨ha, i, q, hi, hq, e⟩
        · left
          obtain ⟨L1, L2, hL⟩ := List.append_of_mem (mem_nents hm).1
          have hE' : (t.put j v).ents = L1 ++ (j, k, v) :: L2 := by
            rw [ents_put, hL]
            exact BT.putE_split v (by rw [← hL]; exact h.slots)
          exact ⟨hlt, fun ha => absurd rfl (ha _ (mem_nents hm).1), _, n, j, _, e, Or.inr ⟨_, h.put v, rfl⟩, by
            rw [hE']; exact Or.inl ⟨L1, v0, L2, hL, rfl⟩⟩
        · right
          refine ⟨hlt, ha, by omega, ?_⟩
          rw [e]
          by_cases hfull : t.ids.length = N
          · obtain ⟨nf, lf, hna, hcl, hlv⟩ := h.gi
            exact ⟨s, insertSplit_noNode hna hN hfull k v i hq, Or.inl ⟨rfl, by omega⟩⟩
          · obtain ⟨s', e1, e2, e3, e4⟩ := insertSplit_half h hN hM (by omega) hlt k v hi hq
            exact ⟨s', e1, Or.inr (Or.inr ⟨by omega, t.ents_ne, e3, e4, t, Reads.of h, e2, rfl⟩)⟩

open MapSpec CritbitSpec

/-- One call, with any number of nodes: a step of a map, or a panic of `insert` for want of nodes. -/
theorem call_any (hN : N + 1 < 2 ^ 32) (hM : M + 1 < 2 ^ 32) (hM0 : 0 < M) {E : Ents (BitVec 128) V}
    {m : FMap (BitVec 128) V} (h : Inv s E) (hm : m.Lists (E.map Prod.snd)) (op : Op (BitVec 128) V) :
    ((∀ k v, op = .insert k v → ¬ (m.get k = none ∧ m.len < M ∧ N < 2 * m.len + 1)) ∧
      ∃ s' o E' m', CritbitSpec.call s op = .ok (s', o) ∧ Inv s' E' ∧ m'.Lists (E'.map Prod.snd) ∧
        Step (critbitRules (BitVec 128) V M) m op o m') ∨
    (∃ k v, op = .insert k v ∧ m.get k = none ∧ m.len < M ∧ N < 2 * m.len + 1 ∧
      CritbitSpec.call s op = .error .bufferFull) := by
  have hml : m.len = E.length := by rw [hm.len, List.length_map]
  by_cases hop : ∃ k v, op = .insert k v
  · obtain ⟨k, v, rfl⟩ := hop
    have hval : ∀ {r}, insert k v s = r → s.insert k v = forget r := fun hr => by
      rw [← func_insert, func, hr]
    rcases insert_any hN hM hM0 h k v with ⟨hl, e⟩ | ⟨hl, hr, s', n, j, E', e, h', hi⟩ | ⟨hl, ha, hr, s', e, _⟩
    · refine Or.inl ⟨?_, s, .inserted false, E, m, ?_, h, hm, Or.inl ⟨by simpa [critbitRules, hml] using hl, rfl, rfl⟩⟩
      · rintro k v - ⟨_, h2, _⟩; omega
      · show (s.insert k v >>= _) = _
        rw [hval e]; rfl
    · refine Or.inl ⟨?_, s', .inserted true, E', _, ?_, h', hi.lists hm,
        Or.inr ⟨by simp only [critbitRules, hml]; omega, rfl, rfl⟩⟩
      · rintro k' v' he ⟨h1, _, h3⟩
        cases he
        have := hr (by
          rcases Ents.cases E k with ha | ⟨L1, i, w, L2, rfl⟩
          · exact ha
          · rw [Ents.get_some hm (i := i) (v := w) (by simp)] at h1; cases h1)
        omega
      · show (s.insert k v >>= _) = _
        rw [hval e]; rfl
    · refine Or.inr ⟨k, v, rfl, Ents.get_none hm ha, by omega, by omega, ?_⟩
      show (s.insert k v >>= _) = _
      rw [hval e]; rfl
  · left
    refine ⟨fun k v he => absurd ⟨k, v, he⟩ hop, ?_⟩
    obtain ⟨s', o, E', m', e, h', hm', hst, _⟩ := Critbit.lawsRest.call_spec
      (Rl := { critbitRules (BitVec 128) V M with refuses := fun _ _ => True }) (fun _ => Iff.rfl) (fun _ h => h) rfl
      s E m op h hm
    refine ⟨s', o, E', m', ?_, h', hm', ?_⟩
    · cases op with
      | insert k v => exact absurd ⟨k, v, rfl⟩ hop
      | remove k => exact e
      | getMut k f => exact e
      | iterMut es => exact e
    · cases op with
      | insert k v => exact absurd ⟨k, v, rfl⟩ hop
      | remove k => exact hst
      | getMut k f => exact hst
      | iterMut es => exact hst

theorem run_any (hN : N + 1 < 2 ^ 32) (hM : M + 1 < 2 ^ 32) (hM0 : 0 < M) : ∀ (ops : List (Op (BitVec 128) V))
    {s s' : Critbit V N M} {E : Ents (BitVec 128) V} {m : FMap (BitVec 128) V} {os : List (Out (BitVec 128) V)},
    Inv s E → m.Lists (E.map Prod.snd) → run CritbitSpec.call s ops = .ok (s', os) →
    ∃ E' m', Inv s' E' ∧ m'.Lists (E'.map Prod.snd) ∧ Steps (critbitRules (BitVec 128) V M) m ops os m'
  | [], s, s', E, m, os, h, hm, e => by
    simp only [run] at e; cases e
    exact ⟨E, m, h, hm, rfl⟩
  | op :: ops, s, s', E, m, os, h, hm, e => by
    rcases call_any hN hM hM0 h hm op with ⟨_, s1, o, E1, m1, e1, h1, hm1, hst⟩ | ⟨k, v, _, _, _, _, e1⟩
    · simp only [run, e1, except_bind_ok] at e
      cases e2 : run CritbitSpec.call s1 ops with
      | error p => rw [e2] at e; cases e
      | ok q =>
        obtain ⟨s2, os2⟩ := q
        rw [e2] at e; cases e
        obtain ⟨E', m', h', hm', ht⟩ := run_any hN hM hM0 ops h1 hm1 e2
        exact ⟨E', m', h', hm', m1, hst, ht⟩
    · simp only [run, e1, except_bind_error] at e; cases e

/-- `remove` of the last entry when `len()` is not 1: the root is gone before the assertion fails. -/
theorem remove_last (h : Reads s t) (hl : s.len ≠ 1) {n j : Nat} {k : BitVec 128} {v : V} (ht : t = .leaf n j k v) :
    remove k s = .error .assertion { s with root := SENTINEL } := by
  subst ht
  obtain ⟨g1, g2, g3, g4, g5, g6⟩ := h.sh.leaf
  have hr : s.root = n := h.root
  unfold remove
  simp only [run_bind, run_get, run_ite, if_neg h.len, hr]
  rw [run_look (Critbit.isInnerNode · n) _ (x := false) g2]
  simp only [Bool.false_eq_true, if_false]
  rw [run_look (Critbit.getNode · n) _ g1]
  simp only [if_true, run_modify, check]
  have : ¬ (({ s with root := SENTINEL } : Critbit V N M).len = 1) := hl
  simp only [this, decide_false, Bool.false_eq_true, if_false, run_throw]

/-- Without any leaf each insertion takes a node, as long as there is one, and panics. -/
theorem insert_noLeaf {s : Critbit V N 0} (hN : N + 1 < 2 ^ 32) (h0 : s.root = 0) (h1 : AInv s.nodeAllocator nf live)
    (h2 : AInv s.leaves lf []) (k : BitVec 128) (v : V) :
    ∃ (s' : Critbit V N 0) (nf' live' : List Nat), insert k v s = .error .bufferFull s' ∧ s'.root = 0 ∧
      s'.leaves = s.leaves ∧ AInv s'.nodeAllocator nf' live' ∧ live'.length = min (live.length + 1) N := by
  have hle := h1.live_le
  have hins : ∀ p s', addLeaf k v s = .error p s' → insert k v s = .error p s' := by
    intro p s' e
    unfold insert
    simp only [run_bind, run_get, run_ite]
    rw [if_pos (show s.root = SENTINEL from h0), e]
  by_cases hf : live.length = N
  · exact ⟨s, nf, live, hins _ _ (addLeaf_noNode h1 hN hf k v), h0, rfl, h1, by omega⟩
  · obtain ⟨na, a, e1, _, _, _, _, hi, _⟩ := addNode_spec h1 hN (by decide) (by omega) (⟨k, 128⟩ : CritbitNode)
    refine ⟨{ s with nodeAllocator := na }, _, a :: live, hins _ _ ?_, h0, rfl, hi, by simp; omega⟩
    have e2 : onNodes (Alloc.addNode ⟨k, 128⟩) s = .ok a { s with nodeAllocator := na } :=
      run_onField_ok _ _ _ _ (of_func ((Alloc.func_addNode _ _).trans e1))
    have e3 := Alloc.addNode_caught h2 (by decide) v
    have e4 : onLeaves (Alloc.addNode v) { s with nodeAllocator := na } = .error .bufferFull { s with nodeAllocator := na } :=
      run_onField_error _ _ _ ({ s with nodeAllocator := na } : Critbit V N 0) e3
    unfold addLeaf
    simp only [run_bind, e2, e4]

theorem runCaught_noLeaf (hN : N + 1 < 2 ^ 32) : ∀ (es : List (BitVec 128 × V)) {s : Critbit V N 0} {nf live : List Nat},
    s.root = 0 → AInv s.nodeAllocator nf live → AInv s.leaves lf [] →
    ∃ s' : Critbit V N 0, runCaught (fun e : BitVec 128 × V => insert e.1 e.2) s es = (s', es.map fun _ => .error .bufferFull) ∧
      s'.root = 0 ∧ s'.leaves = s.leaves ∧ s'.nodeAllocator.size = min (live.length + es.length) N
  | [], s, nf, live, h0, h1, h2 => ⟨s, rfl, h0, rfl, by have := h1.live_le; rw [h1.size]; simp; omega⟩
  | e :: es, s, nf, live, h0, h1, h2 => by
    obtain ⟨s1, nf1, live1, e1, r1, l1, a1, hl1⟩ := insert_noLeaf hN h0 h1 h2 e.1 e.2
    obtain ⟨s', e', r', l', hz⟩ := runCaught_noLeaf hN es r1 a1 (by rw [l1]; exact h2)
    refine ⟨s', ?_, r', by rw [l', l1], by rw [hz, hl1]; simp; omega⟩
    simp only [runCaught, e1, e', List.map_cons]

end Crit

/-! ### the trees with `MAX_SIZE = 0` -/

theorem runCaught_const {S Op Out : Type} {step : Op → U S Out} {s : S} {p : Panic}
    (h : ∀ op, step op s = .error p s) : ∀ ops : List Op, runCaught step s ops = (s, ops.map fun _ => .error p)
  | [] => rfl
  | op :: ops => by simp only [runCaught, h op, runCaught_const h ops, List.map_cons]

end Sokoban.InPlace
