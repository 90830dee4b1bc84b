import Verif.Proof.CritbitTree

/-
`insert` on a `Critbit`.
-/
namespace Sokoban
open NodeAllocator
variable {V : Type} {N M : Nat}

namespace Critbit
open CT Ents
variable {s s' : Critbit V N M} {t l r : CT V} {live ls : List Nat}

/-- registers that are clear in free nodes: all but the parent -/
def Sr (r : Nat) : Prop := r ≠ 2

/-- both allocators: `live` are the nodes in use and `ls` the leaf slots in use -/
def GI (s : Critbit V N M) (live ls : List Nat) : Prop :=
  ∃ nf lf, AInv s.nodeAllocator nf live ∧ Clean s.nodeAllocator Sr live ∧ AInv s.leaves lf ls

theorem GI.perm (h : GI s live ls) {live' ls' : List Nat} (h1 : live.Perm live') (h2 : ls.Perm ls') :
    GI s live' ls' := by
  obtain ⟨nf, lf, a, b, c⟩ := h
  exact ⟨nf, lf, a.perm h1, b.perm h1, c.perm h2⟩

theorem addLeaf_spec {nf lf : List Nat} (hna : AInv s.nodeAllocator nf live) (hcl : Clean s.nodeAllocator Sr live)
    (hlv : AInv s.leaves lf ls) (hN : N + 1 < 2 ^ 32) (hM : M + 1 < 2 ^ 32) (h1 : live.length < N)
    (h2 : ls.length < M) (key : BitVec 128) (v : V) :
    ∃ s' a j, s.addLeaf key v = .ok (s', a, j) ∧ s'.root = s.root ∧
      AInv s'.nodeAllocator nf.tail (a :: live) ∧ Clean s'.nodeAllocator Sr (a :: live) ∧
      AInv s'.leaves lf.tail (j :: ls) ∧
      a = nf.headD s.nodeAllocator.bumpIndex ∧ a ∉ live ∧ 1 ≤ a ∧ a ≤ N ∧ j ∉ ls ∧ 1 ≤ j ∧ j ≤ M ∧
      s'.nodeAllocator.reg a 0 = 0 ∧ s'.nodeAllocator.reg a 1 = 0 ∧
      s'.nodeAllocator.reg a 2 = s.nodeAllocator.reg a 2 ∧ s'.nodeAllocator.reg a 3 = j ∧
      (∀ k r, k ≠ a → s'.nodeAllocator.reg k r = s.nodeAllocator.reg k r) ∧
      (∀ k, s'.nodeAllocator.val? k = if k = a then some ⟨key, 128⟩ else s.nodeAllocator.val? k) ∧
      (∀ k, s'.leaves.val? k = if k = j then some v else s.leaves.val? k) := by
  obtain ⟨na, a, e1, ha, hal, ha1, haN, hai, hac, haz, har, har0, hav⟩ :=
    addNode_clean hna hcl hN (by decide) h1 (⟨key, 128⟩ : CritbitNode)
  obtain ⟨lv, j, e2, hj, hjl, hj1, hjM, hji, _, hjv⟩ := addNode_spec hlv hM (by decide) h2 v
  refine ⟨{ s with nodeAllocator := na.setReg a 3 j, leaves := lv.setVal j v }, a, j, ?_, rfl,
    hai.setReg _ _ (by simp), hac.setReg _ _ (by simp), hji.setVal _ _, ha, hal, ha1, haN, hjl, hj1, hjM,
    ?_, ?_, ?_, ?_, ?_, ?_, ?_⟩
  · unfold addLeaf
    simp only [e1, except_bind_ok, e2, VALUE]
    rw [na.setRegister_ok haN (by decide), except_bind_ok, lv.setValue_ok v hj1 hjM]
    rfl
  · show (na.setReg a 3 j).reg a 0 = 0
    rw [reg_setReg' _ (by omega) haN (by decide), if_neg (by simp)]; exact haz 0 (by simp [Sr])
  · show (na.setReg a 3 j).reg a 1 = 0
    rw [reg_setReg' _ (by omega) haN (by decide), if_neg (by simp)]; exact haz 1 (by simp [Sr])
  · show (na.setReg a 3 j).reg a 2 = _
    rw [reg_setReg' _ (by omega) haN (by decide), if_neg (by simp)]; exact har0 a 2 (by simp)
  · show (na.setReg a 3 j).reg a 3 = _
    rw [reg_setReg' _ (by omega) haN (by decide), if_pos (by simp)]
  · intro k r hk
    show (na.setReg a 3 j).reg k r = _
    rw [reg_setReg, if_neg (by simp [hk])]; exact har k r hk
  · intro k
    show (na.setReg a 3 j).val? k = _
    rw [val?_setReg]; exact hav k
  · intro k
    show (lv.setVal j v).val? k = _
    rw [val?_setVal, hjv]
    by_cases hk : k = j
    · subst hk; simp [hj1, hjM]
    · simp [hk]

/-- the tree after a split at its top -/
def splitT (t : CT V) (q : Nat) (key : BitVec 128) (v : V) (a b j : Nat) : CT V :=
  if key.getMsbD q then .inner t.root q key (t.reroot b) (.leaf a j key v)
  else .inner t.root q key (.leaf a j key v) (t.reroot b)

theorem splitT_root {q : Nat} {key : BitVec 128} {v : V} {a b j : Nat} :
    (splitT t q key v a b j).root = t.root := by
  unfold splitT; split <;> rfl

theorem splitT_ids {q : Nat} {key : BitVec 128} {v : V} {a b j : Nat} :
    (splitT t q key v a b j).ids.Perm (a :: b :: t.ids) := by
  unfold splitT
  split
  · simp only [ids_inner, ids_reroot, ids_leaf]
    rw [t.ids_cons]
    rw [List.perm_iff_count]
    intro x
    simp only [List.count_cons, List.count_append, List.count_nil, List.tail_cons]
    omega
  · simp only [ids_inner, ids_reroot, ids_leaf]
    rw [t.ids_cons]
    rw [List.perm_iff_count]
    intro x
    simp only [List.count_cons, List.count_append, List.count_nil, List.tail_cons]
    omega

theorem splitT_rad {q : Nat} {key : BitVec 128} {v : V} {a b j : Nat} (hq : q < 128) (hr : Rad t)
    (ha : ∀ e ∈ t.ents, Agree q key e.2.1 ∧ e.2.1.getMsbD q ≠ key.getMsbD q) :
    Rad (splitT t q key v a b j) := by
  unfold splitT
  split
  · rename_i hb
    refine ⟨hq, ?_, ?_, hr.reroot, trivial⟩
    · intro e he
      rw [ents_reroot] at he
      refine ⟨(ha e he).1, ?_⟩
      have := (ha e he).2
      rw [hb] at this; simpa using this
    · intro e he
      simp at he; subst he
      exact ⟨Agree.refl _ _, hb⟩
  · rename_i hb
    refine ⟨hq, ?_, ?_, trivial, hr.reroot⟩
    · intro e he
      simp at he; subst he
      exact ⟨Agree.refl _ _, by simpa using hb⟩
    · intro e he
      rw [ents_reroot] at he
      refine ⟨(ha e he).1, ?_⟩
      have := (ha e he).2
      rw [show key.getMsbD q = false by simpa using hb] at this; simpa using this

theorem splitT_ents {q : Nat} {key : BitVec 128} {v : V} {a b j : Nat} (ha : Absent t.ents key)
    (hj : j ∉ t.ents.map Prod.fst) : Ins t.ents key v j (splitT t q key v a b j).ents := by
  right
  refine ⟨ha, hj, ?_⟩
  unfold splitT
  split
  · exact ⟨t.ents, [], by simp, by simp⟩
  · exact ⟨[], t.ents, by simp, by simp⟩

theorem splitT_leaf {q : Nat} {key : BitVec 128} {v : V} {a b j : Nat} :
    (a, j, key, v) ∈ (splitT t q key v a b j).nents := by
  unfold splitT
  split <;> simp

/-- `t'` is `t` with one subtree split -/
inductive Split (key : BitVec 128) (v : V) (a b j : Nat) : CT V → CT V → Prop where
  | top (t : CT V) (q : Nat) : Split key v a b j t (splitT t q key v a b j)
  | left {i p : Nat} {k : BitVec 128} {l l' r : CT V} : Split key v a b j l l' →
      Split key v a b j (.inner i p k l r) (.inner i p k l' r)
  | right {i p : Nat} {k : BitVec 128} {l r r' : CT V} : Split key v a b j r r' →
      Split key v a b j (.inner i p k l r) (.inner i p k l r')

/-- what an insertion into the subtree `t` does -/
structure Grown (s s' : Critbit V N M) (live ls : List Nat) (par : Nat) (t t' : CT V) (key : BitVec 128) (v : V)
    (a b j : Nat) : Prop where
  root : s'.root = s.root
  gi : GI s' (a :: b :: live) (j :: ls)
  sh : Sh s' par t'
  rad : Rad t'
  troot : t'.root = t.root
  ids : t'.ids.Perm (a :: b :: t.ids)
  ins : Ins t.ents key v j t'.ents
  slot : j ∉ ls
  leaf : (a, j, key, v) ∈ t'.nents
  reg : ∀ x, x ∈ live → x ∉ t.ids → ∀ r, s'.nodeAllocator.reg x r = s.nodeAllocator.reg x r
  val : ∀ x, x ∈ live → x ∉ t.ids → s'.nodeAllocator.val? x = s.nodeAllocator.val? x
  lv : ∀ x, x ∈ ls → s'.leaves.val? x = s.leaves.val? x
  past : ∀ x, x ≠ a → x ≠ b → x ∉ t.ids → s'.nodeAllocator.val? x = s.nodeAllocator.val? x
  bump : s'.nodeAllocator.bumpIndex = max s.nodeAllocator.bumpIndex (live.length + 3)
  lfree : ∀ lf, AInv s.leaves lf ls → AInv s'.leaves lf.tail (j :: ls)
  shape : Split key v a b j t t'

theorem duplicate_spec {nf : List Nat} {par : Nat} (h : Sh s par t) (hnd : t.ids.Nodup) (hsub : ∀ x ∈ t.ids, x ∈ live)
    (hna : AInv s.nodeAllocator nf live) (hcl : Clean s.nodeAllocator Sr live)
    (hN : N + 1 < 2 ^ 32) (h1 : live.length < N) :
    ∃ s' b, s.duplicate t.root = .ok (s', b) ∧ s'.root = s.root ∧ s'.leaves = s.leaves ∧
      AInv s'.nodeAllocator nf.tail (b :: live) ∧ Clean s'.nodeAllocator Sr (b :: live) ∧
      b ∉ live ∧ 1 ≤ b ∧ b ≤ N ∧
      s'.nodeAllocator.reg b 0 = s.nodeAllocator.reg t.root 0 ∧
      s'.nodeAllocator.reg b 1 = s.nodeAllocator.reg t.root 1 ∧
      s'.nodeAllocator.reg b 3 = s.nodeAllocator.reg t.root 3 ∧
      (∀ k r, k ≠ b → ¬ (r = 2 ∧ (k = s.nodeAllocator.reg t.root 0 ∨ k = s.nodeAllocator.reg t.root 1)) →
        s'.nodeAllocator.reg k r = s.nodeAllocator.reg k r) ∧
      (∀ k, k ≠ 0 → (k = s.nodeAllocator.reg t.root 0 ∨ k = s.nodeAllocator.reg t.root 1) →
        s'.nodeAllocator.reg k 2 = b) ∧
      (∀ k, s'.nodeAllocator.val? k = if k = b then s.nodeAllocator.val? t.root else s.nodeAllocator.val? k) := by
  have hroot := h.range t.root_mem
  obtain ⟨n, hn⟩ := s.nodeAllocator.val?_isSome hroot.1 hroot.2
  -- the children are nodes of the tree or nothing
  have hch : ∀ x, (x = s.nodeAllocator.reg t.root 0 ∨ x = s.nodeAllocator.reg t.root 1) → x = 0 ∨ x ∈ live := by
    intro x hx
    cases t with
    | leaf => simp only [root_leaf, h.1, h.2.1, or_self] at hx; exact Or.inl hx
    | inner i p k l r =>
      simp only [root_inner, h.1, h.2.1] at hx
      right
      rcases hx with rfl | rfl
      · exact hsub _ (by simp [root_mem])
      · exact hsub _ (by simp [root_mem])
  obtain ⟨na, b, e1, hb, hbl, hb1, hbN, hbi, hbc, hbz, hbr, hbr0, hbv⟩ :=
    addNode_clean hna hcl hN (by decide) h1 n
  have hbroot : t.root ≠ b := fun hc => hbl (hc ▸ hsub _ t.root_mem)
  have hlN : ∀ x, x = 0 ∨ x ∈ live → x ≤ N := by
    rintro x (rfl | hx)
    · omega
    · exact (hna.live_range hx).2
  have hlb : ∀ x, x = 0 ∨ x ∈ live → x ≠ b := by
    rintro x (rfl | hx) hc
    · omega
    · exact hbl (hc ▸ hx)
  have hlive : ∀ x, x = 0 ∨ x ∈ live → x ∈ b :: live ∨ x = 0 := by
    rintro x (hx | hx)
    · exact Or.inr hx
    · exact Or.inl (by simp [hx])
  generalize hl0 : s.nodeAllocator.reg t.root 0 = l0 at *
  generalize hr0 : s.nodeAllocator.reg t.root 1 = r0 at *
  have hcl0 := hch l0 (Or.inl rfl)
  have hcr0 := hch r0 (Or.inr rfl)
  refine ⟨{ s with nodeAllocator := ((((na.setReg b 3 (s.nodeAllocator.reg t.root 3)).setReg b 0 l0).setReg l0 2 b).setReg b 1 r0).setReg r0 2 b },
    b, ?_, rfl, rfl, ?_, ?_, hbl, hb1, hbN, ?_, ?_, ?_, ?_, ?_, ?_⟩
  · unfold duplicate
    rw [show s.getNode t.root = .ok n from s.nodeAllocator.getValue_ok hn, except_bind_ok, e1, except_bind_ok]
    simp only []
    rw [getLeft_ok hroot.2, except_bind_ok, getRight_ok hroot.2, except_bind_ok]
    simp only [VALUE, LEFT, RIGHT, PARENT]
    rw [na.getRegister_ok hroot.2 (by decide), except_bind_ok, hbr _ 0 hbroot, hbr _ 1 hbroot, hbr _ 3 hbroot, hl0, hr0,
      na.setRegister_ok hbN (by decide), except_bind_ok, connect_ok _ hbN (hlN _ hcl0) (by decide) (by decide),
      except_bind_ok, connect_ok _ hbN (hlN _ hcr0) (by decide) (by decide), except_bind_ok]
    rfl
  · exact ((((hbi.setReg _ _ (by simp)).setReg _ _ (by simp)).setReg _ _ (hlive _ hcl0)).setReg _ _ (by simp)).setReg _ _ (hlive _ hcr0)
  · exact ((((hbc.setReg _ _ (by simp)).setReg _ _ (by simp)).setReg _ _ (hlive _ hcl0)).setReg _ _ (by simp)).setReg _ _ (hlive _ hcr0)
  · simp only [reg_setReg' _ (show b ≠ 0 by omega) hbN, reg_setReg' _ (show b ≠ 0 by omega) (hlN _ hcl0),
      reg_setReg' _ (show b ≠ 0 by omega) (hlN _ hcr0), show 0 < 4 by decide, show 1 < 4 by decide,
      show 2 < 4 by decide, show 3 < 4 by decide]
    simp
  · simp only [reg_setReg' _ (show b ≠ 0 by omega) hbN, reg_setReg' _ (show b ≠ 0 by omega) (hlN _ hcl0),
      reg_setReg' _ (show b ≠ 0 by omega) (hlN _ hcr0), show 0 < 4 by decide, show 1 < 4 by decide,
      show 2 < 4 by decide, show 3 < 4 by decide]
    simp
  · simp only [reg_setReg' _ (show b ≠ 0 by omega) hbN, reg_setReg' _ (show b ≠ 0 by omega) (hlN _ hcl0),
      reg_setReg' _ (show b ≠ 0 by omega) (hlN _ hcr0), show 0 < 4 by decide, show 1 < 4 by decide,
      show 2 < 4 by decide, show 3 < 4 by decide]
    simp
  · intro k r hk hkr
    rw [reg_setReg, if_neg, reg_setReg, if_neg, reg_setReg, if_neg, reg_setReg, if_neg, reg_setReg, if_neg]
    · exact hbr k r hk
    · rintro ⟨⟨h, _⟩, _⟩; exact hk h
    · rintro ⟨⟨h, _⟩, _⟩; exact hk h
    · rintro ⟨⟨h, h'⟩, _⟩; exact hkr ⟨h', Or.inl h⟩
    · rintro ⟨⟨h, _⟩, _⟩; exact hk h
    · rintro ⟨⟨h, h'⟩, _⟩; exact hkr ⟨h', Or.inr h⟩
  · intro k hk0 hk
    simp only [reg_setReg' _ hk0 hbN, reg_setReg' _ hk0 (hlN _ hcl0), reg_setReg' _ hk0 (hlN _ hcr0),
      show 0 < 4 by decide, show 1 < 4 by decide, show 2 < 4 by decide, show 3 < 4 by decide]
    rcases hk with rfl | rfl <;> simp
  · intro k
    simp only [val?_setReg, hbv, hn]

theorem replaceNode_spec {nf : List Nat} {i x y : Nat} (hi : i ∈ live) (hx : x ∈ live) (hy : y ∈ live)
    (hix : i ≠ x) (hiy : i ≠ y) (hxy : x ≠ y) (hna : AInv s.nodeAllocator nf live)
    (hcl : Clean s.nodeAllocator Sr live) (n : CritbitNode) :
    ∃ s', s.replaceNode i n x y = .ok s' ∧ s'.root = s.root ∧ s'.leaves = s.leaves ∧
      AInv s'.nodeAllocator nf live ∧ Clean s'.nodeAllocator Sr live ∧
      s'.nodeAllocator.reg i 0 = x ∧ s'.nodeAllocator.reg i 1 = y ∧
      s'.nodeAllocator.reg i 2 = s.nodeAllocator.reg i 2 ∧ s'.nodeAllocator.reg i 3 = 0 ∧
      s'.nodeAllocator.reg x 2 = i ∧ s'.nodeAllocator.reg y 2 = i ∧
      (∀ k r, k ≠ i → ¬ (r = 2 ∧ (k = x ∨ k = y)) → s'.nodeAllocator.reg k r = s.nodeAllocator.reg k r) ∧
      (∀ k, s'.nodeAllocator.val? k = if k = i then some n else s.nodeAllocator.val? k) := by
  have hi' := hna.live_range hi
  have hx' := hna.live_range hx
  have hy' := hna.live_range hy
  refine ⟨{ s with nodeAllocator := (((((s.nodeAllocator.setVal i n).setReg i 3 0).setReg i 0 x).setReg x 2 i).setReg i 1 y).setReg y 2 i },
    ?_, rfl, rfl, ?_, ?_, ?_, ?_, ?_, ?_, ?_, ?_, ?_, ?_⟩
  · unfold replaceNode
    simp only [VALUE, LEFT, RIGHT, PARENT]
    rw [setValue_ok _ n hi'.1 hi'.2, except_bind_ok, clearRegister_ok _ hi'.2 (by decide), except_bind_ok,
      connect_ok _ hi'.2 hx'.2 (by decide) (by decide), except_bind_ok,
      connect_ok _ hi'.2 hy'.2 (by decide) (by decide), except_bind_ok]
    rfl
  · exact (((((hna.setVal _ _).setReg _ _ (Or.inl hi)).setReg _ _ (Or.inl hi)).setReg _ _ (Or.inl hx)).setReg _ _ (Or.inl hi)).setReg _ _ (Or.inl hy)
  · exact (((((hcl.setVal _ _).setReg _ _ (Or.inl hi)).setReg _ _ (Or.inl hi)).setReg _ _ (Or.inl hx)).setReg _ _ (Or.inl hi)).setReg _ _ (Or.inl hy)
  · simp [reg_setReg, hi', hix, hiy]
  · simp [reg_setReg, hi', hiy]
  · simp [reg_setReg, hix, hiy]
  · simp [reg_setReg, hi', hix, hiy]
  · simp [reg_setReg, hx', hxy]
  · simp [reg_setReg, hy']
  · intro k r hk hkr
    rw [reg_setReg, if_neg, reg_setReg, if_neg, reg_setReg, if_neg, reg_setReg, if_neg, reg_setReg, if_neg, reg_setVal]
    · rintro ⟨⟨h, _⟩, _⟩; exact hk h
    · rintro ⟨⟨h, _⟩, _⟩; exact hk h
    · rintro ⟨⟨h, h'⟩, _⟩; exact hkr ⟨h', Or.inl h⟩
    · rintro ⟨⟨h, _⟩, _⟩; exact hk h
    · rintro ⟨⟨h, h'⟩, _⟩; exact hkr ⟨h', Or.inr h⟩
  · intro k
    simp only [val?_setReg, val?_setVal]
    by_cases hk : k = i
    · subst hk; simp [hi']
    · simp [hk]

theorem insertSplit_spec {par q : Nat} (h : Sh s par t) (hr : Rad t) (hnd : t.ids.Nodup)
    (hsub : ∀ x ∈ t.ids, x ∈ live) (hsl : ∀ x ∈ t.ents.map Prod.fst, x ∈ ls) (hg : GI s live ls)
    (hN : N + 1 < 2 ^ 32) (hM : M + 1 < 2 ^ 32) (h1 : live.length + 1 < N) (h2 : ls.length < M)
    (key : BitVec 128) (v : V) (hq : q < 128)
    (ha : ∀ e ∈ t.ents, Agree q key e.2.1 ∧ e.2.1.getMsbD q ≠ key.getMsbD q) :
    ∃ s' t' a b j, s.insertSplit key v t.root q = .ok (s', some a) ∧ Grown s s' live ls par t t' key v a b j := by
  obtain ⟨nf, lf, hna, hcl, hlv⟩ := hg
  obtain ⟨s1, a, j, e1, k0, k1, k2, k3, -, hal, ha1, haN, hjl, hj1, hjM, ra0, ra1, -, ra3, rr1, vv1, ll1⟩ :=
    addLeaf_spec hna hcl hlv hN hM (by omega) h2 key v
  have hjne : ∀ x ∈ ls, x ≠ j := fun x hx hc => hjl (hc ▸ hx)
  have hta : ∀ x ∈ t.ids, x ≠ a := fun x hx hc => hal (hc ▸ hsub x hx)
  have hs1 : Sh s1 par t := h.same hnd (fun x hx r => rr1 x r (hta x hx))
    (fun x hx => by rw [vv1, if_neg (hta x hx)])
    (fun x hx => by rw [ll1, if_neg (hjne x (hsl x hx))])
  obtain ⟨s2, b, e2, l0, l1, l2, l3, hbl, hb1, hbN, rb0, rb1, rb3, rr2, cc2, vv2⟩ :=
    duplicate_spec (live := a :: live) hs1 hnd (fun x hx => by simp [hsub x hx]) k1 k2 hN (by simp; omega)
  simp only [List.mem_cons, not_or] at hbl
  have htb : ∀ x ∈ t.ids, x ≠ b := fun x hx hc => hbl.2 (hc ▸ hsub x hx)
  have hpos : ∀ x ∈ t.ids, x ≠ 0 := fun x hx => by have := h.range hx; omega
  have hia := hta _ t.root_mem
  have hib := htb _ t.root_mem
  have hilive := hsub _ t.root_mem
  -- the children of the top are not `a`
  have hach : ∀ x, (x = s1.nodeAllocator.reg t.root 0 ∨ x = s1.nodeAllocator.reg t.root 1) → x = 0 ∨ (x ∈ t.ids ∧ x ≠ t.root) := by
    intro x hx
    cases t with
    | leaf => simp only [root_leaf, hs1.1, hs1.2.1, or_self] at hx; exact Or.inl hx
    | inner i p k l r =>
      simp only [root_inner, hs1.1, hs1.2.1] at hx
      simp only [ids_inner, List.nodup_cons, List.mem_append, not_or] at hnd
      right
      rcases hx with rfl | rfl
      · exact ⟨by simp [root_mem], fun hc => hnd.1.1 (by rw [← show l.root = i from hc]; exact root_mem _)⟩
      · exact ⟨by simp [root_mem], fun hc => hnd.1.2 (by rw [← show r.root = i from hc]; exact root_mem _)⟩
  have hnr : ∀ y, y ∉ t.ids → y ≠ 0 → ∀ r, ¬ (r = 2 ∧ (y = s1.nodeAllocator.reg t.root 0 ∨ y = s1.nodeAllocator.reg t.root 1)) := by
    rintro y hy hy0 r ⟨-, hc⟩
    rcases hach y hc with hc | hc
    · exact hy0 hc
    · exact hy hc.1
  have hat : a ∉ t.ids := fun hc => hta a hc rfl
  have hrootr : ∀ r, s2.nodeAllocator.reg t.root r = s1.nodeAllocator.reg t.root r := by
    intro r
    refine rr2 _ r hib ?_
    rintro ⟨-, hc⟩
    rcases hach _ hc with hc | hc
    · exact hpos _ t.root_mem hc
    · exact hc.2 rfl
  -- common part of both orientations
  have key2 : ∀ x y, ((x = a ∧ y = b) ∨ (x = b ∧ y = a)) → ∃ s3,
      s2.replaceNode t.root ⟨key, q⟩ x y = .ok s3 ∧ s3.root = s.root ∧ GI s3 (a :: b :: live) (j :: ls) ∧
      s3.nodeAllocator.reg t.root 0 = x ∧ s3.nodeAllocator.reg t.root 1 = y ∧
      s3.nodeAllocator.reg t.root 2 = par ∧ s3.nodeAllocator.reg t.root 3 = 0 ∧
      s3.nodeAllocator.val? t.root = some ⟨key, q⟩ ∧
      Sh s3 t.root (.leaf a j key v) ∧ Sh s3 t.root (t.reroot b) ∧
      (∀ x, x ∈ live → x ∉ t.ids → ∀ r, s3.nodeAllocator.reg x r = s.nodeAllocator.reg x r) ∧
      (∀ x, x ∈ live → x ∉ t.ids → s3.nodeAllocator.val? x = s.nodeAllocator.val? x) ∧
      (∀ x, x ∈ ls → s3.leaves.val? x = s.leaves.val? x) ∧
      (∀ x, x ≠ a → x ≠ b → x ∉ t.ids → s3.nodeAllocator.val? x = s.nodeAllocator.val? x) ∧
      s3.nodeAllocator.bumpIndex = max s.nodeAllocator.bumpIndex (live.length + 3) ∧
      (∀ lf, AInv s.leaves lf ls → AInv s3.leaves lf.tail (j :: ls)) := by
    intro x y hxy
    obtain ⟨s3, e3, m0, m1, m2, m3, ri0, ri1, ri2, ri3, rx2, ry2, rr3, vv3⟩ :=
      replaceNode_spec (s := s2) (live := b :: a :: live) (i := t.root) (x := x) (y := y) (by simp [hilive])
        (by rcases hxy with ⟨rfl, rfl⟩ | ⟨rfl, rfl⟩ <;> simp) (by rcases hxy with ⟨rfl, rfl⟩ | ⟨rfl, rfl⟩ <;> simp)
        (by rcases hxy with ⟨rfl, rfl⟩ | ⟨rfl, rfl⟩ <;> assumption)
        (by rcases hxy with ⟨rfl, rfl⟩ | ⟨rfl, rfl⟩ <;> assumption)
        (by rcases hxy with ⟨rfl, rfl⟩ | ⟨rfl, rfl⟩
            · exact fun hc => hbl.1 hc.symm
            · exact hbl.1)
        l2 l3 ⟨key, q⟩
    have hxyor : ∀ k, (k = x ∨ k = y) ↔ (k = a ∨ k = b) := by
      intro k; rcases hxy with ⟨rfl, rfl⟩ | ⟨rfl, rfl⟩
      · rfl
      · exact or_comm
    have ra2 : s3.nodeAllocator.reg a 2 = t.root := by
      rcases hxy with ⟨rfl, rfl⟩ | ⟨rfl, rfl⟩ <;> assumption
    have rb2 : s3.nodeAllocator.reg b 2 = t.root := by
      rcases hxy with ⟨rfl, rfl⟩ | ⟨rfl, rfl⟩ <;> assumption
    have hlv3 : ∀ x, x ∈ ls → s3.leaves.val? x = s.leaves.val? x := by
      intro x hx
      rw [m1, l1, ll1, if_neg (hjne x hx)]
    have hp1 : s1.nodeAllocator.reg t.root 2 = par := hs1.par
    refine ⟨s3, e3, by rw [m0, l0, k0], ?_, ri0, ri1, by rw [ri2, hrootr, hp1], ri3, by rw [vv3, if_pos rfl], ?_, ?_, ?_, ?_, hlv3, ?_, ?_,
      fun lf' h' => by rw [h'.free_unique hlv, m1, l1]; exact k3⟩
    · refine GI.perm (live := b :: a :: live) (ls := j :: ls) ⟨_, _, m2, m3, by rw [m1, l1]; exact k3⟩
        (List.Perm.swap _ _ _) (List.Perm.refl _)
    · have h3a : ∀ r, r ≠ 2 → s3.nodeAllocator.reg a r = s1.nodeAllocator.reg a r := by
        intro r hr
        rw [rr3 a r hia.symm (by simp [hr]), rr2 a r (fun hc => hbl.1 hc.symm) (by simp [hr])]
      refine ⟨by rw [h3a 0 (by simp), ra0], by rw [h3a 1 (by simp), ra1], ra2, by rw [h3a 3 (by simp), ra3], ?_, ?_⟩
      · rw [vv3, if_neg hia.symm, vv2, if_neg (fun hc => hbl.1 hc.symm), vv1, if_pos rfl]
      · rw [m1, l1, ll1, if_pos rfl]
    · refine hs1.reroot hnd ?_ ?_ rb2 ?_ ?_ ?_ ?_ ?_ ?_
      · rw [rr3 b 0 hib.symm (by simp), rb0]
      · rw [rr3 b 1 hib.symm (by simp), rb1]
      · rw [rr3 b 3 hib.symm (by simp), rb3]
      · rw [vv3, if_neg hib.symm, vv2, if_pos rfl]
      · intro z hz hzr r hr
        rw [rr3 z r hzr, rr2 z r (htb z hz) hr]
        rintro ⟨-, hc⟩
        rcases (hxyor z).1 hc with hc | hc
        · exact hta z hz hc
        · exact htb z hz hc
      · intro z hz hzr hc
        rw [rr3 z 2 hzr, cc2 z (hpos z hz) hc]
        rintro ⟨-, hc⟩
        rcases (hxyor z).1 hc with hc | hc
        · exact hta z hz hc
        · exact htb z hz hc
      · intro z hz hzr
        rw [vv3, if_neg hzr, vv2, if_neg (htb z hz)]
      · intro z hz
        rw [m1, l1]
    · intro z hz hzt r
      have hz1 := hna.live_range hz
      have hza : z ≠ a := fun hc => hal (hc ▸ hz)
      have hzb : z ≠ b := fun hc => hbl.2 (hc ▸ hz)
      have hzr : z ≠ t.root := fun hc => hzt (by rw [hc]; exact t.root_mem)
      rw [rr3 z r hzr, rr2 z r hzb (hnr z hzt (by omega) r), rr1 z r hza]
      rintro ⟨-, hc⟩
      rcases (hxyor z).1 hc with hc | hc
      · exact hza hc
      · exact hzb hc
    · intro z hz hzt
      have hza : z ≠ a := fun hc => hal (hc ▸ hz)
      have hzb : z ≠ b := fun hc => hbl.2 (hc ▸ hz)
      rw [vv3, if_neg (fun hc => hzt (by rw [hc]; exact t.root_mem)), vv2, if_neg hzb, vv1, if_neg hza]
    · intro z hza hzb hzt
      rw [vv3, if_neg (fun hc => hzt (by rw [hc]; exact t.root_mem)), vv2, if_neg hzb, vv1, if_neg hza]
    · have q1 := hna.length_eq
      have q2 := m2.length_eq
      have q3 := hna.bump_pos
      have q4 := m2.bump_pos
      simp only [List.length_cons, List.length_tail] at q2
      omega
  have habs : Absent t.ents key := by
    intro e he hc
    exact (ha e he).2 (by rw [hc])
  have hjt : j ∉ t.ents.map Prod.fst := fun hc => hjl (hsl j hc)
  have hmask := mask_iff hq key
  have hcomm : (((1#128) <<< 127) >>> q : BitVec 128) &&& key = key &&& (((1#128) <<< 127) >>> q) :=
    BitVec.and_comm _ _
  by_cases hb : key.getMsbD q = true
  · obtain ⟨s3, e3, m0, m1, m2, m3, m4, m5, m6, m7, m8, m9, m10, m11, m12, m13, m14⟩ := key2 b a (Or.inr ⟨rfl, rfl⟩)
    refine ⟨s3, splitT t q key v a b j, a, b, j, ?_, ⟨m0, m1, ?_, splitT_rad hq hr ha, splitT_root, splitT_ids,
      splitT_ents habs hjt, hjl, splitT_leaf, m9, m10, m11, m12, m13, m14, .top t q⟩⟩
    · unfold insertSplit
      rw [critBitMask_ok hq, except_bind_ok, hcomm]
      simp only [e1, e2, except_bind_ok]
      rw [if_pos (decide_eq_true (hmask.2 hb)), e3]
      rfl
    · unfold splitT
      rw [if_pos hb]
      exact ⟨by rw [root_reroot]; exact m2, m3, m4, m5, m6, m8, m7⟩
  · obtain ⟨s3, e3, m0, m1, m2, m3, m4, m5, m6, m7, m8, m9, m10, m11, m12, m13, m14⟩ := key2 a b (Or.inl ⟨rfl, rfl⟩)
    refine ⟨s3, splitT t q key v a b j, a, b, j, ?_, ⟨m0, m1, ?_, splitT_rad hq hr ha, splitT_root, splitT_ids,
      splitT_ents habs hjt, hjl, splitT_leaf, m9, m10, m11, m12, m13, m14, .top t q⟩⟩
    · unfold insertSplit
      rw [critBitMask_ok hq, except_bind_ok, hcomm]
      simp only [e1, e2, except_bind_ok]
      rw [if_neg (by simp only [decide_eq_true_eq]; exact fun hc => hb (hmask.1 hc)), e3]
      rfl
    · unfold splitT
      rw [if_neg hb]
      exact ⟨m2, by rw [root_reroot]; exact m3, m4, m5, m6, m7, m8⟩

theorem _root_.Sokoban.Ents.Ins.append_right {E F E' : Ents (BitVec 128) V} {key : BitVec 128} {v : V} {j : Nat} (h : Ins E key v j E')
    (ha : Absent F key) (hj : j ∉ F.map Prod.fst) : Ins (E ++ F) key v j (E' ++ F) := by
  rcases h with ⟨L1, v0, L2, rfl, rfl⟩ | ⟨h1, h2, L1, L2, rfl, rfl⟩
  · exact Or.inl ⟨L1, v0, L2 ++ F, by simp, by simp⟩
  · refine Or.inr ⟨?_, ?_, L1, L2 ++ F, by simp, by simp⟩
    · intro e he
      rcases List.mem_append.1 he with he | he
      · exact h1 e he
      · exact ha e he
    · rw [List.map_append, List.mem_append]; exact fun hc => hc.elim h2 hj

theorem _root_.Sokoban.Ents.Ins.append_left {E F E' : Ents (BitVec 128) V} {key : BitVec 128} {v : V} {j : Nat} (h : Ins E key v j E')
    (ha : Absent F key) (hj : j ∉ F.map Prod.fst) : Ins (F ++ E) key v j (F ++ E') := by
  rcases h with ⟨L1, v0, L2, rfl, rfl⟩ | ⟨h1, h2, L1, L2, rfl, rfl⟩
  · exact Or.inl ⟨F ++ L1, v0, L2, by simp, by simp⟩
  · refine Or.inr ⟨?_, ?_, F ++ L1, L2, by simp, by simp⟩
    · intro e he
      rcases List.mem_append.1 he with he | he
      · exact ha e he
      · exact h1 e he
    · rw [List.map_append, List.mem_append]; exact fun hc => hc.elim hj h2

theorem _root_.Sokoban.Ents.Ins.forall {E E' : Ents (BitVec 128) V} {key : BitVec 128} {v : V} {j : Nat} (h : Ins E key v j E')
    {P : BitVec 128 → Prop} (hE : ∀ e ∈ E, P e.2.1) (hk : P key) : ∀ e ∈ E', P e.2.1 := by
  rcases h with ⟨L1, v0, L2, rfl, rfl⟩ | ⟨h1, h2, L1, L2, rfl, rfl⟩
  · intro e he
    simp only [List.mem_append, List.mem_cons] at he hE
    rcases he with he | rfl | he
    · exact hE e (Or.inl he)
    · exact hk
    · exact hE e (Or.inr (Or.inr he))
  · intro e he
    simp only [List.mem_append, List.mem_cons] at he hE
    rcases he with he | rfl | he
    · exact hE e (Or.inl he)
    · exact hk
    · exact hE e (Or.inr he)

theorem Grown.left {par i p : Nat} {k key : BitVec 128} {v : V} {l' : CT V} {a b j : Nat}
    (h : Sh s par (.inner i p k l r)) (hr : Rad (.inner i p k l r)) (hnd : (CT.inner i p k l r).ids.Nodup)
    (hsub : ∀ x ∈ (CT.inner i p k l r).ids, x ∈ live)
    (hsl : ∀ x ∈ (CT.inner i p k l r).ents.map Prod.fst, x ∈ ls)
    (hag : Agree p k key) (hbit : key.getMsbD p = false) (g : Grown s s' live ls i l l' key v a b j) :
    Grown s s' live ls par (.inner i p k l r) (.inner i p k l' r) key v a b j := by
  obtain ⟨e0, e1, e2, e3, e4, e5, e6⟩ := h
  obtain ⟨r1, r2, r3, r4, r5⟩ := hr
  simp only [ids_inner, List.nodup_cons, List.mem_append, not_or] at hnd
  obtain ⟨⟨hil, hir⟩, hn⟩ := hnd
  obtain ⟨hnl, hnr, hlr⟩ := List.nodup_append.1 hn
  have hi := hsub i (by simp)
  have hreg := g.reg i hi hil
  have hrx : ∀ x ∈ r.ids, x ∈ live ∧ x ∉ l.ids := fun x hx => ⟨hsub x (by simp [hx]), fun hc => hlr x hc x hx rfl⟩
  have hrs : ∀ x ∈ r.ents.map Prod.fst, x ∈ ls := fun x hx => hsl x (by
    rw [ents_inner, List.map_append, List.mem_append]; exact Or.inr hx)
  have hins : Ins (l.ents ++ r.ents) key v j (l'.ents ++ r.ents) := by
    refine g.ins.append_right ?_ (fun hc => g.slot (hrs j hc))
    intro e he hc
    have := (r3 e he).2
    rw [hc, hbit] at this; cases this
  refine ⟨g.root, g.gi, ⟨?_, ?_, ?_, ?_, ?_, g.sh, ?_⟩, ⟨r1, ?_, r3, g.rad, r5⟩, rfl, ?_, hins, g.slot, List.mem_append_left _ g.leaf, ?_, ?_, g.lv, fun x h1 h2 h3 => g.past x h1 h2 (fun hc => h3 (by simp [hc])), g.bump, g.lfree, .left g.shape⟩
  · rw [hreg, e0, g.troot]
  · rw [hreg, e1]
  · rw [hreg, e2]
  · rw [hreg, e3]
  · rw [g.val i hi hil, e4]
  · exact e6.same hnr (fun x hx q => g.reg x (hrx x hx).1 (hrx x hx).2 q)
      (fun x hx => g.val x (hrx x hx).1 (hrx x hx).2) (fun x hx => g.lv x (hrs x hx))
  · exact g.ins.forall (P := fun x => Agree p k x ∧ x.getMsbD p = false) r2 ⟨hag, hbit⟩
  · simp only [ids_inner]
    refine ((g.ids.append_right r.ids).cons i).trans ?_
    rw [List.perm_iff_count]
    intro x
    simp only [List.count_cons, List.count_append]; omega
  · intro x hx hxt
    simp only [ids_inner, List.mem_cons, List.mem_append, not_or] at hxt
    exact g.reg x hx hxt.2.1
  · intro x hx hxt
    simp only [ids_inner, List.mem_cons, List.mem_append, not_or] at hxt
    exact g.val x hx hxt.2.1

theorem Grown.right {par i p : Nat} {k key : BitVec 128} {v : V} {r' : CT V} {a b j : Nat}
    (h : Sh s par (.inner i p k l r)) (hr : Rad (.inner i p k l r)) (hnd : (CT.inner i p k l r).ids.Nodup)
    (hsub : ∀ x ∈ (CT.inner i p k l r).ids, x ∈ live)
    (hsl : ∀ x ∈ (CT.inner i p k l r).ents.map Prod.fst, x ∈ ls)
    (hag : Agree p k key) (hbit : key.getMsbD p = true) (g : Grown s s' live ls i r r' key v a b j) :
    Grown s s' live ls par (.inner i p k l r) (.inner i p k l r') key v a b j := by
  obtain ⟨e0, e1, e2, e3, e4, e5, e6⟩ := h
  obtain ⟨r1, r2, r3, r4, r5⟩ := hr
  simp only [ids_inner, List.nodup_cons, List.mem_append, not_or] at hnd
  obtain ⟨⟨hil, hir⟩, hn⟩ := hnd
  obtain ⟨hnl, hnr, hlr⟩ := List.nodup_append.1 hn
  have hi := hsub i (by simp)
  have hreg := g.reg i hi hir
  have hlx : ∀ x ∈ l.ids, x ∈ live ∧ x ∉ r.ids := fun x hx => ⟨hsub x (by simp [hx]), fun hc => hlr x hx x hc rfl⟩
  have hls : ∀ x ∈ l.ents.map Prod.fst, x ∈ ls := fun x hx => hsl x (by
    rw [ents_inner, List.map_append, List.mem_append]; exact Or.inl hx)
  have hins : Ins (l.ents ++ r.ents) key v j (l.ents ++ r'.ents) := by
    refine g.ins.append_left ?_ (fun hc => g.slot (hls j hc))
    intro e he hc
    have := (r2 e he).2
    rw [hc, hbit] at this; cases this
  refine ⟨g.root, g.gi, ⟨?_, ?_, ?_, ?_, ?_, ?_, g.sh⟩, ⟨r1, r2, ?_, r4, g.rad⟩, rfl, ?_, hins, g.slot, List.mem_append_right _ g.leaf, ?_, ?_, g.lv, fun x h1 h2 h3 => g.past x h1 h2 (fun hc => h3 (by simp [hc])), g.bump, g.lfree, .right g.shape⟩
  · rw [hreg, e0]
  · rw [hreg, e1, g.troot]
  · rw [hreg, e2]
  · rw [hreg, e3]
  · rw [g.val i hi hir, e4]
  · exact e5.same hnl (fun x hx q => g.reg x (hlx x hx).1 (hlx x hx).2 q)
      (fun x hx => g.val x (hlx x hx).1 (hlx x hx).2) (fun x hx => g.lv x (hls x hx))
  · exact g.ins.forall (P := fun x => Agree p k x ∧ x.getMsbD p = true) r3 ⟨hag, hbit⟩
  · simp only [ids_inner]
    refine ((g.ids.append_left l.ids).cons i).trans ?_
    rw [List.perm_iff_count]
    intro x
    simp only [List.count_cons, List.count_append]; omega
  · intro x hx hxt
    simp only [ids_inner, List.mem_cons, List.mem_append, not_or] at hxt
    exact g.reg x hx hxt.2.2
  · intro x hx hxt
    simp only [ids_inner, List.mem_cons, List.mem_append, not_or] at hxt
    exact g.val x hx hxt.2.2

/-- The loop of `insert`: the value of a present key is replaced, else the subtree grows. -/
theorem insertLoop_spec (hg : GI s live ls)
    (hN : N + 1 < 2 ^ 32) (hM : M + 1 < 2 ^ 32) (h1 : live.length + 1 < N) (h2 : ls.length < M)
    (key : BitVec 128) (v : V) : ∀ {t : CT V} {par fuel : Nat}, Sh s par t → Rad t → t.ids.Nodup →
    (∀ x ∈ t.ids, x ∈ live) → (∀ x ∈ t.ents.map Prod.fst, x ∈ ls) → t.height ≤ fuel →
    (∃ n j v0, (n, j, key, v0) ∈ t.nents ∧
      s.insertLoop key v fuel t.root = .ok ({ s with leaves := s.leaves.setVal j v }, some n)) ∨
    (Absent t.ents key ∧ ∃ s' t' a b j, s.insertLoop key v fuel t.root = .ok (s', some a) ∧
      Grown s s' live ls par t t' key v a b j) := by
  intro t
  induction t with
  | leaf i j k v0 =>
    intro par fuel h hr hnd hsub hsl hf
    obtain ⟨fuel, rfl⟩ : ∃ f, fuel = f + 1 := ⟨fuel - 1, by simp [height] at hf; omega⟩
    obtain ⟨g1, g2, g3, g4, g5, g6⟩ := h.leaf
    have hj := s.leaves.val?_range h.2.2.2.2.2
    simp only [root_leaf, insertLoop, g1, g2, g3, except_bind_ok]
    by_cases hk : k = key
    · subst hk
      left
      refine ⟨i, j, v0, by simp, ?_⟩
      simp only [if_true, Bool.not_false, except_pure, except_bind_ok, replaceLeaf]
      rw [s.leaves.setValue_ok v hj.1 hj.2]
      rfl
    · right
      have habs : Absent (CT.leaf i j k v0).ents key := by
        intro e he; simp at he; subst he; exact hk
      have hlt : leadingZeros (k ^^^ key) < 128 := by
        refine Classical.byContradiction fun hc => hk ?_
        exact ((le_leadingZeros (Nat.le_refl _)).1 (by omega)).eq
      obtain ⟨ha, hb⟩ := lt_leadingZeros rfl hlt
      obtain ⟨s', t', a, b, j', e, g⟩ := insertSplit_spec h hr hnd hsub hsl hg hN hM h1 h2 key v hlt (by
        intro e he; simp at he; subst he; exact ⟨ha.symm, hb⟩)
      refine ⟨habs, s', t', a, b, j', ?_, g⟩
      simp only [if_neg hk, except_pure, except_bind_ok, Bool.false_eq_true, if_false]
      rw [if_neg (by omega)]
      exact e
  | inner i p k l r ihl ihr =>
    intro par fuel h hr hnd hsub hsl hf
    obtain ⟨fuel, rfl⟩ : ∃ f, fuel = f + 1 := ⟨fuel - 1, by simp [height] at hf; omega⟩
    obtain ⟨r1, r2, r3, r4, r5⟩ := hr
    obtain ⟨g1, g2, g3, g4, g5, g6⟩ := h.inner r1
    simp only [height] at hf
    have hhead : s.insertLoop key v (fuel + 1) i = (if leadingZeros (k ^^^ key) ≥ p then
        s.insertLoop key v fuel (if key.getMsbD p then (r.root, true) else (l.root, false)).1
        else s.insertSplit key v i (leadingZeros (k ^^^ key))) := by
      simp only [insertLoop, g1, g2, g6, except_bind_ok, Bool.not_true, except_pure, ite_self, Bool.false_eq_true, if_false]
    rw [root_inner, hhead]
    have hn := hnd
    simp only [ids_inner, List.nodup_cons] at hn
    obtain ⟨hnl, hnr, hlr⟩ := List.nodup_append.1 hn.2
    by_cases hs : leadingZeros (k ^^^ key) ≥ p
    · rw [if_pos hs]
      have hag := (le_leadingZeros (by omega)).1 hs
      by_cases hb : key.getMsbD p = true
      · rw [if_pos hb]
        rcases ihr (fuel := fuel) h.2.2.2.2.2.2 r5 hnr (fun x hx => hsub x (by simp [hx]))
          (fun x hx => hsl x (by rw [ents_inner, List.map_append, List.mem_append]; exact Or.inr hx)) (by omega)
          with ⟨n, j, v0, hm, e⟩ | ⟨ha, s', t', a, b, j, e, g⟩
        · exact Or.inl ⟨n, j, v0, List.mem_append_right _ hm, e⟩
        · right
          refine ⟨?_, s', _, a, b, j, e, g.right h ⟨r1, r2, r3, r4, r5⟩ hnd hsub hsl hag hb⟩
          intro x hx
          rcases List.mem_append.1 hx with hx | hx
          · intro hc
            have := (r2 x hx).2
            rw [hc, hb] at this; cases this
          · exact ha x hx
      · rw [if_neg hb]
        rcases ihl (fuel := fuel) h.2.2.2.2.2.1 r4 hnl (fun x hx => hsub x (by simp [hx]))
          (fun x hx => hsl x (by rw [ents_inner, List.map_append, List.mem_append]; exact Or.inl hx)) (by omega)
          with ⟨n, j, v0, hm, e⟩ | ⟨ha, s', t', a, b, j, e, g⟩
        · exact Or.inl ⟨n, j, v0, List.mem_append_left _ hm, e⟩
        · right
          refine ⟨?_, s', _, a, b, j, e, g.left h ⟨r1, r2, r3, r4, r5⟩ hnd hsub hsl hag (by simpa using hb)⟩
          intro x hx
          rcases List.mem_append.1 hx with hx | hx
          · exact ha x hx
          · intro hc
            have := (r3 x hx).2
            rw [hc] at this; exact hb this
    · rw [if_neg hs]
      right
      have hlt : leadingZeros (k ^^^ key) < 128 := by omega
      obtain ⟨ha, hb⟩ := lt_leadingZeros rfl hlt
      have hall : ∀ e ∈ (CT.inner i p k l r).ents, Agree p k e.2.1 := by
        intro e he
        rcases List.mem_append.1 he with he | he
        · exact (r2 e he).1
        · exact (r3 e he).1
      have hall' : ∀ e ∈ (CT.inner i p k l r).ents, Agree (leadingZeros (k ^^^ key)) key e.2.1 ∧
          e.2.1.getMsbD (leadingZeros (k ^^^ key)) ≠ key.getMsbD (leadingZeros (k ^^^ key)) := by
        intro e he
        refine ⟨ha.symm.trans ((hall e he).mono (by omega)), ?_⟩
        rw [← hall e he _ (by omega)]; exact hb
      obtain ⟨s', t', a, b, j', e, g⟩ := insertSplit_spec h ⟨r1, r2, r3, r4, r5⟩ hnd hsub hsl hg hN hM h1 h2 key v hlt hall'
      exact ⟨fun e he hc => (hall' e he).2 (by rw [hc]), s', t', a, b, j', e, g⟩

end Critbit
end Sokoban
