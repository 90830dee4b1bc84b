import Verif.Proof.RBRemove
import Verif.Proof.TreeMap

/-
The red-black tree as an ordered map: search, insertion, removal, extremes.
-/
namespace Sokoban
open BT Ctx NodeAllocator Ents Textbook
variable {K V : Type}

theorem RBShape.put {reg : Nat → Nat → Nat} (i : Nat) (w : V) : ∀ {t : BT K V} {p : Nat},
    RBShape reg p t → RBShape reg p (t.put i w)
  | .nil, _, _ => trivial
  | .node _ _ _, _, ⟨h1, h2, h3, h4, h5, h6⟩ => by
    refine ⟨?_, ?_, ?_, ?_, ?_, ?_⟩ <;> simp only [root_put, GN.idx_put, GN.tag_put]
    exacts [h1, h2, h3, h4, h5.put i w, h6.put i w]

theorem BT.tag_put (i : Nat) (w : V) (t : BT K V) : (t.put i w).tag = t.tag := by
  cases t <;> simp [BT.put]

theorem RB.put (i : Nat) (w : V) : ∀ {t : BT K V} {n : Nat}, RB t n → RB (t.put i w) n
  | .nil, _, h => h
  | .node l x r, n, h => by
    simp only [BT.put, RB, GN.tag_put, BT.tag_put] at h ⊢
    rcases h with ⟨h1, h2, h3, h4, h5⟩ | ⟨h1, m, h2, h3, h4⟩
    · exact Or.inl ⟨h1, h2, h3, h4.put i w, h5.put i w⟩
    · exact Or.inr ⟨h1, m, h2, h3.put i w, h4.put i w⟩

namespace RedBlackTree
variable {kn : Known} {M : Nat} {s : RedBlackTree K V M} {c : Ctx K V} {t : BT K V} {X E : List (Nat × K × V)}
  {d : Bool} {a b l r : BT K V} {x : GN K V}

theorem getNode_ok {i : Nat} {k : K} {v : V} {L : List (Nat × K × V)} (h : RBase s.allocator L)
    (he : (i, k, v) ∈ L) : s.getNode i = .ok ⟨k, v⟩ := getValue_ok _ (h.vals _ he)

theorem Z.getNode (h : Z s c (.node l x r) X E) : s.getNode x.idx = .ok ⟨x.key, x.val⟩ :=
  getNode_ok h.base (by rw [← h.ents]; simp [GN.ent])

theorem Z.root (h : Z s [] t X E) : s.root = t.root := h.cshape

/-- writing a value -/
theorem Z.setVal {L1 L2 : List (Nat × K × V)} {i : Nat} {k : K} {v : V}
    (h : Z s [] t [] (L1 ++ (i, k, v) :: L2)) (w : V) :
    ∃ s', s.setNodeValue i w = .ok s' ∧ Z s' [] (t.put i w) [] (L1 ++ (i, k, w) :: L2) ∧
      s'.root = s.root ∧ s'.rg = s.rg := by
  have hb := h.base
  rw [List.nil_append] at hb
  have hv := hb.vals (i, k, v) (by simp)
  have hrg : (s.allocator.setVal i ⟨k, w⟩).reg = s.allocator.reg := by
    funext j q; exact reg_setVal _ _ _ _ _
  refine ⟨⟨s.root, s.allocator.setVal i ⟨k, w⟩⟩, ?_, ⟨?_, ?_, ?_, ?_⟩, rfl, hrg⟩
  · unfold setNodeValue
    simp only [getValue_ok _ hv, except_bind_ok, setValue_ok _ _ (hb.range (i := i) (by simp)).1 (hb.range (i := i) (by simp)).2]
    rfl
  · show RBShape (s.allocator.setVal i ⟨k, w⟩).reg _ _
    rw [hrg]; exact h.shape.put i w
  · show s.root = _
    rw [root_put]; exact h.root
  · have he := h.ents
    simp only [lft, rgt, List.nil_append, List.append_nil] at he ⊢
    rw [ents_put, he, putE_split w hb.nodup]
  · exact hb.setVal w

variable [LinearOrder K]

/-- searching a subtree -/
theorem Z.getAddrLoop (k : K) : ∀ {t : BT K V} {c : Ctx K V} {fuel : Nat}, Z s c t X E → t ≠ .nil →
    t.height ≤ fuel → Sorted t.ents →
    (Absent t.ents k ∧ s.getAddrLoop k fuel t.root = .ok 0) ∨
    ∃ i v, (i, k, v) ∈ t.ents ∧ s.getAddrLoop k fuel t.root = .ok i := by
  intro t
  induction t with
  | nil => intro c fuel _ h; exact absurd rfl h
  | node l x r ihl ihr =>
    intro c fuel h _ hf hs
    obtain ⟨fuel, rfl⟩ : ∃ f, fuel = f + 1 := ⟨fuel - 1, by simp [height] at hf; omega⟩
    have hl := Z.down (d := false) h
    have hr := Z.down (d := true) h
    simp only [height] at hf
    rw [ents_node] at hs
    simp only [root_node, RedBlackTree.getAddrLoop, h.getNode, h.getLeft, h.getRight, except_bind_ok]
    have hx : x.ent.2.1 = x.key := rfl
    rcases lt_trichotomy k x.key with hlt | heq | hgt
    · rw [compare_lt_iff_lt.2 hlt]
      have habs : Absent l.ents k → Absent (l.ents ++ x.ent :: r.ents) k := by
        intro ha e he
        simp only [List.mem_append, List.mem_cons] at he
        rcases he with he | rfl | he
        · exact ha e he
        · exact ne_of_gt hlt
        · exact ne_of_gt (lt_trans hlt (hx ▸ hs.mid_lt he))
      by_cases hln : l = .nil
      · subst hln
        exact Or.inl ⟨habs (by simp [Absent]), by simp [SENTINEL]⟩
      · rw [if_neg (show ¬ l.root = SENTINEL from fun hc => hln (hl.root_eq_zero.1 hc))]
        rcases ihl (fuel := fuel) hl hln (by omega) hs.left with ⟨ha, e⟩ | ⟨i, v, hi, e⟩
        · exact Or.inl ⟨habs ha, e⟩
        · exact Or.inr ⟨i, v, by simp [hi], e⟩
    · rw [compare_eq_iff_eq.2 heq]
      exact Or.inr ⟨x.idx, x.val, by simp [GN.ent, heq], rfl⟩
    · rw [compare_gt_iff_gt.2 hgt]
      have habs : Absent r.ents k → Absent (l.ents ++ x.ent :: r.ents) k := by
        intro ha e he
        simp only [List.mem_append, List.mem_cons] at he
        rcases he with he | rfl | he
        · exact ne_of_lt (lt_trans (hx ▸ hs.lt_mid he) hgt)
        · exact ne_of_lt hgt
        · exact ha e he
      by_cases hrn : r = .nil
      · subst hrn
        exact Or.inl ⟨habs (by simp [Absent]), by simp [SENTINEL]⟩
      · rw [if_neg (show ¬ r.root = SENTINEL from fun hc => hrn (hr.root_eq_zero.1 hc))]
        rcases ihr (fuel := fuel) hr hrn (by omega) hs.right with ⟨ha, e⟩ | ⟨i, v, hi, e⟩
        · exact Or.inl ⟨habs ha, e⟩
        · exact Or.inr ⟨i, v, by simp [hi], e⟩

/-- the red-black tree `s` holds the entries `E` in order -/
def Inv [kn : Known] (s : RedBlackTree K V M) (E : Ents K V) : Prop :=
  ∃ t, Z s [] t [] E ∧ Good [] t ∧ Sorted E

omit [LinearOrder K] in
/-- linking a new node below `x` -/
theorem attach_spec (hM : M + 1 < 2 ^ 32) (h : Z s ((d, x, b) :: c) .nil [] E) (hg : Good ((d, x, b) :: c) .nil)
    (hlt : E.length + kn.lost.length < M) (k : K) (v : V) {lim : Nat} (hlim : c.length + 3 ≤ lim) :
    ∃ s' t' i, (do
        let (a, nodeIndex) ← s.allocator.addNode { key := k, value := v }
        let t : RedBlackTree K V M := { s with allocator := a }
        let t ← t.colorRed nodeIndex
        let t ← t.connect x.idx nodeIndex d.toNat
        let grandparent ← t.getParent x.idx
        let t ← (if grandparent ≠ SENTINEL then t.fixInsert nodeIndex lim else pure t)
        return (t, some nodeIndex) : R (RedBlackTree K V M × Option Nat)) = .ok (s', some i) ∧
      i ∉ E.map Prod.fst ∧
      Z (kn := kn.pop) s' [] t' [] (lft ((d, x, b) :: c) ++ (i, k, v) :: rgt ((d, x, b) :: c)) ∧ (Good [] t' ∧
        t'.rsk = insUp ((d, x, b) :: c) (.node true .leaf k .leaf)) ∧ Near 10 s s' := by
  have hb := h.base
  rw [List.nil_append] at hb
  obtain ⟨a', i, e, hi, hi1, hi2, hb', hz, hfr⟩ := hb.addL hM hlt k v
  have hx := Z.idx_rng (Z.up h)
  have hcid : ∀ j ∈ cids ((d, x, b) :: c), j ≠ i := by
    intro j hj hji
    have := h.live (Or.inr hj)
    rw [List.nil_append, hji] at this
    exact hi this
  have hxi : x.idx ≠ i := hcid _ (by simp [cids])
  let n : GN K V := ⟨i, 1, k, v⟩
  let s2 : RedBlackTree K V M := ⟨s.root, ((a'.setReg i 3 1).setReg x.idx d.toNat i).setReg i 2 x.idx⟩
  have hd4 : d.toNat < 4 := by cases d <;> decide
  have hd2 : d.toNat ≠ 2 ∧ d.toNat ≠ 3 := by cases d <;> decide
  have hrg : ∀ j q, s2.rg j q = if j = i ∧ q = 2 then x.idx else if j = x.idx ∧ q = d.toNat then i
      else if j = i ∧ q = 3 then 1 else a'.reg j q := by
    intro j q
    show (((a'.setReg i 3 1).setReg x.idx d.toNat i).setReg i 2 x.idx).reg j q = _
    rw [rset _ hi2 (by decide), rset _ hx.2 hd4, rset _ hi2 (by decide)]
    by_cases hj : 1 ≤ j
    · simp [hj]
    · have h1 : ¬ j = i := by omega
      have h2 : ¬ j = x.idx := by omega
      simp [hj, h1, h2]
  have hperm : ((i, k, v) :: E).Perm (lft ((d, x, b) :: c) ++ (i, k, v) :: rgt ((d, x, b) :: c)) := by
    rw [← h.ents]
    simp only [ents_nil, List.append_nil]
    exact List.perm_middle.symm
  have hcl := (hb'.setReg 3 1 (Or.inl (by simp : i ∈ _))).setReg d.toNat i
    (Or.inl (show x.idx ∈ ((i, k, v) :: E).map Prod.fst from by
      have := h.live (i := x.idx) (Or.inr (by simp [cids]))
      rw [List.nil_append] at this
      simp only [List.map_cons, List.mem_cons]; exact Or.inr this))
  have hbase : RBase (kn := kn.pop) s2.allocator (lft ((d, x, b) :: c) ++ (i, k, v) :: rgt ((d, x, b) :: c)) :=
    (hcl.setReg 2 x.idx (Or.inl (by simp : i ∈ _))).perm hperm
  have hz2 : Z (kn := kn.pop) s2 ((d, x, b) :: c) (.node .nil n .nil) [] (lft ((d, x, b) :: c) ++ (i, k, v) :: rgt ((d, x, b) :: c)) := by
    refine @Z.mk _ _ _ kn.pop _ _ _ _ _ ?_ ?_ (by simp [n, GN.ent]) hbase
    · refine ⟨?_, ?_, ?_, ?_, trivial, trivial⟩ <;> simp only [hrg, n, par, true_and, if_true, root_nil]
      · simp [Ne.symm hxi, hz 0]
      · simp [Ne.symm hxi, hz 1]
      · simp [Ne.symm hxi]
    · refine h.cshape.frame ?_ (by simp) (fun _ => ⟨rfl, ?_⟩) (List.nodup_append.1 h.nd).2.1
      · intro j hj q hq
        have hji := hcid j hj
        rw [hrg]
        have : ¬ (j = x.idx ∧ q = d.toNat) := hq
        simp only [hji, this, false_and, if_false]
        exact hfr j q hji
      · show s2.rg x.idx d.toNat = i
        rw [hrg]; simp [hxi]
  have eCR : (⟨s.root, a'⟩ : RedBlackTree K V M).colorRed i = .ok ⟨s.root, a'.setReg i 3 1⟩ := by
    unfold RedBlackTree.colorRed
    rw [if_pos (by simp [SENTINEL]; omega)]
    simp only [RED, COLOR, setRegister_ok _ hi2 (by decide : 3 < 4)]; rfl
  have eCo : (⟨s.root, a'.setReg i 3 1⟩ : RedBlackTree K V M).connect x.idx i d.toNat = .ok s2 :=
    connect_ok hx.2 hi2 d
  have eGP := (Z.up hz2).getParent'
  have hnr : Near 2 s s2 := by
    refine ⟨[x.idx, i], by simp, ?_⟩
    have h1 : NodeAllocator.Same (· ≠ COLOR) [i] s.allocator a' := .addNode e
    exact ((h1.trans (links_colorRed eCR)).trans (links_connect eCo)).mono (by intro j hj; simp at hj ⊢; omega)
  simp only [e, except_bind_ok, eCR, eCo, eGP]
  obtain ⟨m, hm1, hm2, hm3, hm4⟩ := hg
  have hm0 : m = 0 := hm1
  subst hm0
  have hn1 : RB (.node .nil n .nil : BT K V) 0 := Or.inl ⟨rfl, rfl, rfl, rfl, rfl⟩
  by_cases hp : par c = 0
  · have hcn : c = [] := (Z.up hz2).par_eq_zero.1 hp
    subst hcn
    have hct : ctag [(d, x, b)] = 1 → (BT.node .nil n .nil : BT K V).tag = 0 := by
      intro ht
      rcases hm2.2 with ⟨_, _, hc, _⟩ | ⟨h0, _⟩
      · exact absurd rfl hc
      · simp only [ctag] at ht; omega
    have hgp : Good [] (plug [(d, x, b)] (.node .nil n .nil)) := Good.plug ⟨0, hn1, hm2, hct, by simp⟩
    refine ⟨s2, _, i, by simp [hp, SENTINEL], hi, hz2.unzip, ⟨hgp, ?_⟩, hnr.mono (by omega)⟩
    have := hm2.insUp hn1 hct
    rw [blacken_of_black (by simp [hgp.root_black])] at this
    exact this.symm
  · obtain ⟨s', t', m', e', hz', hrb, ⟨ht', hk'⟩, hn'⟩ := fixInsert_spec (lim := lim) hz2 hn1 rfl hm2 (by simpa using hlim)
    refine ⟨s', t', i, ?_, hi, hz', ⟨⟨m', hrb, trivial, by simp [ctag], fun _ => ht'⟩, hk'⟩, hnr.trans hn'⟩
    have e'' : s2.fixInsert i lim = .ok s' := e'
    simp [hp, SENTINEL, e'']

/-- insertion below a node -/
theorem insertLoop_spec (hM : M + 1 < 2 ^ 32) (k : K) (v : V) : ∀ {t : BT K V} {c : Ctx K V} {fuel : Nat},
    Z s c t [] E → Good c t → t ≠ .nil → t.height ≤ fuel → Sorted E →
    (∀ e ∈ lft c, e.2.1 < k) → (∀ e ∈ rgt c, k < e.2.1) →
    (Absent E k ∧ E.length + kn.lost.length = M ∧ s.insertLoop k v fuel t.root = .ok (s, none)) ∨
    (¬ (Absent E k ∧ E.length + kn.lost.length = M) ∧ ∃ s' i E', s.insertLoop k v fuel t.root = .ok (s', some i) ∧
      Inv (kn := kn.ins (E.map Prod.fst) i) s' E' ∧ Ins E k v i E') := by
  intro t
  induction t with
  | nil => intro c fuel _ _ h; exact absurd rfl h
  | node l x r ihl ihr =>
    intro c fuel h hg _ hf hs hlc hrc
    obtain ⟨fuel, rfl⟩ : ∃ f, fuel = f + 1 := ⟨fuel - 1, by simp [height] at hf; omega⟩
    have hle := h.base.leL
    have hsz := h.base.sizeL
    rw [List.nil_append] at hle hsz
    have hE := h.ents
    have hst : Sorted (l.ents ++ x.ent :: r.ents) := by rw [← hE] at hs; exact hs.mid
    have hx : x.ent.2.1 = x.key := rfl
    simp only [height] at hf
    simp only [root_node, insertLoop, h.getNode, h.getLeft, h.getRight, except_bind_ok]
    -- the attach case, common to both directions
    have fin : ∀ {d : Bool} {b : BT K V}, Z s ((d, x, b) :: c) .nil [] E → Good ((d, x, b) :: c) .nil →
        (∀ e ∈ lft ((d, x, b) :: c), e.2.1 < k) → (∀ e ∈ rgt ((d, x, b) :: c), k < e.2.1) →
        ∀ rhs : R (RedBlackTree K V M × Option Nat), rhs = (if s.len ≥ s.capacity then pure (s, none) else do
          let (a, nodeIndex) ← s.allocator.addNode { key := k, value := v }
          let t : RedBlackTree K V M := { s with allocator := a }
          let t ← t.colorRed nodeIndex
          let t ← t.connect x.idx nodeIndex d.toNat
          let grandparent ← t.getParent x.idx
          let t ← (if grandparent ≠ SENTINEL then t.fixInsert nodeIndex else pure t)
          return (t, some nodeIndex)) →
        (Absent E k ∧ E.length + kn.lost.length = M ∧ rhs = .ok (s, none)) ∨
        (¬ (Absent E k ∧ E.length + kn.lost.length = M) ∧ ∃ s' i E', rhs = .ok (s', some i) ∧
          Inv (kn := kn.ins (E.map Prod.fst) i) s' E' ∧ Ins E k v i E') := by
      intro d b hz hgn hl hr rhs hrhs
      have hEn := hz.ents
      simp only [ents_nil, List.append_nil] at hEn
      have habs : Absent E k := by rw [← hEn]; exact absent_of hl hr
      by_cases hfull : E.length + kn.lost.length = M
      · left
        refine ⟨habs, hfull, ?_⟩
        rw [hrhs, if_pos (by simp only [len, capacity]; omega)]; rfl
      · right
        obtain ⟨s', t', i, e, hi, hz', ⟨hg', _⟩, _⟩ := attach_spec (lim := M + 2) hM hz hgn (by omega) k v (by have := hz.lim_ok; simpa [height] using this)
        refine ⟨fun hc => hfull hc.2, s', i, _, ?_, ⟨t', kn.ins_new hi ▸ hz', hg', ?_⟩, Or.inr ⟨habs, hi, _, _, hEn.symm, rfl⟩⟩
        · rw [hrhs, if_neg (by simp only [len, capacity]; omega)]; exact e
        · rw [← hEn] at hs; exact hs.insert hl hr i v
    rcases lt_trichotomy k x.key with hlt | heq | hgt
    · rw [compare_lt_iff_lt.2 hlt]
      have hl := Z.down (d := false) h
      have hgl := Good.down (d := false) hg
      have hlc' : ∀ e ∈ lft ((false, x, r) :: c), e.2.1 < k := by simpa [lft] using hlc
      have hrc' : ∀ e ∈ rgt ((false, x, r) :: c), k < e.2.1 := by
        intro e he
        simp only [rgt, Bool.false_eq_true, if_false, List.mem_append, List.mem_cons] at he
        rcases he with (rfl | he) | he
        · exact hlt
        · exact lt_trans hlt (hx ▸ hst.mid_lt he)
        · exact hrc e he
      by_cases hln : l = .nil
      · subst hln
        exact fin hl hgl hlc' hrc' _ rfl
      · rw [if_neg (show ¬ l.root = SENTINEL from fun hc => hln (hl.root_eq_zero.1 hc))]
        exact ihl hl hgl hln (by omega) hs hlc' hrc'
    · rw [compare_eq_iff_eq.2 heq]
      right
      have hE' : E = (lft c ++ l.ents) ++ (x.idx, k, x.val) :: (r.ents ++ rgt c) := by
        rw [← hE]; simp [GN.ent, heq]
      have hz := h.unzip
      have hgp := hg.plug
      rw [hE'] at hz
      obtain ⟨s', e, hz', _⟩ := hz.setVal v
      refine ⟨fun hc => hc.1 (x.idx, k, x.val) (by rw [hE']; simp) rfl, s', x.idx, _, ?_,
        ⟨_, kn.ins_old (show x.idx ∈ E.map Prod.fst by rw [hE']; simp) ▸ hz', ?_, ?_⟩,
        Or.inl ⟨_, _, _, hE', rfl⟩⟩
      · simp only [e, except_bind_ok]; rfl
      · obtain ⟨n, g1, g2, g3, g4⟩ := hgp
        exact ⟨n, g1.put _ _, trivial, by simp [ctag], fun _ => by rw [BT.tag_put]; exact g4 rfl⟩
      · rw [hE'] at hs; exact hs.set
    · rw [compare_gt_iff_gt.2 hgt]
      have hr := Z.down (d := true) h
      have hgr := Good.down (d := true) hg
      have hrc' : ∀ e ∈ rgt ((true, x, l) :: c), k < e.2.1 := by simpa [rgt] using hrc
      have hlc' : ∀ e ∈ lft ((true, x, l) :: c), e.2.1 < k := by
        intro e he
        simp only [lft, if_true, List.mem_append, List.mem_cons, List.not_mem_nil, or_false] at he
        rcases he with he | he | rfl
        · exact hlc e he
        · exact lt_trans (hx ▸ hst.lt_mid he) hgt
        · exact hgt
      by_cases hrn : r = .nil
      · subst hrn
        exact fin hr hgr hlc' hrc' _ rfl
      · rw [if_neg (show ¬ r.root = SENTINEL from fun hc => hrn (hr.root_eq_zero.1 hc))]
        exact ihr hr hgr hrn (by omega) hs hlc' hrc'

/-- removal below a node -/
theorem removeLoop_spec (k : K) : ∀ {t : BT K V} {c : Ctx K V} {fuel : Nat},
    Z s c t [] E → Good c t → t ≠ .nil → t.height ≤ fuel → Sorted E →
    (∀ e ∈ lft c, e.2.1 < k) → (∀ e ∈ rgt c, k < e.2.1) →
    (Absent E k ∧ s.removeLoop k fuel t.root = .ok (s, none)) ∨
    (∃ s' v E' i, s.removeLoop k fuel t.root = .ok (s', some v) ∧ Inv (kn := kn.push i) s' E' ∧ Del E k v E' ∧ (i, k, v) ∈ E) := by
  intro t
  induction t with
  | nil => intro c fuel _ _ h; exact absurd rfl h
  | node l x r ihl ihr =>
    intro c fuel h hg _ hf hs hlc hrc
    obtain ⟨fuel, rfl⟩ : ∃ f, fuel = f + 1 := ⟨fuel - 1, by simp [height] at hf; omega⟩
    have hE := h.ents
    have hst : Sorted (l.ents ++ x.ent :: r.ents) := by rw [← hE] at hs; exact hs.mid
    have hx : x.ent.2.1 = x.key := rfl
    simp only [height] at hf
    simp only [root_node, removeLoop, h.getNode, h.getLeft, h.getRight, except_bind_ok]
    have fin : ∀ {d : Bool} {b : BT K V}, Z s ((d, x, b) :: c) .nil [] E →
        (∀ e ∈ lft ((d, x, b) :: c), e.2.1 < k) → (∀ e ∈ rgt ((d, x, b) :: c), k < e.2.1) → Absent E k := by
      intro d b hz hl hr
      have hEn := hz.ents
      simp only [ents_nil, List.append_nil] at hEn
      rw [← hEn]; exact absent_of hl hr
    rcases lt_trichotomy k x.key with hlt | heq | hgt
    · rw [compare_lt_iff_lt.2 hlt]
      have hl := Z.down (d := false) h
      have hgl := Good.down (d := false) hg
      have hlc' : ∀ e ∈ lft ((false, x, r) :: c), e.2.1 < k := by simpa [lft] using hlc
      have hrc' : ∀ e ∈ rgt ((false, x, r) :: c), k < e.2.1 := by
        intro e he
        simp only [rgt, Bool.false_eq_true, if_false, List.mem_append, List.mem_cons] at he
        rcases he with (rfl | he) | he
        · exact hlt
        · exact lt_trans hlt (hx ▸ hst.mid_lt he)
        · exact hrc e he
      by_cases hln : l = .nil
      · subst hln
        exact Or.inl ⟨fin hl hlc' hrc', rfl⟩
      · rw [if_neg (show ¬ l.root = SENTINEL from fun hc => hln (hl.root_eq_zero.1 hc))]
        exact ihl hl hgl hln (by omega) hs hlc' hrc'
    · rw [compare_eq_iff_eq.2 heq]
      right
      have hE' : E = (lft c ++ l.ents) ++ (x.idx, k, x.val) :: (r.ents ++ rgt c) := by
        rw [← hE]; simp [GN.ent, heq]
      obtain ⟨s', t', e, hz', hg', _⟩ := removeTreeNode_spec (lim := M + 2) h hg (by have := h.lim_ok; omega)
      have hd : Del E k x.val (lft c ++ (l.ents ++ r.ents) ++ rgt c) :=
        ⟨_, _, _, hE', by simp⟩
      exact ⟨s', x.val, _, x.idx, by simp only [e, except_bind_ok]; rfl, ⟨t', hz', hg', hd.sorted hs⟩, hd, by rw [hE']; simp⟩
    · rw [compare_gt_iff_gt.2 hgt]
      have hr := Z.down (d := true) h
      have hgr := Good.down (d := true) hg
      have hrc' : ∀ e ∈ rgt ((true, x, l) :: c), k < e.2.1 := by simpa [rgt] using hrc
      have hlc' : ∀ e ∈ lft ((true, x, l) :: c), e.2.1 < k := by
        intro e he
        simp only [lft, if_true, List.mem_append, List.mem_cons, List.not_mem_nil, or_false] at he
        rcases he with he | he | rfl
        · exact hlc e he
        · exact lt_trans (hx ▸ hst.lt_mid he) hgt
        · exact hgt
      by_cases hrn : r = .nil
      · subst hrn
        exact Or.inl ⟨fin hr hlc' hrc', rfl⟩
      · rw [if_neg (show ¬ r.root = SENTINEL from fun hc => hrn (hr.root_eq_zero.1 hc))]
        exact ihr hr hgr hrn (by omega) hs hlc' hrc'

end RedBlackTree
end Sokoban
