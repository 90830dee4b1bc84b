import Verif.Proof.AVLBal

/-
Unlinking a node of the AVL tree.
-/
namespace Sokoban
open BT Ctx NodeAllocator Textbook
variable {K V : Type} {M : Nat}

namespace AVLTree
variable {kn : Known} {s : AVLTree K V M} {c : Ctx K V} {t : BT K V} {X E : List (Nat × K × V)}
  {d : Bool} {a b l r : BT K V} {x : GN K V} {h n : Nat}

/-- `set_field` when all heights are small -/
theorem setField_hb {i v : Nat} (hb : ∀ k, ht s.rg k ≤ n) (hn : n < 2 ^ 32) (d : Bool) (hi : 1 ≤ i ∧ i ≤ M)
    (hv : v ≤ M) (ho : s.rg i (!d).toNat ≤ M) :
    ∃ s', s.setField i d.toNat v = .ok s' ∧ s'.root = s.root ∧ s'.rg i d.toNat = v ∧
      (∀ k q, ¬ (k = i ∧ (q = d.toNat ∨ q = 2)) → s'.rg k q = s.rg k q) ∧
      (∀ L, ABase s.allocator L → i ∈ L.map Prod.fst → ABase s'.allocator L) ∧
      (∀ k, ht s'.rg k ≤ n + 1) := by
  have h1 := hb v
  have h2 := hb (s.rg i (!d).toNat)
  obtain ⟨s', e, hr, hg, hbase⟩ := setField_ok (kn := kn) (s := s) d hi hv ho (by omega) (by omega)
  refine ⟨s', e, hr, by rw [hg, if_pos ⟨rfl, rfl⟩], ?_, hbase, ?_⟩
  · intro k q hq
    rw [hg, if_neg (fun hc => hq ⟨hc.1, Or.inl hc.2⟩), if_neg (fun hc => hq ⟨hc.1, Or.inr hc.2⟩)]
  · intro k
    have h3 := hb k
    have h4 := hg k 2
    unfold ht
    unfold ht at h3
    by_cases hk : k = i
    · subst hk
      rw [if_neg (by cases d <;> simp), if_pos ⟨rfl, rfl⟩] at h4
      split <;> omega
    · rw [if_neg (fun hc => hk hc.1), if_neg (fun hc => hk hc.1)] at h4
      split
      · omega
      · simp_all; omega

/-- all heights stored in a balanced tree are small -/
theorem Z.hb [kn.Low] (hM : M + 1 < 2 ^ 32) (hz : Z s [] h t [] E) (ha : AVL t) : ∀ k, ht s.rg k ≤ 65 := by
  intro k
  have hh := ha.height_lt (by have := hz.len_le; omega)
  unfold ht
  split
  · omega
  · by_cases hk : k ∈ t.ids
    · have := ha.tags hz.shape k hk; omega
    · by_cases hkl : k ∈ kn.lost
      · have h1 : s.rg k 2 = kn.reg k 2 := (hz.base.kept k hkl).1 2
        rw [h1]; exact Nat.succ_le_succ (Known.Low.low (c := kn) k hkl)
      have : s.rg k 2 = 0 := by
        refine hz.base.clean k 2 ?_ (by decide) (Or.inl (by decide))
        rw [List.mem_append, hz.perm.mem_iff]
        exact not_or.2 ⟨hkl, by simpa [cids] using hk⟩
      omega

/-- left subtree -/
def _root_.Sokoban.BT.lchild : BT K V → BT K V
  | .nil => .nil
  | .node l _ _ => l

/-- right subtree -/
def _root_.Sokoban.BT.rchild : BT K V → BT K V
  | .nil => .nil
  | .node _ _ r => r

/-- entries above the focus in the order of the inner path -/
def ipath : Ctx K V → Nat → List Ancestor
  | [], _ => []
  | (d, y, _) :: c, h => (some y.idx, some d.toNat, h) :: ipath c y.idx

/-- index of the outermost node of a context -/
def top : Ctx K V → Nat → Nat
  | [], h => h
  | (_, y, _) :: c, _ => top c y.idx

/-- path entries of the focus and the nodes above it -/
def fp (c : Ctx K V) (h : Nat) : List Ancestor := (parOf c, dirOf c, h) :: pathOf c

theorem pathOf_cons (c : Ctx K V) : pathOf ((d, x, b) :: c) = fp c x.idx := rfl

theorem root_plug : ∀ (c : Ctx K V) (t : BT K V), (plug c t).root = top c t.root
  | [], _ => rfl
  | (d, x, b) :: c, t => by rw [plug, root_plug c, root_br]; rfl

theorem top_mem : ∀ (c : Ctx K V) (h : Nat), c ≠ [] → top c h ∈ cids c
  | [], _, hc => absurd rfl hc
  | (d, y, b) :: c, h, _ => by
    by_cases hc : c = []
    · subst hc; simp [top, cids]
    · have := top_mem c y.idx hc
      simp [top, cids, this]

theorem fp_append : ∀ (ci c : Ctx K V) (h : Nat), fp (ci ++ c) h = ipath ci h ++ fp c (top ci h)
  | [], _, _ => rfl
  | (d, y, b) :: ci, c, h => by
    show (some y.idx, some d.toNat, h) :: fp (ci ++ c) y.idx = _
    rw [fp_append ci]; rfl

theorem ipath_append : ∀ (ci c : Ctx K V) (h : Nat), ipath (ci ++ c) h = ipath ci h ++ ipath c (top ci h)
  | [], _, _ => rfl
  | (d, y, b) :: ci, c, h => by
    show (some y.idx, some d.toNat, h) :: ipath (ci ++ c) y.idx = _
    rw [ipath_append ci]; rfl

/-- the walk to the leftmost descendant -/
theorem Z.leftmostLoop : ∀ {t : BT K V} {c : Ctx K V} {fuel lp : Nat} {ip : List Ancestor},
    Z s c t.root t X E → t ≠ .nil → t.height ≤ fuel →
    ∃ ci m mr, t = plug ci (.node .nil m mr) ∧ (∀ f ∈ ci, f.1 = false) ∧
      s.leftmostLoop fuel t.root lp ip = .ok (m.idx, if ci = [] then lp else par ci, ipath ci m.idx ++ ip) := by
  intro t
  induction t with
  | nil => intro c fuel lp ip _ h; exact absurd rfl h
  | node l x r ih _ =>
    intro c fuel lp ip hz _ hf
    obtain ⟨fuel, rfl⟩ : ∃ f, fuel = f + 1 := ⟨fuel - 1, by simp [height] at hf; omega⟩
    have hl : Z s ((false, x, r) :: c) l.root l X E := Z.down (d := false) hz
    have hx := hz.rng (i := x.idx) (Or.inl (by simp))
    have hrg : s.rg x.idx 0 = l.root := hz.shape.1
    simp only [root_node, AVLTree.leftmostLoop, LEFT]
    rw [getField_ok hx.2 (by decide), hrg]
    simp only [except_bind_ok]
    by_cases hln : l = .nil
    · subst hln
      exact ⟨[], x, r, rfl, by simp, by simp [SENTINEL, ipath]⟩
    · rw [if_pos (show l.root ≠ SENTINEL from fun hc => hln (hl.root_eq_zero.1 hc))]
      obtain ⟨ci, m, mr, e1, e2, e3⟩ := ih (fuel := fuel) (lp := x.idx) (ip := (some x.idx, some 0, l.root) :: ip) hl hln
        (by simp [height] at hf; omega)
      refine ⟨ci ++ [(false, x, r)], m, mr, ?_, ?_, ?_⟩
      · rw [plug_append, ← e1]; rfl
      · intro f hf
        rcases List.mem_append.1 hf with hf | hf
        · exact e2 f hf
        · simp at hf; rw [hf]
      · rw [e3, ipath_append]
        have : top ci m.idx = l.root := by rw [e1, root_plug]; rfl
        simp only [ipath, this, List.append_eq_nil_iff, List.cons_ne_self, and_false, if_false,
          List.append_assoc, List.cons_append, List.nil_append, Bool.toNat_false]
        cases ci with
        | nil => rfl
        | cons f ci => rfl

theorem Z.downs : ∀ {ci : Ctx K V} {u : BT K V}, Z s c (plug ci u).root (plug ci u) X E → Z s (ci ++ c) u.root u X E
  | [], _, hz => hz
  | (d, y, b) :: ci, u, hz => by
    have := Z.downs (ci := ci) (u := br d u y b) hz
    rw [root_br] at this
    exact this.down

theorem CAVL.downs : ∀ {ci : Ctx K V} {u : BT K V} , AVL (plug ci u) → CAVL c (plug ci u).height →
    CAVL (ci ++ c) u.height ∧ AVL u
  | [], _, ha, hc => ⟨hc, ha⟩
  | (d, y, b) :: ci, u, ha, hc => by
    obtain ⟨h1, h2⟩ := CAVL.downs (ci := ci) (u := br d u y b) ha hc
    obtain ⟨_, k2, k3, k4, k5⟩ := AVL_br.1 h2
    rw [height_br] at h1
    exact ⟨⟨k5, by omega, by omega, h1⟩, k4⟩

/-- taking the node in focus, which has no child in direction `d`, out of the tree -/
theorem Z.detach (hz : Z s c h (br d .nil x b) X E) :
    Z s c h b (x.ent :: X) (lft c ++ b.ents ++ rgt c) := by
  obtain ⟨_, _, _, _, k5⟩ := AShape_br.1 hz.shape
  refine ⟨k5, hz.cshape, rfl, hz.base.perm ?_⟩
  rw [← hz.ents]
  have : (lft c ++ (br d .nil x b).ents ++ rgt c).Perm (x.ent :: (lft c ++ b.ents ++ rgt c)) := by
    cases d
    · simp only [br_false, ents_node, ents_nil, List.nil_append, List.append_assoc, List.cons_append]
      exact List.perm_middle
    · simp only [br_true, ents_node, ents_nil, List.append_assoc, List.cons_append, List.nil_append]
      rw [← List.append_assoc, ← List.append_assoc]
      exact List.perm_middle
  exact (this.append_left X).trans List.perm_middle

/-- registers of nodes outside the tree do not matter -/
theorem Z.xframe {s' : AVLTree K V M} {i : Nat} (hz : Z s c h t X E) (hi : i ∈ X.map Prod.fst)
    (hr : s'.root = s.root) (hg : ∀ k q, k ≠ i → s'.rg k q = s.rg k q) (hb : ABase s'.allocator (X ++ E)) :
    Z s' c h t X E := by
  have hd := hz.xdis hi
  refine ⟨hz.shape.frame (fun k hk q => hg k q ?_), ?_, hz.ents, hb⟩
  · rintro rfl; exact hd.1 hk
  · rw [hr]
    exact hz.cshape.frame0 (fun k hk q => hg k q (by rintro rfl; exact hd.2 hk))

/-- `delete` of a node outside the tree -/
theorem Z.delete {i : Nat} {k : K} {v : V} (hz : Z s c h t [(i, k, v)] E) :
    ∃ s', s.delete i = .ok s' ∧ Z (kn := kn.push i) s' c h t [] E := by
  have hi := hz.base.range (i := i) (by simp)
  have hd := hz.xdis (i := i) (by simp)
  have hb := ((hz.base.setReg (i := i) 0 0 (Or.inl (by simp))).setReg (i := i) 1 0 (Or.inl (by simp))).setReg
    (i := i) 2 0 (Or.inl (by simp))
  have hg : ∀ j q, (((s.allocator.setReg i 0 0).setReg i 1 0).setReg i 2 0).reg j q =
      if j = i ∧ (q = 0 ∨ q = 1 ∨ q = 2) then 0 else s.rg j q := by
    intro j q
    rw [rset _ hi (by decide), rset _ hi (by decide), rset _ hi (by decide)]
    by_cases hj : j = i
    · simp only [hj, true_and]
      by_cases h2 : q = 2
      · simp [h2]
      · by_cases h1 : q = 1
        · simp [h1]
        · by_cases h0 : q = 0
          · simp [h0]
          · simp [h0, h1, h2]
    · simp [hj]
  obtain ⟨a', e, hb', hf⟩ := Base.remove (i := i) (k := k) (v := v) (E := E) (by simpa using hb) (by
    intro q hq h0
    rw [hg, if_pos]
    exact ⟨rfl, by omega⟩)
  refine ⟨⟨s.root, a'⟩, ?_, ?_⟩
  · unfold AVLTree.delete
    simp only [LEFT, RIGHT, HEIGHT, clearRegister_ok _ hi.2 (by decide : 0 < 4), clearRegister_ok _ hi.2 (by decide : 1 < 4),
      clearRegister_ok _ hi.2 (by decide : 2 < 4), except_bind_ok, e]
    rfl
  · have hne : ∀ j q, j ≠ i → a'.reg j q = s.rg j q := by
      intro j q hj; rw [hf j q hj, hg, if_neg (fun hc => hj hc.1)]
    refine @Z.mk _ _ _ (kn.push i) _ _ _ _ _ _ (hz.shape.frame (fun j hj q => hne j q ?_))
      (hz.cshape.frame0 (fun j hj q => hne j q ?_)) hz.ents hb'
    · rintro rfl; exact hd.1 hj
    · rintro rfl; exact hd.2 hj

/-- linking a node to the parent of the focus -/
theorem parentLink {j : Nat} (hb : ∀ k, ht s.rg k ≤ n) (hn : n < 2 ^ 32) (hc : ACtx s.rg s.root c h)
    (hrng : ∀ i ∈ cids c, 1 ≤ i ∧ i ≤ M) (hj : j ≤ M) :
    ∃ s', (match parOf c with
        | some parent => do s.setField parent (← unwrap (dirOf c)) j
        | none => pure s : R (AVLTree K V M)) = .ok s' ∧ s'.root = s.root ∧
      (∀ i q, ¬ (i = par c ∧ i ∈ cids c ∧ (q = dir c ∨ q = 2)) → s'.rg i q = s.rg i q) ∧
      (c ≠ [] → s'.rg (par c) (dir c) = j) ∧
      (∀ L, ABase s.allocator L → (∀ i ∈ cids c, i ∈ L.map Prod.fst) → ABase s'.allocator L) := by
  cases c with
  | nil => exact ⟨s, rfl, rfl, fun _ _ _ => rfl, by simp, fun _ h _ => h⟩
  | cons f c =>
    obtain ⟨d, x, b⟩ := f
    have hx := hrng x.idx (by simp [cids])
    have hrb : b.root ≤ M := by
      cases b with
      | nil => simp
      | node l y r => exact (hrng y.idx (by simp [cids])).2
    obtain ⟨_, h2, _⟩ := hc
    obtain ⟨s', e, e1, e2, e3, e4, _⟩ := setField_hb (kn := kn) hb hn d hx hj (h2 ▸ hrb)
    refine ⟨s', by simpa only [parOf, dirOf, unwrap, except_bind_ok] using e, e1, ?_, fun _ => e2, ?_⟩
    · intro i q hq
      refine e3 i q ?_
      rintro ⟨rfl, hc⟩
      exact hq ⟨rfl, by simp [cids], hc⟩
    · intro L hL hm
      exact e4 L hL (hm _ (by simp [cids]))

theorem ACtx.root_mem {reg : Nat → Nat → Nat} {root : Nat} : ∀ {c : Ctx K V} {h : Nat}, ACtx reg root c h → c ≠ [] →
    root ∈ cids c
  | [], _, _, h => absurd rfl h
  | (d, x, b) :: c, h, ⟨_, _, _, h4⟩, _ => by
    by_cases hc : c = []
    · subst hc
      have : root = x.idx := h4
      simp [cids, this]
    · simp [cids, ACtx.root_mem h4 hc]

theorem lft_false : ∀ {ci : Ctx K V}, (∀ f ∈ ci, f.1 = false) → lft ci = []
  | [], _ => rfl
  | (d, x, b) :: ci, h => by
    have hd : d = false := h (d, x, b) (by simp)
    subst hd
    have ih := lft_false (ci := ci) (fun f hf => h f (by simp [hf]))
    simp [lft, ih]

/-- the case of two children -/
theorem Z.removeTwo {lim : Nat} (hb : ∀ k, ht s.rg k ≤ 65) (hz : Z s c x.idx (.node l x r) [] E)
    (hr : AVL r) (hl : AVL l) (hln : l ≠ .nil) (hrn : r ≠ .nil)
    (h1 : l.height ≤ r.height + 1) (h2 : r.height ≤ l.height + 1) (hc : CAVL c (max l.height r.height + 1))
    (hfuel : r.height ≤ lim) :
    ∃ s' C mr m, s.removeTwo l.root r.root (fp c x.idx) lim = .ok (s', pathOf C, m) ∧
      Z (if x.idx = s'.root then { s' with root := m } else s') C mr.root mr [x.ent]
        (lft c ++ (l.ents ++ r.ents) ++ rgt c) ∧ CAVL C (mr.height + 1) ∧ AVL mr ∧
      balUp C mr.sk = balUp c (Tree.join l.sk r.sk) := by
  have hzr : Z s ((true, x, l) :: c) r.root r [] E := Z.down (d := true) hz
  have hcr : CAVL ((true, x, l) :: c) r.height := ⟨hl, h1, h2, by rwa [Nat.max_comm]⟩
  obtain ⟨ci, m, mr, er, hci, elm⟩ := hzr.leftmostLoop (lp := SENTINEL) (ip := []) hrn hfuel
  have hzm : Z s (ci ++ (true, x, l) :: c) m.idx (.node .nil m mr) [] E := by
    rw [er] at hzr; exact hzr.downs
  obtain ⟨hcm, ham⟩ := CAVL.downs (ci := ci) (u := .node .nil m mr) (c := (true, x, l) :: c) (er ▸ hr) (er ▸ hcr)
  have hamr : AVL mr := ham.2.2.2.2
  have hsk : balUp (ci ++ (true, m, l) :: c) mr.sk = balUp c (Tree.join l.sk r.sk) := by
    obtain ⟨a, y, b, g1, g2⟩ := popMin_plug (t := .node .nil m mr) hci ⟨.leaf, m.key, mr.sk, rfl, rfl⟩
    rw [balUp_append, join_two (fun h => hln (sk_eq_leaf.1 h)) (by rw [er]; exact g1) g2]
    rfl
  have hcm' : CAVL (ci ++ (true, m, l) :: c) (mr.height + 1) := by
    have := hcm.congr (m := m)
    simpa only [height, Nat.zero_max] using this
  have hx := hz.rng (i := x.idx) (Or.inl (by simp))
  have hm := hzm.rng (i := m.idx) (Or.inl (by simp))
  have hmr : s.rg m.idx 1 = mr.root := hzm.shape.2.1
  have hx1 : s.rg x.idx 1 = r.root := hz.shape.2.1
  have hdm := Z.dis (d := false) hzm
  have hdx := Z.dis (d := false) hz
  have hmr_le : mr.root ≤ M := by
    cases mr with
    | nil => simp
    | node l y r => exact (hzm.rng (i := y.idx) (Or.inl (by simp))).2
  have hl_le : l.root ≤ M := by
    cases l with
    | nil => simp
    | node l y r => exact (hz.rng (i := y.idx) (Or.inl (by simp))).2
  have hr_le : r.root ≤ M := hzr.root_le
  have hmx : m.idx ≠ x.idx := by
    intro hc'; exact hdm.xc (by rw [cids_append]; simp [cids, hc'])
  have hml : ∀ i ∈ l.ids, i ≠ m.idx := by
    rintro i hi rfl; exact hdm.xc (by rw [cids_append]; simp [cids, hi])
  have hmc : ∀ i ∈ cids c, i ≠ m.idx := by
    rintro i hi rfl; exact hdm.xc (by rw [cids_append]; simp [cids, hi])
  have hmci : ∀ i ∈ cids ci, i ≠ m.idx := by
    rintro i hi rfl; exact hdm.xc (by rw [cids_append]; simp [hi])
  have hnc := hdm.nc
  rw [cids_append] at hnc
  obtain ⟨_, hnc2, hnc3⟩ := List.nodup_append.1 hnc
  have hcix : ∀ i ∈ cids ci, i ≠ x.idx := fun i hi hc' => hnc3 i hi x.idx (by simp [cids]) hc'
  have hcic : ∀ i ∈ cids ci, ∀ j ∈ cids c, i ≠ j := fun i hi j hj => hnc3 i hi j (by simp [cids, hj])
  have hci_par : ∀ {i}, i = par c → i ∈ cids c → i ∉ cids ci := fun _ h' hi => hcic _ hi _ h' rfl
  have hrngc : ∀ i ∈ cids c, 1 ≤ i ∧ i ≤ M := fun i hi => hz.rng (Or.inr hi)
  -- the entries
  have hlci : lft ci = [] := lft_false hci
  have hre : r.ents = m.ent :: (mr.ents ++ rgt ci) := by
    rw [er, ents_plug, hlci]; simp
  have hD : lft (ci ++ (true, x, l) :: c) ++ mr.ents ++ rgt (ci ++ (true, x, l) :: c) =
      lft c ++ l.ents ++ x.ent :: (mr.ents ++ rgt ci ++ rgt c) := by
    rw [lft_append, rgt_append, hlci]; simp [lft, rgt]
  have hD' : lft (ci ++ (true, m, l) :: c) ++ mr.ents ++ rgt (ci ++ (true, m, l) :: c) =
      lft c ++ (l.ents ++ r.ents) ++ rgt c := by
    rw [lft_append, rgt_append, hlci, hre]; simp [lft, rgt]
  have hzd := Z.detach (d := false) hzm
  rw [hD] at hzd
  have hperm : ([m.ent] ++ (lft c ++ l.ents ++ x.ent :: (mr.ents ++ rgt ci ++ rgt c))).Perm
      ([x.ent] ++ (lft c ++ (l.ents ++ r.ents) ++ rgt c)) := by
    rw [hre]
    refine (List.Perm.append_left [m.ent] List.perm_middle).trans ?_
    refine (List.Perm.swap x.ent m.ent _).trans ?_
    refine List.Perm.append_left [x.ent] ?_
    have : lft c ++ (l.ents ++ m.ent :: (mr.ents ++ rgt ci)) ++ rgt c =
        (lft c ++ l.ents) ++ m.ent :: (mr.ents ++ rgt ci ++ rgt c) := by simp
    rw [this]
    exact List.perm_middle.symm
  have hmX : m.idx ∈ ([m.ent] : List (Nat × K × V)).map Prod.fst := by simp [GN.ent]
  -- the tail common to both cases: `s3` is the memory before the parent is relinked
  have tail : ∀ (s3 : AVLTree K V M) (h3 : Nat), s3.root = s.root → (∀ k, ht s3.rg k ≤ 68) →
      Z s3 (ci ++ (true, x, l) :: c) h3 mr [m.ent] (lft c ++ l.ents ++ x.ent :: (mr.ents ++ rgt ci ++ rgt c)) →
      s3.rg m.idx 0 = l.root → (ci = [] → s3.rg m.idx 1 = mr.root) →
      (ci ≠ [] → h3 = mr.root ∧ s3.rg m.idx 1 = s3.rg x.idx 1) →
      ∃ s', (match parOf c with
          | some parent => do s3.setField parent (← unwrap (dirOf c)) m.idx
          | none => pure s3 : R (AVLTree K V M)) = .ok s' ∧
        Z (if x.idx = s'.root then { s' with root := m.idx } else s') (ci ++ (true, m, l) :: c) mr.root mr [x.ent]
          (lft c ++ (l.ents ++ r.ents) ++ rgt c) := by
    intro s3 h3 hroot hb3 hz3 hm0 hm1 hm1'
    have hc3 : ACtx s3.rg s3.root c x.idx ∧ AShape s3.rg l := by
      have : ∀ (ci : Ctx K V) (h : Nat), ACtx s3.rg s3.root (ci ++ (true, x, l) :: c) h →
          ACtx s3.rg s3.root c x.idx ∧ AShape s3.rg l := by
        intro ci
        induction ci with
        | nil => intro h hh; exact ⟨hh.2.2.2, hh.2.2.1⟩
        | cons f ci ih => intro h hh; exact ih _ hh.2.2.2
      exact this ci h3 hz3.cshape
    obtain ⟨s', e, e1, e2, e3, e4⟩ := parentLink (kn := kn) hb3 (by omega) hc3.1 hrngc hm.2
    refine ⟨s', e, ?_⟩
    have hbase : ABase s'.allocator ([x.ent] ++ (lft c ++ (l.ents ++ r.ents) ++ rgt c)) := by
      refine (e4 _ hz3.base ?_).perm hperm
      intro i hi
      exact hz3.live (Or.inr (by rw [cids_append]; simp [cids, hi]))
    have hne : ∀ i, i ∉ cids c → ∀ q, s'.rg i q = s3.rg i q := by
      intro i hi q; exact e2 i q (fun hc' => hi hc'.2.1)
    have hcf : ∀ i ∈ cids c, ∀ q, ¬ (i = par c ∧ (q = dir c ∨ q = 2)) → s'.rg i q = s3.rg i q := by
      intro i _ q hq; exact e2 i q (fun hc' => hq ⟨hc'.1, hc'.2.2⟩)
    -- the final tree
    generalize hs5 : (if x.idx = s'.root then { s' with root := m.idx } else s' : AVLTree K V M) = s5
    have h5a : s5.allocator = s'.allocator := by rw [← hs5]; split <;> rfl
    have h5g : s5.rg = s'.rg := by unfold rg; rw [h5a]
    have h5n : c = [] → s5.root = m.idx := by
      rintro rfl
      have : x.idx = s'.root := by rw [e1]; exact hc3.1.symm
      rw [← hs5, if_pos this]
    have h5c : c ≠ [] → s5.root = s3.root ∧ s5.rg (par c) (dir c) = m.idx := by
      intro hcn
      have : x.idx ≠ s'.root := by
        rw [e1]; intro hc'
        exact hdx.xc (hc' ▸ ACtx.root_mem hc3.1 hcn)
      rw [h5g]
      exact ⟨by rw [← hs5, if_neg this, e1], e3 hcn⟩
    have hmn : m.idx ∉ cids c := fun hc' => hmc _ hc' rfl
    have hbase5 : ABase s5.allocator ([x.ent] ++ (lft c ++ (l.ents ++ r.ents) ++ rgt c)) := by rw [h5a]; exact hbase
    refine ⟨?_, ?_, hD', hbase5⟩
    · rw [h5g]
      refine hz3.shape.frame (fun i hi q => hne i ?_ q)
      intro hc'
      exact hdm.bc i hi (by rw [cids_append]; simp [cids, hc'])
    · by_cases hcin : ci = []
      · subst hcin
        refine ⟨?_, ?_, ?_, ?_⟩
        · rw [h5g, hne _ hmn]; exact hm1 rfl
        · rw [h5g, hne _ hmn]; exact hm0
        · rw [h5g]
          exact hc3.2.frame (fun i hi q => hne i (fun hc' => hdx.ac i hi hc') q)
        · refine hc3.1.frame (fun i hi q hq => ?_) h5n h5c hdx.nc
          rw [h5g]; exact hcf i hi q hq
      · obtain ⟨hh3, hm1⟩ := hm1' hcin
        have := hz3.cshape
        rw [hh3] at this
        refine this.swap (m := m) ?_ ?_ ?_ ?_ ?_ h5n h5c hdx.nc hcix
        · intro i hi q; rw [h5g]; exact hne i (fun hc' => hcic i hi i hc' rfl) q
        · intro i hi q; rw [h5g]; exact hne i (fun hc' => hdx.ac i hi hc') q
        · intro i hi q hq; rw [h5g]; exact hcf i hi q hq
        · rw [h5g, hne _ hmn]; exact hm1
        · rw [h5g, hne _ hmn]; exact hm0
  unfold AVLTree.removeTwo
  have hpop : popPath (fp c x.idx) = .ok ((parOf c, dirOf c, x.idx), pathOf c) := rfl
  cases ci with
  | nil =>
    have hrm : r.root = m.idx := by rw [er]; rfl
    obtain ⟨s3, e3, f1, f2, f3, f4, f5⟩ := setField_hb (kn := kn) (v := l.root) hb (by omega) false hm hl_le
      (show s.rg m.idx 1 ≤ M by rw [hmr]; exact hmr_le)
    have hz3 := hzd.xframe hmX f1 (fun k q hk => f3 k q (fun hc' => hk hc'.1)) (f4 _ hzd.base (by simp))
    obtain ⟨s', e', z'⟩ := tail s3 _ f1 (fun k => Nat.le_trans (f5 k) (by omega)) hz3 f2
      (fun _ => by rw [f3 _ _ (by simp)]; exact hmr) (fun hc' => absurd rfl hc')
    refine ⟨s', _, mr, m.idx, ?_, z', hcm', hamr, hsk⟩
    simp only [elm, except_bind_ok, LEFT, RIGHT, if_true, ne_eq, not_true_eq_false, if_false, except_pure]
    simp only [Bool.toNat_false] at e3
    rw [e3]
    simp only [except_bind_ok, hrm, not_true_eq_false, if_false, hpop]
    have e4 := congrArg (fun q : R (AVLTree K V M) => q >>= fun t =>
      (.ok (t, (parOf c, dirOf c, m.idx) :: pathOf c, m.idx) : R (AVLTree K V M × List Ancestor × Nat))) e'
    exact e4
  | cons f ci =>
    obtain ⟨d, y, yr⟩ := f
    have hd : d = false := hci (d, y, yr) (by simp)
    subst hd
    have hrm : r.root ≠ m.idx := by
      rw [er, root_plug]
      exact hmci _ (top_mem _ _ (by simp))
    have hy := hzd.rng (i := y.idx) (Or.inr (by simp [cids]))
    obtain ⟨s1, e1, z1, hr1, hf1, hy1⟩ := Z.relink hzd (by have := hb mr.root; omega) (by have := hb yr.root; omega)
    have hb1 : ∀ k, ht s1.rg k ≤ 66 := by
      intro k
      have g1 := hb mr.root
      have g2 := hb yr.root
      have g3 := hb k
      unfold ht
      unfold ht at g3
      split
      · omega
      · by_cases hk : k = y.idx
        · subst hk; rw [hy1]; omega
        · rw [hf1 k hk]; simp_all; omega
    have hmy : m.idx ≠ y.idx := fun hc' => hmci y.idx (by simp [cids]) hc'.symm
    have hxy : x.idx ≠ y.idx := fun hc' => hcix y.idx (by simp [cids]) hc'.symm
    obtain ⟨s2, e2, f1, f2, f3, f4, f5⟩ := setField_hb (kn := kn) (v := l.root) hb1 (by omega) false hm hl_le
      (show s1.rg m.idx 1 ≤ M by rw [hf1 _ hmy, hmr]; exact hmr_le)
    have hz2 := z1.xframe hmX f1 (fun k q hk => f3 k q (fun hc' => hk hc'.1)) (f4 _ z1.base (by simp))
    obtain ⟨s3, e3, k1, k2, k3, k4, k5⟩ := setField_hb (kn := kn) (v := r.root) f5 (by omega) true hm hr_le
      (show s2.rg m.idx 0 ≤ M by rw [show s2.rg m.idx 0 = _ from f2]; exact hl_le)
    have hz3 := hz2.xframe hmX k1 (fun k q hk => k3 k q (fun hc' => hk hc'.1)) (k4 _ hz2.base (by simp))
    obtain ⟨s', e', z'⟩ := tail s3 _ (by rw [k1, f1, hr1]) k5 hz3
      (by rw [k3 _ _ (by simp)]; exact f2) (fun hc' => by simp at hc')
      (fun _ => ⟨rfl, by
        rw [show s3.rg m.idx 1 = _ from k2, k3 _ _ (fun hc' => hmx hc'.1.symm), f3 _ _ (fun hc' => hmx hc'.1.symm),
          hf1 _ hxy, hx1]⟩)
    refine ⟨s', _, mr, m.idx, ?_, z', hcm', hamr, hsk⟩
    rw [if_neg (by simp)] at elm
    simp only [par] at elm
    rw [elm]
    simp only [except_bind_ok, LEFT, RIGHT]
    rw [if_pos (by simp [SENTINEL]; omega), getField_ok hm.2 (by decide), hmr]
    simp only [except_bind_ok]
    simp only [Bool.toNat_false, Bool.toNat_true] at e1 e2 e3
    rw [e1]
    simp only [except_bind_ok]
    rw [e2]
    simp only [except_bind_ok, ne_eq, hrm, not_false_iff, if_true, e3, hpop, except_pure]
    have e4 := congrArg (fun q : R (AVLTree K V M) => q >>= fun t =>
      (.ok (t, pathOf ((false, y, yr) :: ci ++ (true, m, l) :: c), m.idx) : R (AVLTree K V M × List Ancestor × Nat))) e'
    have hpath : (ipath ((false, y, yr) :: ci) m.idx ++ []).tail ++
        (some m.idx, some 1, r.root) :: (parOf c, dirOf c, m.idx) :: pathOf c =
        pathOf ((false, y, yr) :: ci ++ (true, m, l) :: c) := by
      rw [List.append_nil, List.cons_append, pathOf_cons, fp_append]
      have : top ci y.idx = r.root := by rw [er, root_plug]; rfl
      rw [this]; rfl
    rw [hpath]
    exact e4

/-- the case of at most one child -/
theorem Z.removeOne {d : Bool} {u : BT K V} (hb : ∀ k, ht s.rg k ≤ 65) (hz : Z s c x.idx (br d .nil x u) [] E) :
    ∃ s' path, s.removeOne (br d .nil x u).lchild.root (br d .nil x u).rchild.root (fp c x.idx) = .ok (s', path, u.root) ∧
      Z (if x.idx = s'.root then { s' with root := u.root } else s') c u.root u [x.ent] (lft c ++ u.ents ++ rgt c) ∧
      (path = pathOf c ∨ u ≠ .nil ∧ ∃ p q, path = (p, q, u.root) :: pathOf c) := by
  have hx := hz.idx_rng
  have hd := hz.dis
  have hzd := hz.detach
  have hchild : (if (br d .nil x u).lchild.root = SENTINEL ∧ (br d .nil x u).rchild.root = SENTINEL then SENTINEL
      else if (br d .nil x u).lchild.root ≠ SENTINEL then (br d .nil x u).lchild.root
      else (br d .nil x u).rchild.root) = u.root := by
    cases d
    · simp only [br_false, BT.lchild, BT.rchild, root_nil, SENTINEL, true_and, ne_eq, not_true_eq_false, if_false]
      split <;> simp_all
    · simp only [br_true, BT.lchild, BT.rchild, root_nil, SENTINEL, and_true, ne_eq]
      by_cases hu : u.root = 0 <;> simp [hu]
  unfold AVLTree.removeOne
  rw [hchild]
  have hpop : popPath (fp c x.idx) = .ok ((parOf c, dirOf c, x.idx), pathOf c) := rfl
  simp only [hpop, except_bind_ok]
  cases c with
  | nil =>
    refine ⟨s, pathOf [], rfl, ?_, Or.inl rfl⟩
    rw [if_pos (show x.idx = s.root from hz.cshape.symm)]
    exact ⟨hzd.shape, rfl, hzd.ents, hzd.base⟩
  | cons f c =>
    obtain ⟨d', y, b⟩ := f
    obtain ⟨s1, e1, z1, hr1, _⟩ := hzd.relink (by have := hb u.root; omega) (by have := hb b.root; omega)
    have hne : x.idx ≠ s1.root := by
      rw [hr1]; intro hc'
      exact hd.xc (hc' ▸ ACtx.root_mem hz.cshape (by simp))
    refine ⟨s1, if u.root ≠ SENTINEL then (some y.idx, some d'.toNat, u.root) :: pathOf ((d', y, b) :: c)
        else pathOf ((d', y, b) :: c), ?_, by rw [if_neg hne]; exact z1, ?_⟩
    · simp only [parOf, dirOf, unwrap, except_bind_ok, e1, except_pure]
    · by_cases hu : u = .nil
      · subst hu; left; simp [SENTINEL]
      · right
        refine ⟨hu, some y.idx, some d'.toNat, ?_⟩
        rw [if_pos (show u.root ≠ SENTINEL from fun hc' => hu (hzd.root_eq_zero.1 hc'))]

/-- removal of the node in focus -/
theorem Z.removeNode [kn.Low] {lim : Nat} (hM : M + 1 < 2 ^ 32) {T : BT K V} (hz0 : Z s [] T.root T [] E) (ha : AVL T)
    (hT : T = plug c (.node l x r)) (hlim : T.height ≤ lim) :
    ∃ s' t', s.removeNode x.idx (fp c x.idx) lim = .ok (s', some x.val) ∧
      Z (kn := kn.push x.idx) s' [] t'.root t' [] (lft c ++ (l.ents ++ r.ents) ++ rgt c) ∧ AVL t' ∧
      t'.sk = balUp c (Tree.join l.sk r.sk) := by
  have hb := hz0.hb hM ha
  subst hT
  have hz : Z s c x.idx (.node l x r) [] E := by
    have := Z.downs (c := []) hz0
    rwa [List.append_nil] at this
  obtain ⟨hc, hn⟩ := CAVL.downs (c := []) ha trivial
  rw [List.append_nil] at hc
  simp only [height] at hc
  obtain ⟨htag, h1, h2, hl, hr⟩ := hn
  have hx := hz.rng (i := x.idx) (Or.inl (by simp))
  have hval : s.getNode x.idx = .ok ⟨x.key, x.val⟩ := by
    refine getValue_ok _ (hz.base.vals x.ent ?_)
    rw [← hz.ents]; simp
  have hg0 : s.getField x.idx LEFT = .ok l.root := by
    rw [LEFT, getField_ok hx.2 (by decide), hz.shape.1]
  have hg1 : s.getField x.idx RIGHT = .ok r.root := by
    rw [RIGHT, getField_ok hx.2 (by decide), hz.shape.2.1]
  have hzl : Z s ((false, x, r) :: c) l.root l [] E := Z.down (d := false) hz
  have hzr : Z s ((true, x, l) :: c) r.root r [] E := Z.down (d := true) hz
  unfold AVLTree.removeNode
  simp only [hval, hg0, hg1, except_bind_ok]
  by_cases h2c : l ≠ .nil ∧ r ≠ .nil
  · rw [if_pos (show l.root ≠ SENTINEL ∧ r.root ≠ SENTINEL from
      ⟨fun hc' => h2c.1 (hzl.root_eq_zero.1 hc'), fun hc' => h2c.2 (hzr.root_eq_zero.1 hc')⟩)]
    obtain ⟨s1, C, mr, m, e1, z1, hC, hmr, hsk⟩ := hz.removeTwo (lim := lim) hb hr hl h2c.1 h2c.2 h1 h2 hc (by
      have := height_plug c (.node l x r)
      simp only [height] at this
      omega)
    obtain ⟨s2, e2, z2⟩ := z1.delete
    obtain ⟨s3, t', e3, z3, a3, k3⟩ := z2.rebalance hM hmr hC (by omega) (by omega)
    refine ⟨s3, t', ?_, z3, a3, k3.trans hsk⟩
    simp only [e1, except_bind_ok, e2, e3]; rfl
  · rw [if_neg (show ¬ (l.root ≠ SENTINEL ∧ r.root ≠ SENTINEL) from fun hc' => h2c
      ⟨by rintro rfl; exact hc'.1 rfl, by rintro rfl; exact hc'.2 rfl⟩)]
    -- one child at most
    have key : ∃ d u, (.node l x r : BT K V) = br d .nil x u ∧ AVL u ∧ u.height = max l.height r.height ∧
        u.ents = l.ents ++ r.ents ∧ Tree.join l.sk r.sk = u.sk := by
      by_cases hln : l = .nil
      · subst hln; exact ⟨false, r, rfl, hr, by simp [height], by simp, rfl⟩
      · have hrn : r = .nil := Classical.byContradiction fun hrn => h2c ⟨hln, hrn⟩
        subst hrn
        exact ⟨true, l, rfl, hl, by simp [height], by simp, join_leaf _⟩
    obtain ⟨d, u, e, hu, huh, hue, huj⟩ := key
    have hzb := hz
    rw [e] at hzb
    obtain ⟨s1, path, e1, z1, hp⟩ := hzb.removeOne hb
    rw [← e] at e1
    obtain ⟨s2, e2, z2⟩ := z1.delete
    rw [hue] at z2
    rcases hp with rfl | ⟨hun, p, q, rfl⟩
    · obtain ⟨s3, t', e3, z3, a3, k3⟩ := z2.rebalance hM hu hc (by omega) (by omega)
      refine ⟨s3, t', ?_, z3, a3, by rw [k3, huj]⟩
      simp only [BT.lchild, BT.rchild] at e1
      simp only [e1, except_bind_ok, e2, e3]; rfl
    · obtain ⟨s3, t', e3, z3, a3, k3⟩ := z2.rebalance_self (p := p) (q := q) hM hu hun hc (by omega) (by omega)
      refine ⟨s3, t', ?_, z3, a3, by rw [k3, huj]⟩
      simp only [BT.lchild, BT.rchild] at e1
      simp only [e1, except_bind_ok, e2, e3]; rfl

end AVLTree
end Sokoban
