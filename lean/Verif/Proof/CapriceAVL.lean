import Verif.Proof.CapriceBase
import Verif.Proof.AVLAny

/-
The AVL tree when `<` and `>` of the keys panic or answer as they like.
-/
namespace Sokoban
open BT Ctx NodeAllocator Ents MapSpec AVLSpec Caprice
variable {K V : Type}

namespace AVLTree
variable {M : Nat} {s : AVLTree K V M} {T : BT K V} {X E : List (Nat × K × V)}

/-- the key was said to be neither less nor greater -/
abbrev Told (lt gt : Nat → K → K → Option Bool) (k k' : K) : Prop := ∃ n, lt n k k' = some false ∧ gt n k k' = some false

variable {lt gt : Nat → K → K → Option Bool}

theorem avlSearchLoop_held (k : K) : ∀ {t : BT K V} {c : Ctx K V} {fuel n : Nat}, Z s c t.root t X E → t ≠ .nil →
    t.height ≤ fuel →
    avlSearchLoop lt gt k fuel n t.root s = .error .user s ∨ avlSearchLoop lt gt k fuel n t.root s = .ok 0 s ∨
    ∃ L1 i k' w L2, Told lt gt k k' ∧ E = L1 ++ (i, k', w) :: L2 ∧ avlSearchLoop lt gt k fuel n t.root s = .ok i s := by
  intro t
  induction t with
  | nil => intro c fuel n _ h; exact absurd rfl h
  | node l x r ihl ihr =>
    intro c fuel n h _ hf
    obtain ⟨fuel, rfl⟩ : ∃ f, fuel = f + 1 := ⟨fuel - 1, by simp [height] at hf; omega⟩
    have hl : Z s ((false, x, r) :: c) l.root l X E := Z.down (d := false) h
    have hr : Z s ((true, x, l) :: c) r.root r X E := Z.down (d := true) h
    have hE := h.ents
    simp only [height] at hf
    rw [root_node]
    unfold avlSearchLoop
    simp only [look_bind, h.getNode, ask_bind]
    cases hc : lt n k x.key with
    | none => exact Or.inl rfl
    | some d =>
      cases d with
      | true =>
        simp only [if_true, look_bind, h.getLeft]
        by_cases hln : l = .nil
        · subst hln; exact Or.inr (Or.inl rfl)
        · simp only [if_neg (show ¬ l.root = SENTINEL from fun hc => hln (hl.root_eq_zero.1 hc))]
          exact ihl hl hln (by omega)
      | false =>
        simp only [Bool.false_eq_true, if_false, ask_bind]
        cases hc2 : gt n k x.key with
        | none => exact Or.inl rfl
        | some d =>
          cases d with
          | true =>
            simp only [if_true, look_bind, h.getRight]
            by_cases hrn : r = .nil
            · subst hrn; exact Or.inr (Or.inl rfl)
            · simp only [if_neg (show ¬ r.root = SENTINEL from fun hc => hrn (hr.root_eq_zero.1 hc))]
              exact ihr hr hrn (by omega)
          | false =>
            refine Or.inr (Or.inr ⟨lft c ++ l.ents, x.idx, x.key, x.val, r.ents ++ rgt c, ⟨n, hc, hc2⟩, ?_, rfl⟩)
            rw [← hE]; simp [GN.ent]

theorem avlInsertLoop_held (hM : M + 1 < 2 ^ 32) (hz0 : Z s [] T.root T [] E) (haT : AVL T) (k : K) (v : V) :
    ∀ {t : BT K V} {c : Ctx K V} {fuel n : Nat}, T = plug c t → t ≠ .nil → t.height ≤ fuel →
    avlInsertLoop lt gt k v fuel n t.root (fp c t.root) s = .error .user s ∨
    (E.length = M ∧ avlInsertLoop lt gt k v fuel n t.root (fp c t.root) s = .ok none s) ∨
    (E.length < M ∧ ∃ s' i L1 L2, E = L1 ++ L2 ∧
      avlInsertLoop lt gt k v fuel n t.root (fp c t.root) s = .ok (some i) s' ∧ Held s' (L1 ++ (i, k, v) :: L2)) ∨
    ∃ s' L1 i k' w L2, Told lt gt k k' ∧ E = L1 ++ (i, k', w) :: L2 ∧
      avlInsertLoop lt gt k v fuel n t.root (fp c t.root) s = .ok (some i) s' ∧ Held s' (L1 ++ (i, k', v) :: L2) := by
  intro t
  induction t with
  | nil => intro c fuel n _ h; exact absurd rfl h
  | node l x r ihl ihr =>
    intro c fuel n hT _ hf
    have h := hz0.at hT
    rw [root_node] at h
    obtain ⟨fuel, rfl⟩ : ∃ f, fuel = f + 1 := ⟨fuel - 1, by simp [height] at hf; omega⟩
    have hle := h.base.le
    have hsz := h.base.size
    rw [List.nil_append] at hle hsz
    have hE := h.ents
    simp only [height] at hf
    have fin : ∀ {d : Bool} {b : BT K V}, T = plug ((d, x, b) :: c) .nil →
        (E.length = M ∧ step (avlAttach k v x.idx d.toNat (fp c x.idx)) s = .ok none s) ∨
        (E.length < M ∧ ∃ s' i L1 L2, E = L1 ++ L2 ∧
          step (avlAttach k v x.idx d.toNat (fp c x.idx)) s = .ok (some i) s' ∧ Held s' (L1 ++ (i, k, v) :: L2)) := by
      intro d b hT'
      by_cases hfull : E.length = M
      · left
        refine ⟨hfull, ran_ok ?_⟩
        unfold avlAttach
        rw [if_pos (by simp only [len, capacity]; omega)]; rfl
      · right
        obtain ⟨s', t', i, e, hi, hz', ⟨hg', hk'⟩, _⟩ := attach_spec hM hz0 haT hT' (show E.length < M by omega) k v
        refine ⟨by omega, s', i, lft ((d, x, b) :: c), rgt ((d, x, b) :: c), ?_, ran_ok ?_, t', hz', hg'⟩
        · rw [← (hz0.at hT').ents]; simp
        · unfold avlAttach
          rw [if_neg (by simp only [len, capacity]; omega)]; exact e
    rw [root_node]
    unfold avlInsertLoop
    simp only [look_bind, h.getNode, ask_bind]
    cases hc : lt n k x.key with
    | none => exact Or.inl rfl
    | some d =>
      cases d with
      | true =>
        simp only [if_true, look_bind, h.getLeft]
        have hTl : T = plug ((false, x, r) :: c) l := hT
        by_cases hln : l = .nil
        · subst hln
          rcases fin hTl with h1 | h1
          · exact Or.inr (Or.inl h1)
          · exact Or.inr (Or.inr (Or.inl h1))
        · simp only [if_neg (show ¬ l.root = SENTINEL from fun hc => hln ((hz0.at hTl).root_eq_zero.1 hc))]
          exact ihl hTl hln (by omega)
      | false =>
        simp only [Bool.false_eq_true, if_false, ask_bind]
        cases hc2 : gt n k x.key with
        | none => exact Or.inl rfl
        | some d =>
          cases d with
          | true =>
            simp only [if_true, look_bind, h.getRight]
            have hTr : T = plug ((true, x, l) :: c) r := hT
            by_cases hrn : r = .nil
            · subst hrn
              rcases fin hTr with h1 | h1
              · exact Or.inr (Or.inl h1)
              · exact Or.inr (Or.inr (Or.inl h1))
            · simp only [if_neg (show ¬ r.root = SENTINEL from fun hc => hrn ((hz0.at hTr).root_eq_zero.1 hc))]
              exact ihr hTr hrn (by omega)
          | false =>
            have hE' : E = (lft c ++ l.ents) ++ (x.idx, x.key, x.val) :: (r.ents ++ rgt c) := by
              rw [← hE]; simp [GN.ent]
            have hH : Held s E := ⟨_, hz0, haT⟩
            rw [hE'] at hH
            obtain ⟨s', e, hz', _⟩ := hH.setVal v
            simp only [Bool.false_eq_true, if_false]
            refine Or.inr (Or.inr (Or.inr ⟨s', _, x.idx, x.key, x.val, _, ⟨n, hc, hc2⟩, hE', ran_ok ?_, hz'⟩))
            rw [e]; rfl

theorem avlRemovePath_held (hz0 : Z s [] T.root T [] E) (k : K) : ∀ {t : BT K V} {c : Ctx K V} {fuel n : Nat},
    T = plug c t → t.height < fuel →
    avlRemovePath lt gt k fuel n t.root (fp c t.root) s = .error .user s ∨
    (∃ path, avlRemovePath lt gt k fuel n t.root (fp c t.root) s = .ok (0, path) s) ∨
    ∃ l x r c', T = plug c' (.node l x r) ∧ Told lt gt k x.key ∧
      avlRemovePath lt gt k fuel n t.root (fp c t.root) s = .ok (x.idx, fp c' x.idx) s := by
  intro t
  induction t with
  | nil =>
    intro c fuel n hT hf
    obtain ⟨fuel, rfl⟩ : ∃ f, fuel = f + 1 := ⟨fuel - 1, by simp [height] at hf; omega⟩
    exact Or.inr (Or.inl ⟨_, rfl⟩)
  | node l x r ihl ihr =>
    intro c fuel n hT hf
    have h := hz0.at hT
    obtain ⟨fuel, rfl⟩ : ∃ f, fuel = f + 1 := ⟨fuel - 1, by simp [height] at hf; omega⟩
    have hxr := h.rng (i := x.idx) (Or.inl (by simp))
    have hx0 : ¬ x.idx = SENTINEL := by simp only [SENTINEL]; omega
    simp only [height] at hf
    rw [root_node]
    unfold avlRemovePath
    simp only [if_neg hx0, look_bind, h.getNode, ask_bind]
    cases hc : lt n k x.key with
    | none => exact Or.inl rfl
    | some d =>
      cases d with
      | true =>
        simp only [if_true, look_bind, h.getLeft]
        exact ihl (show T = plug ((false, x, r) :: c) l from hT) (by omega)
      | false =>
        simp only [Bool.false_eq_true, if_false, ask_bind]
        cases hc2 : gt n k x.key with
        | none => exact Or.inl rfl
        | some d =>
          cases d with
          | true =>
            simp only [if_true, look_bind, h.getRight]
            exact ihr (show T = plug ((true, x, l) :: c) r from hT) (by omega)
          | false => exact Or.inr (Or.inr ⟨l, x, r, c, hT, ⟨n, hc, hc2⟩, rfl⟩)

/-- one call -/
theorem avlCall_held (hM : M + 1 < 2 ^ 32) (hM0 : 0 < M) (s : AVLTree K V M) (E : Ents K V) (c : Op K V × Less K)
    (h : Held s E) : ∃ s' r E', avlCall s c = .ok (s', r) ∧ Held s' E' ∧
      AvlStep M (E.map Prod.snd) c r (E'.map Prod.snd) := by
  obtain ⟨op, o⟩ := c
  have quit : avlDo o op s = .error .user s → ∃ s' r E', avlCall s (op, o) = .ok (s', r) ∧ Held s' E' ∧
      AvlStep M (E.map Prod.snd) (op, o) r (E'.map Prod.snd) := by
    intro e
    refine ⟨s, none, E, ?_, h, rfl⟩
    simp only [avlCall, caught, e]
  have done : ∀ {s' r E'}, avlDo o op s = .ok r s' → Held s' E' →
      AnyOrder.Step (Told o.lt o.gt) M (E.map Prod.snd) op r (E'.map Prod.snd) →
      ∃ s' r E', avlCall s (op, o) = .ok (s', r) ∧ Held s' E' ∧
      AvlStep M (E.map Prod.snd) (op, o) r (E'.map Prod.snd) := by
    intro s' r E' e h' hs
    refine ⟨s', some r, E', ?_, h', hs⟩
    simp only [avlCall, caught, e]
  obtain ⟨t, hz, hg, hE, hroot, hnil, hr0, hh, _⟩ := h.tree
  match op with
  | .insert k v =>
    have hI : avlInsert o.lt o.gt k v s = .error .user s ∨ (E.length = M ∧ avlInsert o.lt o.gt k v s = .ok none s) ∨
        (E.length < M ∧ ∃ s' i L1 L2, E = L1 ++ L2 ∧ avlInsert o.lt o.gt k v s = .ok (some i) s' ∧
          Held s' (L1 ++ (i, k, v) :: L2)) ∨
        ∃ s' L1 i k' w L2, Told o.lt o.gt k k' ∧ E = L1 ++ (i, k', w) :: L2 ∧
          avlInsert o.lt o.gt k v s = .ok (some i) s' ∧ Held s' (L1 ++ (i, k', v) :: L2) := by
      unfold avlInsert
      rw [get_bind]
      by_cases hne : E = []
      · rw [if_pos (show s.root = SENTINEL from hr0.2 hne)]
        subst hne
        obtain ⟨a', i, e, hi, hi1, hi2, hb', hzr, hfr⟩ := h.base.add hM (by simpa using hM0) k v
        refine Or.inr (Or.inr (Or.inl ⟨hM0, ⟨i, a'⟩, i, [], [], rfl, ran_ok ?_,
          .node .nil ⟨i, 0, k, v⟩ .nil, ?_, ?_⟩))
        · simp only [e, except_bind_ok]; rfl
        · exact ⟨⟨hzr 0 (by omega), hzr 1 (by omega), hzr 2 (by omega), trivial, trivial⟩, rfl,
            by simp [lft, rgt, GN.ent], by simpa using hb'⟩
        · exact ⟨rfl, by simp [height], by simp [height], trivial, trivial⟩
      · rw [if_neg (show ¬ s.root = SENTINEL from fun hc => hne (hr0.1 hc)), hroot]
        exact avlInsertLoop_held hM hz hg k v (c := []) rfl (fun hc => hne (hnil.1 hc)) hh
    rcases hI with e | ⟨hl, e⟩ | ⟨hl, s', i, L1, L2, rfl, e, h'⟩ | ⟨s', L1, i, k', w, L2, hk, rfl, e, h'⟩
    · exact quit (by simp only [avlDo, bind_at, e])
    · exact done (r := .inserted false) (by simp only [avlDo, bind_at, e]; rfl) h
        (Or.inr (Or.inr ⟨by simpa using hl, rfl, rfl⟩))
    · exact done (r := .inserted true) (by simp only [avlDo, bind_at, e]; rfl) h' (Or.inr (Or.inl ⟨by simpa using hl,
        L1.map Prod.snd, L2.map Prod.snd, by simp, by simp, rfl⟩))
    · exact done (r := .inserted true) (by simp only [avlDo, bind_at, e]; rfl) h' (Or.inl ⟨L1.map Prod.snd, k', w,
        L2.map Prod.snd, hk, by simp, by simp, rfl⟩)
  | .remove k =>
    by_cases hne : E = []
    · have e : avlRemove o.lt o.gt k s = .ok none s := by
        unfold avlRemove
        rw [get_bind, if_pos (show s.root = SENTINEL from hr0.2 hne)]; rfl
      exact done (r := .removed none) (by simp only [avlDo, bind_at, e]; rfl) h (Or.inr ⟨rfl, rfl⟩)
    · have e0 : avlRemove o.lt o.gt k s = (do
          let p ← avlRemovePath o.lt o.gt k (M + 2) 0 t.root [(none, none, t.root)]
          if p.1 = SENTINEL then pure none else step fun t => t.removeNode p.1 p.2) s := by
        unfold avlRemove
        rw [get_bind, if_neg (show ¬ s.root = SENTINEL from fun hc => hne (hr0.1 hc)), hroot]
      rw [bind_at] at e0
      rcases avlRemovePath_held (lt := o.lt) (gt := o.gt) hz k (t := t) (c := []) (fuel := M + 2) (n := 0) rfl
        (by omega) with e | ⟨path, e⟩ | ⟨l, x, r, c', hp, hk, e⟩
      · have e : avlRemovePath o.lt o.gt k (M + 2) 0 t.root [(none, none, t.root)] s = _ := e
        rw [e] at e0
        exact quit (by simp only [avlDo, bind_at, e0])
      · have e : avlRemovePath o.lt o.gt k (M + 2) 0 t.root [(none, none, t.root)] s = _ := e
        rw [e] at e0
        have e0 : avlRemove o.lt o.gt k s = .ok none s := e0
        exact done (r := .removed none) (by simp only [avlDo, bind_at, e0]; rfl) h (Or.inr ⟨rfl, rfl⟩)
      · have e : avlRemovePath o.lt o.gt k (M + 2) 0 t.root [(none, none, t.root)] s = _ := e
        rw [e] at e0
        obtain ⟨s', t', e', hz', hg', _⟩ := hz.removeNode (lim := M + 1) hM hg hp hh
        have hx := hz.at hp |>.rng (i := x.idx) (Or.inl (by simp))
        simp only [if_neg (show ¬ x.idx = SENTINEL by simp only [SENTINEL]; omega)] at e0
        rw [ran_ok e'] at e0
        have hE2 : E = (lft c' ++ l.ents) ++ (x.idx, x.key, x.val) :: (r.ents ++ rgt c') := by
          rw [← hE, hp, ents_plug]; simp [GN.ent]
        refine done (r := .removed (some x.val)) (by simp only [avlDo, bind_at, e0]; rfl) ⟨t', by simpa using hz', hg'⟩
          (Or.inl ⟨(lft c' ++ l.ents).map Prod.snd, x.key, x.val, (r.ents ++ rgt c').map Prod.snd, hk, ?_, ?_, rfl⟩)
        · rw [hE2]; simp
        · simp
  | .getMut k f =>
    by_cases hne : E = []
    · have e : avlGetMut o.lt o.gt k f s = .ok none s := by
        unfold avlGetMut
        rw [get_bind, if_pos (show s.root = SENTINEL from hr0.2 hne)]; rfl
      exact done (r := .got none) (by simp only [avlDo, bind_at, e]; rfl) h (Or.inr ⟨rfl, rfl⟩)
    · have e0 : avlGetMut o.lt o.gt k f s = (do
          let i ← avlSearchLoop o.lt o.gt k (M + 1) 0 t.root
          if i = SENTINEL then pure none
          else step fun t => do
            let n ← t.getNode i
            return (← t.setNodeValue i (f n.value), some n.value)) s := by
        unfold avlGetMut
        rw [get_bind, if_neg (show ¬ s.root = SENTINEL from fun hc => hne (hr0.1 hc)), hroot]
      rw [bind_at] at e0
      rcases avlSearchLoop_held (lt := o.lt) (gt := o.gt) k (n := 0) hz (fun hc => hne (hnil.1 hc)) hh with
        e | e | ⟨L1, i, k', w, L2, hk, rfl, e⟩
      · rw [e] at e0
        exact quit (by simp only [avlDo, bind_at, e0])
      · rw [e] at e0
        have e0 : avlGetMut o.lt o.gt k f s = .ok none s := e0
        exact done (r := .got none) (by simp only [avlDo, bind_at, e0]; rfl) h (Or.inr ⟨rfl, rfl⟩)
      · rw [e] at e0
        have hm : (i, k', w) ∈ L1 ++ (i, k', w) :: L2 := by simp
        have hr := h.base.range (i := i) (List.mem_map_of_mem (f := Prod.fst) hm)
        obtain ⟨s', e', h', _⟩ := h.setVal (f w)
        simp only [if_neg (show ¬ i = SENTINEL by simp [SENTINEL]; omega)] at e0
        rw [ran_ok (s' := s') (x := some w) (by rw [getNode_ok h.base hm, except_bind_ok, e']; rfl)] at e0
        exact done (r := .got (some w)) (by simp only [avlDo, bind_at, e0]; rfl) h' (Or.inl ⟨L1.map Prod.snd, k', w,
          L2.map Prod.snd, hk, by simp, by simp, rfl⟩)
  | .iterMut es =>
    let _ : LT K := ⟨fun _ _ => False⟩
    let _ : DecidableLT K := fun _ _ => .isFalse id
    obtain ⟨s', r, E', e, h', hs⟩ := (loose hM hM0).call_spec s E (.iterMut es) h
    exact done (r := r) (ran_ok (f := fun t => call t (.iterMut es)) e) h' hs

theorem avlRun_held (hM : M + 1 < 2 ^ 32) (hM0 : 0 < M) (z : AVLNode K V) (cs : List (Op K V × Less K)) :
    ∃ s rs E, run avlCall (new z : AVLTree K V M) cs = .ok (s, rs) ∧ Held s E ∧
      Trace (AvlStep M) [] cs rs (E.map Prod.snd) := by
  obtain ⟨s, os, E, e, h, ht⟩ := run_seq (avlCall_held hM hM0) cs (new z) [] (Held.new z)
  exact ⟨s, os, E, e, h, ht⟩

end AVLTree
end Sokoban
