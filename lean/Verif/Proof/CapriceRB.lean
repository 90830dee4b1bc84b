import Verif.Proof.CapriceBase
import Verif.Proof.RBAny

/-
The red-black tree when `Ord::cmp` of the keys panics or answers as it likes.
-/
namespace Sokoban
open BT Ctx NodeAllocator Ents MapSpec RedBlackSpec Caprice
variable {K V : Type}

namespace RedBlackTree
variable {M : Nat} {s : RedBlackTree K V M} {X E : List (Nat × K × V)}

/-- what a search may come to: a panic in the comparison, no entry, or an entry that was said to be equal -/
theorem rbSearchLoop_held (o : Cmp K) (k : K) : ∀ {t : BT K V} {c : Ctx K V} {fuel n : Nat}, Z s c t X E → t ≠ .nil →
    t.height ≤ fuel →
    rbSearchLoop o k fuel n t.root s = .error .user s ∨ rbSearchLoop o k fuel n t.root s = .ok 0 s ∨
    ∃ L1 i k' w L2, (∃ n, o n k k' = some .eq) ∧ E = L1 ++ (i, k', w) :: L2 ∧
      rbSearchLoop o k fuel n t.root s = .ok i s := by
  intro t
  induction t with
  | nil => intro c fuel n _ h; exact absurd rfl h
  | node l x r ihl ihr =>
    intro c fuel n h _ hf
    obtain ⟨fuel, rfl⟩ : ∃ f, fuel = f + 1 := ⟨fuel - 1, by simp [height] at hf; omega⟩
    have hl := Z.down (d := false) h
    have hr := Z.down (d := true) h
    have hE := h.ents
    simp only [height] at hf
    rw [root_node]
    unfold rbSearchLoop
    simp only [look_bind, h.getNode, ask_bind]
    cases hc : o n k x.key with
    | none => exact Or.inl rfl
    | some d =>
      cases d with
      | lt =>
        simp only [look_bind, h.getLeft]
        by_cases hln : l = .nil
        · subst hln; exact Or.inr (Or.inl rfl)
        · simp only [if_neg (show ¬ l.root = SENTINEL from fun hc => hln (hl.root_eq_zero.1 hc))]
          exact ihl hl hln (by omega)
      | gt =>
        simp only [look_bind, h.getRight]
        by_cases hrn : r = .nil
        · subst hrn; exact Or.inr (Or.inl rfl)
        · simp only [if_neg (show ¬ r.root = SENTINEL from fun hc => hrn (hr.root_eq_zero.1 hc))]
          exact ihr hr hrn (by omega)
      | eq =>
        refine Or.inr (Or.inr ⟨lft c ++ l.ents, x.idx, x.key, x.val, r.ents ++ rgt c, ⟨n, hc⟩, ?_, rfl⟩)
        rw [← hE]; simp [GN.ent]

theorem rbInsertLoop_held (hM : M + 1 < 2 ^ 32) (o : Cmp K) (k : K) (v : V) : ∀ {t : BT K V} {c : Ctx K V} {fuel n : Nat},
    Z s c t [] E → Good c t → t ≠ .nil → t.height ≤ fuel →
    rbInsertLoop o k v fuel n t.root s = .error .user s ∨
    (E.length = M ∧ rbInsertLoop o k v fuel n t.root s = .ok none s) ∨
    (E.length < M ∧ ∃ s' i L1 L2, E = L1 ++ L2 ∧ rbInsertLoop o k v fuel n t.root s = .ok (some i) s' ∧
      Held s' (L1 ++ (i, k, v) :: L2)) ∨
    ∃ s' L1 i k' w L2, (∃ n, o n k k' = some .eq) ∧ E = L1 ++ (i, k', w) :: L2 ∧
      rbInsertLoop o k v fuel n t.root s = .ok (some i) s' ∧ Held s' (L1 ++ (i, k', v) :: L2) := by
  intro t
  induction t with
  | nil => intro c fuel n _ _ h; exact absurd rfl h
  | node l x r ihl ihr =>
    intro c fuel n h hg _ hf
    obtain ⟨fuel, rfl⟩ : ∃ f, fuel = f + 1 := ⟨fuel - 1, by simp [height] at hf; omega⟩
    have hle := h.base.le
    have hsz := h.base.size
    rw [List.nil_append] at hle hsz
    have hE := h.ents
    simp only [height] at hf
    have fin : ∀ {d : Bool} {b : BT K V}, Z s ((d, x, b) :: c) .nil [] E → Good ((d, x, b) :: c) .nil →
        (E.length = M ∧ step (rbAttach k v x.idx d.toNat) s = .ok none s) ∨
        (E.length < M ∧ ∃ s' i L1 L2, E = L1 ++ L2 ∧ step (rbAttach k v x.idx d.toNat) s = .ok (some i) s' ∧
          Held s' (L1 ++ (i, k, v) :: L2)) := by
      intro d b hz hgn
      by_cases hfull : E.length = M
      · left
        refine ⟨hfull, ran_ok ?_⟩
        unfold rbAttach
        rw [if_pos (by simp only [len, capacity]; omega)]; rfl
      · right
        have hlim := hz.lim_ok
        simp only [List.length_cons, height] at hlim
        obtain ⟨s', t', i, e, hi, hz', ⟨hg', _⟩, _⟩ := attach_spec (lim := M + 2) hM hz hgn (show E.length < M by omega) k v (by omega)
        refine ⟨by omega, s', i, lft ((d, x, b) :: c), rgt ((d, x, b) :: c), ?_, ran_ok ?_, t', hz', hg'⟩
        · rw [← hz.ents]; simp
        · unfold rbAttach
          rw [if_neg (by simp only [len, capacity]; omega)]; exact e
    rw [root_node]
    unfold rbInsertLoop
    simp only [look_bind, h.getNode, ask_bind]
    cases hc : o n k x.key with
    | none => exact Or.inl rfl
    | some d =>
      cases d with
      | lt =>
        have hl := Z.down (d := false) h
        have hgl := Good.down (d := false) hg
        simp only [look_bind, h.getLeft]
        by_cases hln : l = .nil
        · subst hln
          rcases fin hl hgl with h1 | h1
          · exact Or.inr (Or.inl h1)
          · exact Or.inr (Or.inr (Or.inl h1))
        · simp only [if_neg (show ¬ l.root = SENTINEL from fun hc => hln (hl.root_eq_zero.1 hc))]
          exact ihl hl hgl hln (by omega)
      | gt =>
        have hr := Z.down (d := true) h
        have hgr := Good.down (d := true) hg
        simp only [look_bind, h.getRight]
        by_cases hrn : r = .nil
        · subst hrn
          rcases fin hr hgr with h1 | h1
          · exact Or.inr (Or.inl h1)
          · exact Or.inr (Or.inr (Or.inl h1))
        · simp only [if_neg (show ¬ r.root = SENTINEL from fun hc => hrn (hr.root_eq_zero.1 hc))]
          exact ihr hr hgr hrn (by omega)
      | eq =>
        have hE' : E = (lft c ++ l.ents) ++ (x.idx, x.key, x.val) :: (r.ents ++ rgt c) := by
          rw [← hE]; simp [GN.ent]
        have hH : Held s E := ⟨_, h.unzip, hg.plug⟩
        rw [hE'] at hH
        obtain ⟨s', e, hz', _⟩ := hH.setVal v
        refine Or.inr (Or.inr (Or.inr ⟨s', _, x.idx, x.key, x.val, _, ⟨n, hc⟩, hE', ran_ok ?_, hz'⟩))
        rw [e]; rfl

theorem rbRemoveLoop_held (o : Cmp K) (k : K) : ∀ {t : BT K V} {c : Ctx K V} {fuel n : Nat},
    Z s c t [] E → Good c t → t ≠ .nil → t.height ≤ fuel →
    rbRemoveLoop o k fuel n t.root s = .error .user s ∨ rbRemoveLoop o k fuel n t.root s = .ok none s ∨
    ∃ s' L1 i k' w L2, (∃ n, o n k k' = some .eq) ∧ E = L1 ++ (i, k', w) :: L2 ∧
      rbRemoveLoop o k fuel n t.root s = .ok (some w) s' ∧ Held s' (L1 ++ L2) := by
  intro t
  induction t with
  | nil => intro c fuel n _ _ h; exact absurd rfl h
  | node l x r ihl ihr =>
    intro c fuel n h hg _ hf
    obtain ⟨fuel, rfl⟩ : ∃ f, fuel = f + 1 := ⟨fuel - 1, by simp [height] at hf; omega⟩
    have hE := h.ents
    have hlim := h.lim_ok
    simp only [height] at hf
    rw [root_node]
    unfold rbRemoveLoop
    simp only [look_bind, h.getNode, ask_bind]
    cases hc : o n k x.key with
    | none => exact Or.inl rfl
    | some d =>
      cases d with
      | lt =>
        have hl := Z.down (d := false) h
        have hgl := Good.down (d := false) hg
        simp only [look_bind, h.getLeft]
        by_cases hln : l = .nil
        · subst hln; exact Or.inr (Or.inl rfl)
        · simp only [if_neg (show ¬ l.root = SENTINEL from fun hc => hln (hl.root_eq_zero.1 hc))]
          exact ihl hl hgl hln (by omega)
      | gt =>
        have hr := Z.down (d := true) h
        have hgr := Good.down (d := true) hg
        simp only [look_bind, h.getRight]
        by_cases hrn : r = .nil
        · subst hrn; exact Or.inr (Or.inl rfl)
        · simp only [if_neg (show ¬ r.root = SENTINEL from fun hc => hrn (hr.root_eq_zero.1 hc))]
          exact ihr hr hgr hrn (by omega)
      | eq =>
        obtain ⟨s', t', e, hz', hg', _⟩ := removeTreeNode_spec (lim := M + 2) h hg (by omega)
        refine Or.inr (Or.inr ⟨s', lft c ++ l.ents, x.idx, x.key, x.val, r.ents ++ rgt c, ⟨n, hc⟩, ?_, ran_ok ?_, t',
          by simpa using hz', hg'⟩)
        · rw [← hE]; simp [GN.ent]
        · rw [e]; rfl

/-- one call -/
theorem rbCall_held (hM : M + 1 < 2 ^ 32) (hM0 : 0 < M) (s : RedBlackTree K V M) (E : Ents K V) (c : TOp K V × Cmp K)
    (h : Held s E) : ∃ s' r E', rbCall s c = .ok (s', r) ∧ Held s' E' ∧
      RbStep M (E.map Prod.snd) c r (E'.map Prod.snd) := by
  obtain ⟨op, o⟩ := c
  have quit : rbDo o op s = .error .user s → ∃ s' r E', rbCall s (op, o) = .ok (s', r) ∧ Held s' E' ∧
      RbStep M (E.map Prod.snd) (op, o) r (E'.map Prod.snd) := by
    intro e
    refine ⟨s, none, E, ?_, h, rfl⟩
    simp only [rbCall, caught, e]
  have done : ∀ {s' r E'}, rbDo o op s = .ok r s' → Held s' E' →
      AnyOrder.TStep (fun k k' => ∃ n, o n k k' = some .eq) M (E.map Prod.snd) op r (E'.map Prod.snd) →
      ∃ s' r E', rbCall s (op, o) = .ok (s', r) ∧ Held s' E' ∧
      RbStep M (E.map Prod.snd) (op, o) r (E'.map Prod.snd) := by
    intro s' r E' e h' hs
    refine ⟨s', some r, E', ?_, h', hs⟩
    simp only [rbCall, caught, e]
  obtain ⟨t, hz, hg, hE, hroot, hnil, hr0, hh, _⟩ := h.tree
  match op with
  | .map (.insert k v) =>
    have hI : rbInsert o k v s = .error .user s ∨ (E.length = M ∧ rbInsert o k v s = .ok none s) ∨
        (E.length < M ∧ ∃ s' i L1 L2, E = L1 ++ L2 ∧ rbInsert o k v s = .ok (some i) s' ∧
          Held s' (L1 ++ (i, k, v) :: L2)) ∨
        ∃ s' L1 i k' w L2, (∃ n, o n k k' = some .eq) ∧ E = L1 ++ (i, k', w) :: L2 ∧
          rbInsert o k v s = .ok (some i) s' ∧ Held s' (L1 ++ (i, k', v) :: L2) := by
      unfold rbInsert
      rw [get_bind]
      by_cases hne : E = []
      · rw [if_pos (show s.root = SENTINEL from hr0.2 hne)]
        subst hne
        obtain ⟨a', i, e, hi, hi1, hi2, hb', hzr, hfr⟩ := h.base.add hM (by simpa using hM0) k v
        refine Or.inr (Or.inr (Or.inl ⟨hM0, ⟨i, a'⟩, i, [], [], rfl, ran_ok ?_,
          .node .nil ⟨i, 0, k, v⟩ .nil, ?_, ?_⟩))
        · simp only [e, except_bind_ok]; rfl
        · exact ⟨⟨hzr 0 (by omega), hzr 1 (by omega), hzr 2 (by omega), hzr 3 (by omega), trivial, trivial⟩, rfl,
            by simp [lft, rgt, GN.ent], by simpa using hb'⟩
        · exact ⟨1, Or.inr ⟨rfl, 0, rfl, rfl, rfl⟩, trivial, by simp [ctag], by simp⟩
      · rw [if_neg (show ¬ s.root = SENTINEL from fun hc => hne (hr0.1 hc)), hroot]
        exact rbInsertLoop_held hM o k v hz hg (fun hc => hne (hnil.1 hc)) (by omega)
    rcases hI with e | ⟨hl, e⟩ | ⟨hl, s', i, L1, L2, rfl, e, h'⟩ | ⟨s', L1, i, k', w, L2, hk, rfl, e, h'⟩
    · exact quit (by simp only [rbDo, bind_at, e])
    · refine done (r := .map (.inserted false)) (by simp only [rbDo, bind_at, e]; rfl) h (Or.inr (Or.inr ⟨by simpa using hl, rfl, rfl⟩))
    · refine done (r := .map (.inserted true)) (by simp only [rbDo, bind_at, e]; rfl) h' (Or.inr (Or.inl ⟨by simpa using hl, L1.map Prod.snd,
        L2.map Prod.snd, by simp, by simp, rfl⟩))
    · refine done (r := .map (.inserted true)) (by simp only [rbDo, bind_at, e]; rfl) h' (Or.inl ⟨L1.map Prod.snd, k', w, L2.map Prod.snd, hk,
        by simp, by simp, rfl⟩)
  | .map (.remove k) =>
    have hR : rbRemove o k s = .error .user s ∨ rbRemove o k s = .ok none s ∨
        ∃ s' L1 i k' w L2, (∃ n, o n k k' = some .eq) ∧ E = L1 ++ (i, k', w) :: L2 ∧
          rbRemove o k s = .ok (some w) s' ∧ Held s' (L1 ++ L2) := by
      unfold rbRemove
      rw [get_bind]
      by_cases hne : E = []
      · rw [if_pos (show s.root = SENTINEL from hr0.2 hne)]
        exact Or.inr (Or.inl rfl)
      · rw [if_neg (show ¬ s.root = SENTINEL from fun hc => hne (hr0.1 hc)), hroot]
        exact rbRemoveLoop_held o k hz hg (fun hc => hne (hnil.1 hc)) (by omega)
    rcases hR with e | e | ⟨s', L1, i, k', w, L2, hk, rfl, e, h'⟩
    · exact quit (by simp only [rbDo, bind_at, e])
    · exact done (r := .map (.removed none)) (by simp only [rbDo, bind_at, e]; rfl) h (Or.inr ⟨rfl, rfl⟩)
    · exact done (r := .map (.removed (some w))) (by simp only [rbDo, bind_at, e]; rfl) h' (Or.inl ⟨L1.map Prod.snd, k', w, L2.map Prod.snd, hk,
        by simp, by simp, rfl⟩)
  | .map (.getMut k f) =>
    have hS : rbGetAddr o k s = .error .user s ∨ rbGetAddr o k s = .ok 0 s ∨
        ∃ L1 i k' w L2, (∃ n, o n k k' = some .eq) ∧ E = L1 ++ (i, k', w) :: L2 ∧ rbGetAddr o k s = .ok i s := by
      unfold rbGetAddr
      rw [get_bind]
      by_cases hne : E = []
      · rw [if_pos (show s.root = SENTINEL from hr0.2 hne)]
        exact Or.inr (Or.inl rfl)
      · rw [if_neg (show ¬ s.root = SENTINEL from fun hc => hne (hr0.1 hc)), hroot]
        exact rbSearchLoop_held o k hz (fun hc => hne (hnil.1 hc)) hh
    rcases hS with e | e | ⟨L1, i, k', w, L2, hk, rfl, e⟩
    · exact quit (by simp only [rbDo, rbGetMut, bind_at, e])
    · exact done (r := .map (.got none)) (by simp only [rbDo, rbGetMut, bind_at, e]; rfl) h (Or.inr ⟨rfl, rfl⟩)
    · have hm : (i, k', w) ∈ L1 ++ (i, k', w) :: L2 := by simp
      have hr := h.base.range (i := i) (List.mem_map_of_mem (f := Prod.fst) hm)
      obtain ⟨s', e', h', _⟩ := h.setVal (f w)
      have e2 : rbGetMut o k f s = .ok (some w) s' := by
        unfold rbGetMut
        rw [bind_at, e]
        simp only [if_neg (show ¬ i = SENTINEL by simp [SENTINEL]; omega)]
        refine ran_ok ?_
        rw [getNode_ok h.base hm, except_bind_ok, e']; rfl
      exact done (r := .map (.got (some w))) (by simp only [rbDo, bind_at, e2]; rfl) h' (Or.inl ⟨L1.map Prod.snd, k', w, L2.map Prod.snd, hk,
        by simp, by simp, rfl⟩)
  | .map (.iterMut es) =>
    let _ : Ord K := ⟨fun _ _ => .eq⟩
    obtain ⟨s', r, E', e, h', hs⟩ := call_any hM hM0 s E (.map (.iterMut es)) h
    cases r with
    | map r => exact done (r := .map r) (ran_ok (f := fun t => call t (.map (.iterMut es))) e) h' hs
    | root r => exact hs.elim
  | .removeRoot =>
    let _ : Ord K := ⟨fun _ _ => .eq⟩
    obtain ⟨s', r, E', e, h', hs⟩ := call_any hM hM0 s E .removeRoot h
    exact done (r := r) (ran_ok (f := fun t => call t .removeRoot) e) h' (by cases r with | map r => exact hs.elim | root r => cases r <;> exact hs)

theorem rbRun_held (hM : M + 1 < 2 ^ 32) (hM0 : 0 < M) (z : RBNode K V) (cs : List (TOp K V × Cmp K)) :
    ∃ s rs E, run rbCall (new z : RedBlackTree K V M) cs = .ok (s, rs) ∧ Held s E ∧
      Trace (RbStep M) [] cs rs (E.map Prod.snd) := by
  obtain ⟨s, os, E, e, h, ht⟩ := run_seq (rbCall_held hM hM0) cs (new z) [] (Held.new z)
  exact ⟨s, os, E, e, h, ht⟩

end RedBlackTree
end Sokoban
