import Verif.Spec.Deque
import Verif.Proof.Dll
import Verif.Proof.Run

namespace Sokoban.Deque
open NodeAllocator
variable {T : Type} {M : Nat}

/-- indices of a list of (index, value) pairs -/
abbrev ids (l : List (Nat × T)) : List Nat := l.map Prod.fst

/-- Representation: `l` lists (index, value) from front to back; the slots `L` are in use elsewhere. -/
structure DRepL (L : List Nat) (d : Deque T M) (l : List (Nat × T)) : Prop where
  inv : ∃ free, AInv d.allocator free (L ++ ids l)
  clean : Clean d.allocator (fun r => r < 2) (L ++ ids l)
  seg : DSeg d.allocator.reg 0 (ids l) 0
  vals : ∀ e ∈ l, d.allocator.val? e.1 = some e.2
  head : d.head = (ids l).headD 0
  tail : d.tail = (ids l).getLastD 0

/-- Representation when no other slots are in use. -/
abbrev DRep (d : Deque T M) (l : List (Nat × T)) : Prop := DRepL [] d l

/-- the slots `L` are as they were -/
def Keeps (L : List Nat) (d d' : Deque T M) : Prop :=
  ∀ k ∈ L, (∀ r, d'.allocator.reg k r = d.allocator.reg k r) ∧ d'.allocator.val? k = d.allocator.val? k

theorem Keeps.refl (L : List Nat) (d : Deque T M) : Keeps L d d := fun _ _ => ⟨fun _ => rfl, rfl⟩

theorem Keeps.trans {L : List Nat} {d d' d'' : Deque T M} (h : Keeps L d d') (h' : Keeps L d' d'') : Keeps L d d'' :=
  fun k hk => ⟨fun r => ((h' k hk).1 r).trans ((h k hk).1 r), (h' k hk).2.trans (h k hk).2⟩

namespace DRepL
variable {L : List Nat} {d : Deque T M} {l : List (Nat × T)}

theorem range (h : DRepL L d l) {i : Nat} (hi : i ∈ ids l) : 1 ≤ i ∧ i ≤ M := by
  obtain ⟨free, hf⟩ := h.inv
  exact hf.live_range (List.mem_append_right _ hi)

theorem nodup (h : DRepL L d l) : (ids l).Nodup := by
  obtain ⟨free, hf⟩ := h.inv
  exact (List.nodup_append.1 (List.nodup_append.1 hf.nodup).2.1).2.1

theorem disj (h : DRepL L d l) {i : Nat} (hi : i ∈ L) : i ∉ ids l := by
  obtain ⟨free, hf⟩ := h.inv
  exact fun hc => (List.nodup_append.1 (List.nodup_append.1 hf.nodup).2.1).2.2 i hi i hc rfl

theorem pos (h : DRepL L d l) {i : Nat} (hi : i ∈ L) : i ≠ 0 := by
  obtain ⟨free, hf⟩ := h.inv
  have := hf.live_range (List.mem_append_left _ hi)
  omega

theorem lenL (h : DRepL L d l) : d.len = L.length + l.length := by
  obtain ⟨free, hf⟩ := h.inv
  rw [Deque.len, hf.size]; simp

theorem leL (h : DRepL L d l) : L.length + l.length ≤ M := by
  obtain ⟨free, hf⟩ := h.inv
  simpa using hf.live_le

theorem len (h : DRep d l) : d.len = l.length := by rw [h.lenL]; simp

theorem le (h : DRep d l) : l.length ≤ M := by simpa using h.leL

theorem zero (h : DRepL L d l) : 0 ∉ ids l := fun h0 => by have := h.range h0; omega

theorem head_mem (h : DRepL L d l) (hl : l ≠ []) : d.head ∈ ids l := by
  rw [h.head]; cases l with
  | nil => exact absurd rfl hl
  | cons x l => simp

theorem tail_mem (h : DRepL L d l) (hl : l ≠ []) : d.tail ∈ ids l := by
  rw [h.tail]
  rcases List.eq_nil_or_concat l with rfl | ⟨m, x, rfl⟩
  · exact absurd rfl hl
  · simp

theorem head_zero (h : DRepL L d l) : d.head = 0 ↔ l = [] := by
  constructor
  · intro h0
    apply Classical.byContradiction
    intro hl
    have := h.range (h.head_mem hl)
    omega
  · rintro rfl; rw [h.head]; rfl

theorem tail_zero (h : DRepL L d l) : d.tail = 0 ↔ l = [] := by
  constructor
  · intro h0
    apply Classical.byContradiction
    intro hl
    have := h.range (h.tail_mem hl)
    omega
  · rintro rfl; rw [h.tail]; rfl

end DRepL

theorem new_DRep (z : T) : DRep (new z : Deque T M) [] where
  inv := ⟨[], new_AInv z⟩
  clean := new_Clean z _
  seg := trivial
  vals := by simp
  head := rfl
  tail := rfl

theorem and_of {P Q : Prop} (p : P) (q : P → Q) : P ∧ Q := ⟨p, q p⟩

theorem and_of' {P Q : Prop} (p : P) (q : Q) : P ∧ Q := ⟨p, q⟩

theorem bumpSeq_ok {d : Deque T M} (h : d.sequenceNumber + 1 < 2 ^ 64) :
    d.bumpSeq = .ok { d with sequenceNumber := d.sequenceNumber + 1 } := by
  unfold bumpSeq; rw [if_neg (by omega)]

theorem pushBack_freeL {L : List Nat} {d : Deque T M} {l : List (Nat × T)} (h : DRepL L d l) (hM : M + 1 < 2 ^ 32)
    (hs : d.sequenceNumber + 1 < 2 ^ 64) (hlt : L.length + l.length < M) (v : T) :
    ∃ d' i, d.pushBack v = .ok d' ∧ DRepL L d' (l ++ [(i, v)]) ∧
      d'.sequenceNumber = d.sequenceNumber + 1 ∧ Keeps L d d' ∧ ∀ F, AInv d.allocator F (L ++ ids l) →
        i = F.headD (L.length + l.length + 1) ∧ AInv d'.allocator F.tail (L ++ ids (l ++ [(i, v)])) := by
  obtain ⟨free, hf⟩ := h.inv
  obtain ⟨a, i, e, hi, hnL, h1, h2, hinv, hcl, hz, hr, hr0, hv⟩ :=
    addNode_clean hf h.clean hM (by omega) (by simpa using hlt) v
  have hnl : i ∉ ids l := fun hc => hnL (List.mem_append_right _ hc)
  have hperm : (i :: (L ++ ids l)).Perm (L ++ ids (l ++ [(i, v)])) := by
    simp only [ids, List.map_append, List.map_cons, List.map_nil, ← List.append_assoc]
    exact (List.perm_append_singleton i _).symm
  have htle : d.tail ≤ M := by
    by_cases hl : l = []
    · rw [h.tail_zero.2 hl]; omega
    · exact (h.range (h.tail_mem hl)).2
  let a' := if d.tail = 0 then a else (a.setReg i 0 d.tail).setReg d.tail 1 i
  let hd' := if d.head = 0 then i else d.head
  refine ⟨⟨d.sequenceNumber + 1, hd', i, a'⟩, i, ?_, ?_⟩
  · unfold pushBack
    simp only [e, except_bind_ok, SENTINEL, PREV, NEXT]
    by_cases ht : d.tail = 0
    · have hh : d.head = 0 := h.head_zero.2 (h.tail_zero.1 ht)
      simp only [hh, if_true, ht, ne_eq, not_true_eq_false, if_false, except_pure, except_bind_ok]
      rw [bumpSeq_ok (by simpa using hs)]
      simp [a', hd', ht, hh]
    · have hh : ¬ d.head = 0 := fun hc => ht (h.tail_zero.2 (h.head_zero.1 hc))
      simp only [hh, if_false, ht, ne_eq, not_false_eq_true, if_true]
      rw [connect_ok a h2 htle (by omega) (by omega)]
      simp only [except_bind_ok]
      rw [bumpSeq_ok (by simpa using hs)]
      simp [a', hd', ht, hh]
  · suffices hS : (AInv a' free.tail (L ++ ids (l ++ [(i, v)])) ∧ DRepL L (⟨d.sequenceNumber + 1, hd', i, a'⟩ : Deque T M) (l ++ [(i, v)])) ∧ (∀ k ∈ L, (∀ r, a'.reg k r = d.allocator.reg k r) ∧ a'.val? k = d.allocator.val? k) by
      refine ⟨hS.1.2, rfl, hS.2, fun F hF => ?_⟩
      obtain rfl := hF.free_unique hf
      refine ⟨?_, hS.1.1⟩
      have hb := hF.length_eq
      have hb1 := hF.bump_pos
      simp only [ids, List.length_append, List.length_map] at hb
      rw [hi]
      cases F with
      | nil => simp at hb ⊢; omega
      | cons x F => rfl
    refine and_of' ?_ (fun k hk => ?_)
    rotate_left
    · have hki : k ≠ i := fun hc => hnL (hc ▸ List.mem_append_left _ hk)
      have hkt : d.tail = 0 ∨ k ≠ d.tail := by
        by_cases hl : l = []
        · exact Or.inl (h.tail_zero.2 hl)
        · exact Or.inr fun hc => h.disj hk (hc ▸ h.tail_mem hl)
      constructor
      · intro r
        simp only [a']
        split
        · exact hr k r hki
        · rename_i hne
          rw [reg_setReg, if_neg (fun hc => (hkt.resolve_left hne) hc.1.1), reg_setReg, if_neg (fun hc => hki hc.1.1), hr k r hki]
      · simp only [a']
        split
        · rw [hv, if_neg hki]
        · rw [val?_setReg, val?_setReg, hv, if_neg hki]
    by_cases hl : l = []
    · subst hl
      have ht : d.tail = 0 := h.tail_zero.2 rfl
      have hh : d.head = 0 := h.head_zero.2 rfl
      have ha' : a' = a := by simp [a', ht]
      have hhd : hd' = i := by simp [hd', hh]
      refine and_of ?_ fun hA => ⟨⟨free.tail, hA⟩, ?_, ?_, ?_, ?_, ?_⟩
      · rw [ha']; exact hinv.perm hperm
      · rw [ha']; exact hcl.perm hperm
      · simp only [ha', List.nil_append, ids, List.map_cons, List.map_nil, DSeg, and_true]
        exact ⟨hz 0 (by omega), by simpa using hz 1 (by omega)⟩
      · simp [ha', hv]
      · simp [hhd]
      · simp
    · have ht : d.tail ≠ 0 := fun hc => hl (h.tail_zero.1 hc)
      have hh : d.head ≠ 0 := fun hc => hl (h.head_zero.1 hc)
      have htm := h.tail_mem hl
      have hti : d.tail ≠ i := by rintro he; exact hnl (he ▸ htm)
      have ha' : a' = (a.setReg i 0 d.tail).setReg d.tail 1 i := by simp [a', ht]
      have hhd : hd' = d.head := by simp [hd', hh]
      have hlive : i ∈ i :: (L ++ ids l) ∧ d.tail ∈ i :: (L ++ ids l) :=
        ⟨List.mem_cons_self, List.mem_cons_of_mem _ (List.mem_append_right _ htm)⟩
      have hreg : ∀ k r, a'.reg k r = if k = d.tail ∧ r = 1 then i else if k = i ∧ r = 0 then d.tail
          else a.reg k r := by
        intro k r
        rw [ha', reg_setReg, reg_setReg]
        have : 1 ≤ d.tail := by omega
        simp [h1, h2, this, htle]
      refine and_of ?_ fun hA => ⟨⟨free.tail, hA⟩, ?_, ?_, ?_, ?_, ?_⟩
      · rw [ha']
        exact ((hinv.setReg 0 _ (Or.inl hlive.1)).setReg 1 _ (Or.inl hlive.2)).perm hperm
      · rw [ha']
        exact ((hcl.setReg 0 _ (Or.inl hlive.1)).setReg 1 _ (Or.inl hlive.2)).perm hperm
      · simp only [ids, List.map_append, List.map_cons, List.map_nil]
        rw [DSeg.append_iff]
        have hlast : (List.map Prod.fst l).getLastD 0 = d.tail := h.tail.symm
        have hne : ∀ k ∈ ids l, k ≠ i := by rintro k hk rfl; exact hnl hk
        refine ⟨DSeg.set_next h.nodup h.seg ?_ ?_ ?_, ?_, ?_, trivial⟩
        · intro k hk
          rw [hreg, if_neg (by omega), if_neg (fun hc => hne k hk hc.1), hr k 0 (hne k hk)]
        · intro k hk hkl
          rw [hlast] at hkl
          rw [hreg, if_neg (fun hc => hkl hc.1), if_neg (by omega), hr k 1 (hne k hk)]
        · intro _; rw [hlast, hreg]; simp
        · rw [hreg, hlast, if_neg (by omega)]; simp
        · rw [hreg, if_neg (fun hc => hti hc.1.symm), if_neg (by omega)]; exact hz 1 (by omega)
      · intro e he
        simp only [List.mem_append, List.mem_singleton] at he
        rw [ha', val?_setReg, val?_setReg, hv]
        rcases he with he | rfl
        · have : e.1 ≠ i := by
            intro hc; apply hnl; rw [← hc]; exact List.mem_map_of_mem he
          simp [this, h.vals e he]
        · simp
      · simp only [hhd, h.head]
        cases l with
        | nil => exact absurd rfl hl
        | cons x l => rfl
      · simp

theorem pushBack_free {d : Deque T M} {l : List (Nat × T)} (h : DRep d l) (hM : M + 1 < 2 ^ 32)
    (hs : d.sequenceNumber + 1 < 2 ^ 64) (hlt : l.length < M) (v : T) :
    ∃ d' i, d.pushBack v = .ok d' ∧ DRep d' (l ++ [(i, v)]) ∧
      d'.sequenceNumber = d.sequenceNumber + 1 ∧ ∀ F, AInv d.allocator F (ids l) →
        i = F.headD (l.length + 1) ∧ AInv d'.allocator F.tail (ids (l ++ [(i, v)])) := by
  obtain ⟨d', i, e, h', hq, _, hF⟩ := pushBack_freeL h hM hs (by simpa using hlt) v
  exact ⟨d', i, e, h', hq, fun F hf => by simpa using hF F hf⟩

theorem pushBack_spec {d : Deque T M} {l : List (Nat × T)} (h : DRep d l) (hM : M + 1 < 2 ^ 32)
    (hs : d.sequenceNumber + 1 < 2 ^ 64) (hlt : l.length < M) (v : T) :
    ∃ d' i, d.pushBack v = .ok d' ∧ DRep d' (l ++ [(i, v)]) ∧
      d'.sequenceNumber = d.sequenceNumber + 1 := by
  obtain ⟨d', i, e, h', hq, _⟩ := pushBack_free h hM hs hlt v
  exact ⟨d', i, e, h', hq⟩

theorem pushFront_freeL {L : List Nat} {d : Deque T M} {l : List (Nat × T)} (h : DRepL L d l) (hM : M + 1 < 2 ^ 32)
    (hs : d.sequenceNumber + 1 < 2 ^ 64) (hlt : L.length + l.length < M) (v : T) :
    ∃ d' i, d.pushFront v = .ok d' ∧ DRepL L d' ((i, v) :: l) ∧
      d'.sequenceNumber = d.sequenceNumber + 1 ∧ Keeps L d d' ∧ ∀ F, AInv d.allocator F (L ++ ids l) →
        i = F.headD (L.length + l.length + 1) ∧ AInv d'.allocator F.tail (L ++ ids ((i, v) :: l)) := by
  obtain ⟨free, hf⟩ := h.inv
  obtain ⟨a, i, e, hi, hnL, h1, h2, hinv, hcl, hz, hr, hr0, hv⟩ :=
    addNode_clean hf h.clean hM (by omega) (by simpa using hlt) v
  have hnl : i ∉ ids l := fun hc => hnL (List.mem_append_right _ hc)
  have hperm : (i :: (L ++ ids l)).Perm (L ++ ids ((i, v) :: l)) := List.perm_middle.symm
  have htle : d.head ≤ M := by
    by_cases hl : l = []
    · rw [h.head_zero.2 hl]; omega
    · exact (h.range (h.head_mem hl)).2
  let a' := if d.head = 0 then a else (a.setReg i 1 d.head).setReg d.head 0 i
  let tl' := if d.tail = 0 then i else d.tail
  refine ⟨⟨d.sequenceNumber + 1, i, tl', a'⟩, i, ?_, ?_⟩
  · unfold pushFront
    simp only [e, except_bind_ok, SENTINEL, PREV, NEXT]
    by_cases ht : d.head = 0
    · have hh : d.tail = 0 := h.tail_zero.2 (h.head_zero.1 ht)
      simp only [hh, if_true, ht, ne_eq, not_true_eq_false, if_false, except_pure, except_bind_ok]
      rw [bumpSeq_ok (by simpa using hs)]
      simp [a', tl', ht, hh]
    · have hh : ¬ d.tail = 0 := fun hc => ht (h.head_zero.2 (h.tail_zero.1 hc))
      simp only [hh, if_false, ht, ne_eq, not_false_eq_true, if_true]
      rw [connect_ok a h2 htle (by omega) (by omega)]
      simp only [except_bind_ok]
      rw [bumpSeq_ok (by simpa using hs)]
      simp [a', tl', ht, hh]
  · suffices hS : (AInv a' free.tail (L ++ ids ((i, v) :: l)) ∧ DRepL L (⟨d.sequenceNumber + 1, i, tl', a'⟩ : Deque T M) ((i, v) :: l)) ∧ (∀ k ∈ L, (∀ r, a'.reg k r = d.allocator.reg k r) ∧ a'.val? k = d.allocator.val? k) by
      refine ⟨hS.1.2, rfl, hS.2, fun F hF => ?_⟩
      obtain rfl := hF.free_unique hf
      refine ⟨?_, hS.1.1⟩
      have hb := hF.length_eq
      have hb1 := hF.bump_pos
      simp only [ids, List.length_append, List.length_map] at hb
      rw [hi]
      cases F with
      | nil => simp at hb ⊢; omega
      | cons x F => rfl
    refine and_of' ?_ (fun k hk => ?_)
    rotate_left
    · have hki : k ≠ i := fun hc => hnL (hc ▸ List.mem_append_left _ hk)
      have hkt : d.head = 0 ∨ k ≠ d.head := by
        by_cases hl : l = []
        · exact Or.inl (h.head_zero.2 hl)
        · exact Or.inr fun hc => h.disj hk (hc ▸ h.head_mem hl)
      constructor
      · intro r
        simp only [a']
        split
        · exact hr k r hki
        · rename_i hne
          rw [reg_setReg, if_neg (fun hc => (hkt.resolve_left hne) hc.1.1), reg_setReg, if_neg (fun hc => hki hc.1.1), hr k r hki]
      · simp only [a']
        split
        · rw [hv, if_neg hki]
        · rw [val?_setReg, val?_setReg, hv, if_neg hki]
    by_cases hl : l = []
    · subst hl
      have ht : d.tail = 0 := h.tail_zero.2 rfl
      have hh : d.head = 0 := h.head_zero.2 rfl
      have ha' : a' = a := by simp [a', hh]
      have hhd : tl' = i := by simp [tl', ht]
      refine and_of ?_ fun hA => ⟨⟨free.tail, hA⟩, ?_, ?_, ?_, ?_, ?_⟩
      · rw [ha']; exact hinv.perm hperm
      · rw [ha']; exact hcl.perm hperm
      · simp only [ha', ids, List.map_cons, List.map_nil, DSeg, and_true]
        exact ⟨hz 0 (by omega), by simpa using hz 1 (by omega)⟩
      · simp [ha', hv]
      · simp
      · simp [hhd]
    · have ht : d.tail ≠ 0 := fun hc => hl (h.tail_zero.1 hc)
      have hh : d.head ≠ 0 := fun hc => hl (h.head_zero.1 hc)
      have htm := h.head_mem hl
      have hti : d.head ≠ i := by rintro he; exact hnl (he ▸ htm)
      have ha' : a' = (a.setReg i 1 d.head).setReg d.head 0 i := by simp [a', hh]
      have hhd : tl' = d.tail := by simp [tl', ht]
      have hlive : i ∈ i :: (L ++ ids l) ∧ d.head ∈ i :: (L ++ ids l) :=
        ⟨List.mem_cons_self, List.mem_cons_of_mem _ (List.mem_append_right _ htm)⟩
      have hreg : ∀ k r, a'.reg k r = if k = d.head ∧ r = 0 then i else if k = i ∧ r = 1 then d.head
          else a.reg k r := by
        intro k r
        rw [ha', reg_setReg, reg_setReg]
        have : 1 ≤ d.head := by omega
        simp [h1, h2, this, htle]
      refine and_of ?_ fun hA => ⟨⟨free.tail, hA⟩, ?_, ?_, ?_, ?_, ?_⟩
      · rw [ha']
        exact ((hinv.setReg 1 _ (Or.inl hlive.1)).setReg 0 _ (Or.inl hlive.2)).perm hperm
      · rw [ha']
        exact ((hcl.setReg 1 _ (Or.inl hlive.1)).setReg 0 _ (Or.inl hlive.2)).perm hperm
      · have hne : ∀ k ∈ ids l, k ≠ i := by rintro k hk rfl; exact hnl hk
        have hfirst : (List.map Prod.fst l).headD 0 = d.head := h.head.symm
        simp only [ids, List.map_cons, DSeg]
        refine ⟨?_, ?_, DSeg.set_prev h.nodup h.seg ?_ ?_ ?_⟩
        · rw [hreg, if_neg (fun hc => hti hc.1.symm), if_neg (by omega)]; exact hz 0 (by omega)
        · rw [hreg, hfirst, if_neg (by omega)]; simp
        · intro k hk hkl
          rw [hfirst] at hkl
          rw [hreg, if_neg (fun hc => hkl hc.1), if_neg (by omega), hr k 0 (hne k hk)]
        · intro k hk
          rw [hreg, if_neg (by omega), if_neg (fun hc => hne k hk hc.1), hr k 1 (hne k hk)]
        · intro _; rw [hfirst, hreg]; simp
      · intro e he
        simp only [List.mem_cons] at he
        rw [ha', val?_setReg, val?_setReg, hv]
        rcases he with rfl | he
        · simp
        · have : e.1 ≠ i := by
            intro hc; apply hnl; rw [← hc]; exact List.mem_map_of_mem he
          simp [this, h.vals e he]
      · simp
      · simp only [hhd, h.tail]
        cases l with
        | nil => exact absurd rfl hl
        | cons x l => rfl

theorem pushFront_free {d : Deque T M} {l : List (Nat × T)} (h : DRep d l) (hM : M + 1 < 2 ^ 32)
    (hs : d.sequenceNumber + 1 < 2 ^ 64) (hlt : l.length < M) (v : T) :
    ∃ d' i, d.pushFront v = .ok d' ∧ DRep d' ((i, v) :: l) ∧
      d'.sequenceNumber = d.sequenceNumber + 1 ∧ ∀ F, AInv d.allocator F (ids l) →
        i = F.headD (l.length + 1) ∧ AInv d'.allocator F.tail (ids ((i, v) :: l)) := by
  obtain ⟨d', i, e, h', hq, _, hF⟩ := pushFront_freeL h hM hs (by simpa using hlt) v
  exact ⟨d', i, e, h', hq, fun F hf => by simpa using hF F hf⟩

theorem pushFront_spec {d : Deque T M} {l : List (Nat × T)} (h : DRep d l) (hM : M + 1 < 2 ^ 32)
    (hs : d.sequenceNumber + 1 < 2 ^ 64) (hlt : l.length < M) (v : T) :
    ∃ d' i, d.pushFront v = .ok d' ∧ DRep d' ((i, v) :: l) ∧
      d'.sequenceNumber = d.sequenceNumber + 1 := by
  obtain ⟨d', i, e, h', hq, _⟩ := pushFront_free h hM hs hlt v
  exact ⟨d', i, e, h', hq⟩

theorem push_fullL {L : List Nat} {d : Deque T M} {l : List (Nat × T)} (h : DRepL L d l) (hM : M + 1 < 2 ^ 32)
    (hfull : L.length + l.length = M) (v : T) :
    d.pushBack v = .error .bufferFull ∧ d.pushFront v = .error .bufferFull := by
  obtain ⟨free, hf⟩ := h.inv
  have := addNode_full hf hM (by simpa using hfull) v
  constructor
  · unfold pushBack; rw [this]; rfl
  · unfold pushFront; rw [this]; rfl

theorem push_full {d : Deque T M} {l : List (Nat × T)} (h : DRep d l) (hM : M + 1 < 2 ^ 32)
    (hfull : l.length = M) (v : T) :
    d.pushBack v = .error .bufferFull ∧ d.pushFront v = .error .bufferFull :=
  push_fullL h hM (by simpa using hfull) v

/-- registers read off a represented deque -/
theorem DRepL.neighbours {L : List Nat} {d : Deque T M} {l1 l2 : List (Nat × T)} {i : Nat} {v : T}
    (h : DRepL L d (l1 ++ (i, v) :: l2)) :
    d.allocator.reg i 0 = (ids l1).getLastD 0 ∧ d.allocator.reg i 1 = (ids l2).headD 0 := by
  have := h.seg
  simp only [ids, List.map_append, List.map_cons] at this
  rw [DSeg.append_iff] at this
  exact ⟨this.2.1, this.2.2.1⟩

theorem unlinkRegs (a : NodeAllocator T M 2) {i left right : Nat} (h1 : 1 ≤ i) (h2 : i ≤ M)
    (hl : left ≤ M) (hr : right ≤ M) (k r : Nat) :
    ((((a.setReg i 0 0).setReg i 1 0).setReg right 0 0).setReg left 1 0).reg k r =
      if (k = left ∧ r = 1) ∨ (k = right ∧ r = 0) ∨ (k = i ∧ r < 2) then 0 else a.reg k r := by
  simp only [reg_setReg]
  by_cases hk0 : k = 0
  · subst hk0; simp
  · have e1 : k = left → 1 ≤ left ∧ left ≤ M := by omega
    have e2 : k = right → 1 ≤ right ∧ right ≤ M := by omega
    by_cases c1 : k = left ∧ r = 1
    · rw [if_pos ⟨c1, e1 c1.1, by omega⟩, if_pos (Or.inl c1)]
    · rw [if_neg (fun hc => c1 hc.1)]
      by_cases c2 : k = right ∧ r = 0
      · rw [if_pos ⟨c2, e2 c2.1, by omega⟩, if_pos (Or.inr (Or.inl c2))]
      · rw [if_neg (fun hc => c2 hc.1)]
        by_cases c3 : k = i ∧ r < 2
        · rw [if_pos (Or.inr (Or.inr c3))]
          by_cases c4 : r = 1
          · rw [if_pos ⟨⟨c3.1, c4⟩, ⟨h1, h2⟩, by omega⟩]
          · rw [if_neg (fun hc => c4 hc.1.2), if_pos ⟨⟨c3.1, by omega⟩, ⟨h1, h2⟩, by omega⟩]
        · rw [if_neg (fun hc => c3 ⟨hc.1.1, by omega⟩), if_neg (fun hc => c3 ⟨hc.1.1, by omega⟩),
            if_neg (fun hc => hc.elim c1 (fun hc => hc.elim c2 c3))]

theorem remove'_freeL {L : List Nat} {d : Deque T M} {l1 l2 : List (Nat × T)} {i : Nat} {v : T}
    (h : DRepL L d (l1 ++ (i, v) :: l2))
    (hs : d.sequenceNumber + 1 < 2 ^ 64) (hend : l1 = [] ∨ l2 = []) :
    ∃ d', d.remove' i = .ok (d', some v) ∧ DRepL L d' (l1 ++ l2) ∧
      d'.sequenceNumber = d.sequenceNumber + 1 ∧ Keeps L d d' ∧ ∀ F, AInv d.allocator F (L ++ ids (l1 ++ (i, v) :: l2)) →
        AInv d'.allocator (i :: F) (L ++ ids (l1 ++ l2)) := by
  obtain ⟨free, hf⟩ := h.inv
  have hmem : i ∈ ids (l1 ++ (i, v) :: l2) := by simp
  obtain ⟨h1, h2⟩ := h.range hmem
  obtain ⟨hp, hn⟩ := h.neighbours
  have hnd := h.nodup
  have hids : ids (l1 ++ (i, v) :: l2) = ids l1 ++ i :: ids l2 := by simp
  rw [hids] at hnd
  obtain ⟨hnd1, hnd2, hdis⟩ := List.nodup_append.1 hnd
  have hi1 : i ∉ ids l1 := fun hc => hdis i hc i (by simp) rfl
  have hi2 : i ∉ ids l2 := (List.nodup_cons.1 hnd2).1
  have hval : d.allocator.val? i = some v := h.vals (i, v) (by simp)
  -- the neighbours
  obtain ⟨left, hleft⟩ : ∃ left, left = (ids l1).getLastD 0 := ⟨_, rfl⟩
  obtain ⟨right, hright⟩ : ∃ right, right = (ids l2).headD 0 := ⟨_, rfl⟩
  have hlm : left = 0 ∨ left ∈ ids l1 := by
    rcases List.eq_nil_or_concat l1 with rfl | ⟨m, x, rfl⟩
    · left; simp [hleft]
    · right; simp [hleft]
  have hrm : right = 0 ∨ right ∈ ids l2 := by
    cases l2 with
    | nil => left; simp [hright]
    | cons x m => right; simp [hright]
  have hlM : left ≤ M := by
    rcases hlm with hc | hc
    · omega
    · exact (h.range (by rw [hids]; simp only [List.mem_append]; exact Or.inl hc)).2
  have hrM : right ≤ M := by
    rcases hrm with hc | hc
    · omega
    · exact (h.range (by rw [hids]; simp only [List.mem_append, List.mem_cons]; exact Or.inr (Or.inr hc))).2
  have hlr : left = 0 ∨ right = 0 := by
    rcases hend with rfl | rfl
    · left; simp [hleft]
    · right; simp [hright]
  have hil : i ≠ left := by
    rintro rfl
    rcases hlm with hc | hc
    · omega
    · exact hi1 hc
  have hir : i ≠ right := by
    rintro rfl
    rcases hrm with hc | hc
    · omega
    · exact hi2 hc
  have hhead : i = d.head ↔ l1 = [] := by
    rw [h.head, hids]
    cases l1 with
    | nil => simp
    | cons x m =>
      simp only [ids, List.map_cons, List.cons_append, List.headD_cons]
      constructor
      · rintro hc; exact absurd (by simp [hc]) hi1
      · intro hc; cases hc
  have htail : i = d.tail ↔ l2 = [] := by
    rw [h.tail, hids]
    rw [getLastD_append_cons]
    cases l2 with
    | nil => simp
    | cons x m =>
      constructor
      · intro hc
        exfalso; apply hi2
        have := getLastD_mem (l := ids (x :: m)) (by simp) i
        rwa [← hc] at this
      · intro hc; cases hc
  -- the final allocator before `remove_node`
  let a1 := (d.allocator.setReg i 0 0).setReg i 1 0
  let a3 := (a1.setReg right 0 0).setReg left 1 0
  have hreg3 : ∀ k r, a3.reg k r = if (k = left ∧ r = 1) ∨ (k = right ∧ r = 0) ∨ (k = i ∧ r < 2) then 0
      else d.allocator.reg k r := by
    intro k r
    exact unlinkRegs _ h1 h2 hlM hrM k r
  have hval3 : ∀ k, a3.val? k = d.allocator.val? k := by intro k; simp [a3, a1]
  have hlive : ∀ k, (k = i ∨ (k = left ∨ k = right)) → k ∈ L ++ ids (l1 ++ (i, v) :: l2) ∨ k = 0 := by
    rw [hids]
    simp only [List.mem_append, List.mem_cons]
    rintro k (rfl | rfl | rfl)
    · simp
    · rcases hlm with hc | hc
      · exact Or.inr hc
      · exact Or.inl (Or.inr (Or.inl hc))
    · rcases hrm with hc | hc
      · exact Or.inr hc
      · exact Or.inl (Or.inr (Or.inr (Or.inr hc)))
  have hinv3 : AInv a3 free (L ++ ids (l1 ++ (i, v) :: l2)) :=
    (((hf.setReg 0 0 (hlive i (by simp))).setReg 1 0 (hlive i (by simp))).setReg 0 0
      (hlive right (by simp))).setReg 1 0 (hlive left (by simp))
  have hcl3 : Clean a3 (fun r => r < 2) (L ++ ids (l1 ++ (i, v) :: l2)) :=
    (((h.clean.setReg 0 0 (hlive i (by simp))).setReg 1 0 (hlive i (by simp))).setReg 0 0
      (hlive right (by simp))).setReg 1 0 (hlive left (by simp))
  obtain ⟨a4, v', he, hv', hinv4, hcl4, _, hr4, hr40, hv4⟩ :=
    removeNode_clean hinv3 hcl3 (by omega) (List.mem_append_right _ hmem)
      (by intro r hr _; rw [hreg3, if_pos (Or.inr (Or.inr ⟨rfl, hr⟩))])
  have hiL : i ∉ L := fun hc => h.disj hc hmem
  have herase : (L ++ ids (l1 ++ (i, v) :: l2)).erase i = L ++ ids (l1 ++ l2) := by
    rw [List.erase_append_right _ hiL, hids, List.erase_append_right _ hi1]; simp
  rw [herase] at hinv4 hcl4
  refine ⟨⟨d.sequenceNumber + 1, if i = d.head then right else d.head,
    if i = d.tail then left else d.tail, a4⟩, ?_, ?_, rfl, ?_, fun F hF => by rw [hF.free_unique hf]; exact hinv4⟩
  · unfold remove' getNode getPrev getNext PREV NEXT
    rw [getValue_ok _ hval, getRegister_ok _ h2 (by omega), getRegister_ok _ h2 (by omega), hp, hn,
      ← hleft, ← hright]
    simp only [except_bind_ok, clearRegister_ok _ h2 (show 0 < 2 by omega)]
    simp only [except_bind_ok, clearRegister_ok _ h2 (show 1 < 2 by omega)]
    have hc : ¬ (left ≠ SENTINEL ∧ right ≠ SENTINEL) := by unfold SENTINEL; omega
    rw [if_neg hc]
    simp only [except_pure, except_bind_ok]
    have key1 : (if i = d.head then do
        let a ← a1.clearRegister right 0
        pure (⟨d.sequenceNumber, right, d.tail, a⟩ : Deque T M)
        else pure ⟨d.sequenceNumber, d.head, d.tail, a1⟩ : R (Deque T M)) =
        .ok ⟨d.sequenceNumber, if i = d.head then right else d.head, d.tail, a1.setReg right 0 0⟩ := by
      by_cases hh : i = d.head
      · rw [if_pos hh, if_pos hh, clearRegister_ok _ hrM (by omega)]; rfl
      · rw [if_neg hh, if_neg hh]
        have : right = 0 := by
          rcases hend with he | he
          · exact absurd (hhead.2 he) hh
          · simp [hright, he]
        rw [this, setReg_zero]; rfl
    have key2 : ∀ hd, (if i = d.tail then do
        let a ← (a1.setReg right 0 0).clearRegister left 1
        pure (⟨d.sequenceNumber, hd, left, a⟩ : Deque T M)
        else pure ⟨d.sequenceNumber, hd, d.tail, a1.setReg right 0 0⟩ : R (Deque T M)) =
        .ok ⟨d.sequenceNumber, hd, if i = d.tail then left else d.tail, a3⟩ := by
      intro hd
      by_cases hh : i = d.tail
      · rw [if_pos hh, if_pos hh, clearRegister_ok _ hlM (by omega)]; rfl
      · rw [if_neg hh, if_neg hh]
        have : left = 0 := by
          rcases hend with he | he
          · simp [hleft, he]
          · exact absurd (htail.2 he) hh
        simp only [a3]
        rw [this, setReg_zero]; rfl
    refine (congrArg (fun x : R _ => x >>= _) key1).trans ?_
    simp only [except_bind_ok]
    refine (congrArg (fun x : R _ => x >>= _) (key2 _)).trans ?_
    simp only [except_bind_ok, he]
    rw [bumpSeq_ok (by simpa using hs)]
    rfl
  · have hz : 0 ∉ ids l1 ++ ids l2 := by
      intro hc
      apply h.zero
      rw [hids, List.mem_append]
      exact (List.mem_append.1 hc).imp id (fun hc => List.mem_cons_of_mem _ hc)
    refine ⟨⟨i :: free, hinv4⟩, hcl4, ?_, ?_, ?_, ?_⟩
    · have hseg := h.seg
      rw [hids] at hseg
      simp only [ids, List.map_append]
      have hne : ∀ j ∈ ids l1 ++ ids l2, j ≠ i := by
        rintro j hj rfl
        simp only [List.mem_append] at hj
        exact hj.elim hi1 hi2
      refine DSeg.unlink hz hnd hseg ?_ ?_ ?_ ?_
      · intro j hj hjr
        rw [← hright] at hjr
        rw [hr4 j 0 (hne j hj), hreg3, if_neg]
        have := hne j hj
        rintro (hc | hc | hc)
        · omega
        · exact hjr hc.1
        · exact this hc.1
      · intro j hj hjr
        rw [← hleft] at hjr
        rw [hr4 j 1 (hne j hj), hreg3, if_neg]
        have := hne j hj
        rintro (hc | hc | hc)
        · exact hjr hc.1
        · omega
        · exact this hc.1
      · intro hl
        rw [← hleft, ← hright, hr4 _ _ (Ne.symm hil), hreg3, if_pos (by simp)]
        rcases hend with he | he
        · exact absurd (by simp [he]) hl
        · simp [hright, he]
      · intro hl
        rw [← hleft, ← hright, hr4 _ _ (Ne.symm hir), hreg3, if_pos (by simp)]
        rcases hend with he | he
        · simp [hleft, he]
        · exact absurd (by simp [he]) hl
    · intro e hem
      rw [hv4, hval3]
      apply h.vals e
      rw [List.mem_append] at hem ⊢
      exact hem.imp id (fun hc => List.mem_cons_of_mem _ hc)
    · simp only
      by_cases hh : i = d.head
      · rw [if_pos hh, hright, hhead.1 hh]; rfl
      · rw [if_neg hh, h.head]
        cases l1 with
        | nil => exact absurd (hhead.2 rfl) hh
        | cons x m => rfl
    · simp only
      by_cases hh : i = d.tail
      · rw [if_pos hh, hleft, htail.1 hh]; simp
      · rw [if_neg hh, h.tail]
        rcases List.eq_nil_or_concat l2 with rfl | ⟨m, x, rfl⟩
        · exact absurd (htail.2 rfl) hh
        · simp only [List.concat_eq_append]
          rw [show l1 ++ (i, v) :: (m ++ [x]) = (l1 ++ (i, v) :: m) ++ [x] by simp,
            show l1 ++ (m ++ [x]) = (l1 ++ m) ++ [x] by simp]
          unfold ids
          rw [List.map_append (l₁ := l1 ++ (i, v) :: m), List.map_append (l₁ := l1 ++ m)]
          exact (getLastD_concat' _ _ _).trans (getLastD_concat' _ _ _).symm

  · intro k hk
    have hki : k ≠ i := fun hc => hiL (hc ▸ hk)
    have hkL := h.disj hk
    rw [hids, List.mem_append, List.mem_cons] at hkL
    have hk0 := h.pos hk
    refine ⟨fun r => ?_, (hv4 k).trans (hval3 k)⟩
    refine (hr4 k r hki).trans ?_
    rw [hreg3, if_neg]
    rintro (hc | hc | hc)
    · rcases hlm with hc' | hc'
      · omega
      · exact hkL (Or.inl (hc.1 ▸ hc'))
    · rcases hrm with hc' | hc'
      · omega
      · exact hkL (Or.inr (Or.inr (hc.1 ▸ hc')))
    · exact hki hc.1

theorem remove'_free {d : Deque T M} {l1 l2 : List (Nat × T)} {i : Nat} {v : T}
    (h : DRep d (l1 ++ (i, v) :: l2))
    (hs : d.sequenceNumber + 1 < 2 ^ 64) (hend : l1 = [] ∨ l2 = []) :
    ∃ d', d.remove' i = .ok (d', some v) ∧ DRep d' (l1 ++ l2) ∧
      d'.sequenceNumber = d.sequenceNumber + 1 ∧ ∀ F, AInv d.allocator F (ids (l1 ++ (i, v) :: l2)) →
        AInv d'.allocator (i :: F) (ids (l1 ++ l2)) := by
  obtain ⟨d', e, h', hq, _, hF⟩ := remove'_freeL h hs hend
  exact ⟨d', e, h', hq, hF⟩

theorem popFront_specL {L : List Nat} {d : Deque T M} {l : List (Nat × T)} (h : DRepL L d l)
    (hs : d.sequenceNumber + 1 < 2 ^ 64) :
    ∃ d', d.popFront = .ok (d', l.head?.map Prod.snd) ∧ DRepL L d' l.tail ∧
      (l = [] → d' = d) ∧ Keeps L d d' ∧
      d'.sequenceNumber = d.sequenceNumber + (if l = [] then 0 else 1) := by
  unfold popFront SENTINEL
  cases l with
  | nil => exact ⟨d, by rw [if_pos (h.head_zero.2 rfl)]; rfl, h, fun _ => rfl, .refl _ _, by simp⟩
  | cons x l =>
    rw [if_neg (fun hc => by simpa using h.head_zero.1 hc)]
    have hh : d.head = x.1 := by rw [h.head]; rfl
    obtain ⟨d', e, hr, hsq, hk, _⟩ := remove'_freeL (l1 := []) (i := x.1) (v := x.2) h hs (Or.inl rfl)
    exact ⟨d', by rw [hh, e]; rfl, hr, by simp, hk, by simpa using hsq⟩

theorem popFront_spec {d : Deque T M} {l : List (Nat × T)} (h : DRep d l)
    (hs : d.sequenceNumber + 1 < 2 ^ 64) :
    ∃ d', d.popFront = .ok (d', l.head?.map Prod.snd) ∧ DRep d' l.tail ∧
      (l = [] → d' = d) ∧
      d'.sequenceNumber = d.sequenceNumber + (if l = [] then 0 else 1) := by
  obtain ⟨d', e, hr, h0, _, hq⟩ := popFront_specL h hs
  exact ⟨d', e, hr, h0, hq⟩

theorem popBack_specL {L : List Nat} {d : Deque T M} {l : List (Nat × T)} (h : DRepL L d l)
    (hs : d.sequenceNumber + 1 < 2 ^ 64) :
    ∃ d', d.popBack = .ok (d', l.getLast?.map Prod.snd) ∧ DRepL L d' l.dropLast ∧
      (l = [] → d' = d) ∧ Keeps L d d' ∧
      d'.sequenceNumber = d.sequenceNumber + (if l = [] then 0 else 1) := by
  unfold popBack SENTINEL
  rcases List.eq_nil_or_concat l with rfl | ⟨m, x, rfl⟩
  · exact ⟨d, by rw [if_pos (h.tail_zero.2 rfl)]; rfl, h, fun _ => rfl, .refl _ _, by simp⟩
  · simp only [List.concat_eq_append] at *
    rw [if_neg (fun hc => by simpa using h.tail_zero.1 hc)]
    have hh : d.tail = x.1 := by rw [h.tail]; simp
    obtain ⟨d', e, hr, hsq, hk, _⟩ := remove'_freeL (l1 := m) (i := x.1) (v := x.2) (l2 := []) h hs (Or.inr rfl)
    exact ⟨d', by rw [hh, e]; simp, by simpa using hr, by simp, hk, by simpa using hsq⟩

theorem popBack_spec {d : Deque T M} {l : List (Nat × T)} (h : DRep d l)
    (hs : d.sequenceNumber + 1 < 2 ^ 64) :
    ∃ d', d.popBack = .ok (d', l.getLast?.map Prod.snd) ∧ DRep d' l.dropLast ∧
      (l = [] → d' = d) ∧
      d'.sequenceNumber = d.sequenceNumber + (if l = [] then 0 else 1) := by
  obtain ⟨d', e, hr, h0, _, hq⟩ := popBack_specL h hs
  exact ⟨d', e, hr, h0, hq⟩

theorem front_spec {L : List Nat} {d : Deque T M} {l : List (Nat × T)} (h : DRepL L d l) :
    d.front = .ok (l.head?.map Prod.snd) := by
  unfold front getNode SENTINEL
  cases l with
  | nil => rw [if_pos (h.head_zero.2 rfl)]; rfl
  | cons x l =>
    rw [if_neg (fun hc => by simpa using h.head_zero.1 hc)]
    have hh : d.head = x.1 := by rw [h.head]; rfl
    rw [hh, getValue_ok _ (h.vals x (by simp))]; rfl

theorem back_spec {L : List Nat} {d : Deque T M} {l : List (Nat × T)} (h : DRepL L d l) :
    d.back = .ok (l.getLast?.map Prod.snd) := by
  unfold back SENTINEL
  rcases List.eq_nil_or_concat l with rfl | ⟨m, x, rfl⟩
  · rw [if_pos (h.tail_zero.2 rfl)]; rfl
  · simp only [List.concat_eq_append] at *
    rw [if_neg (fun hc => by simpa using h.tail_zero.1 hc)]
    have hh : d.tail = x.1 := by rw [h.tail]; simp
    rw [hh, getValue_ok _ (h.vals x (by simp))]; simp

/-! ### iteration -/

/-- Cursor state with the elements `m` still to come. -/
def ItRest (it : Iter) (m : List Nat) : Prop :=
  (m ≠ [] ∧ it.terminated = false ∧ it.fwdPtr = m.headD 0 ∧ it.revPtr = m.getLastD 0) ∨
  (m = [] ∧ (it.terminated = true ∨ (it.fwdPtr = 0 ∧ it.revPtr = 0)))

theorem iter_rest {L : List Nat} {d : Deque T M} {l : List (Nat × T)} (h : DRepL L d l) : ItRest d.iter (ids l) := by
  by_cases hl : l = []
  · right; exact ⟨by simp [hl], Or.inr ⟨h.head_zero.2 hl, h.tail_zero.2 hl⟩⟩
  · left; exact ⟨by simpa using hl, rfl, h.head, h.tail⟩

theorem nextMut_spec {L : List Nat} {d : Deque T M} {pre m post : List (Nat × T)} (h : DRepL L d (pre ++ m ++ post))
    {it : Iter} (hi : ItRest it (ids m)) :
    ∃ it', it.nextMut d = .ok (it', m.head?.map Prod.fst) ∧ ItRest it' (ids m.tail) := by
  unfold Iter.nextMut SENTINEL
  cases m with
  | nil =>
    rcases hi with ⟨hc, _⟩ | ⟨_, hc⟩
    · exact absurd rfl hc
    · refine ⟨it, ?_, Or.inr ⟨rfl, hc⟩⟩
      rcases hc with hc | hc
      · simp [hc]
      · cases ht : it.terminated <;> simp [hc.1]
  | cons x m =>
    rcases hi with ⟨_, ht, hfw, hrv⟩ | ⟨hc, _⟩
    · have hx : x.1 ∈ ids (pre ++ x :: m ++ post) := by simp [ids]
      obtain ⟨hx1, hx2⟩ := h.range hx
      simp only [ids, List.map_cons, List.headD_cons] at hfw
      simp only [ht, Bool.false_eq_true, if_false, hfw]
      rw [if_neg (by omega)]
      have hn : d.getNext x.1 = .ok ((ids (m ++ post)).headD 0) := by
        unfold getNext NEXT
        rw [getRegister_ok _ hx2 (by omega)]
        have h' : DRepL L d (pre ++ (x.1, x.2) :: (m ++ post)) := by simpa using h
        rw [h'.neighbours.2]
      simp only [hn, except_bind_ok, except_pure]
      refine ⟨_, rfl, ?_⟩
      cases m with
      | nil =>
        right
        refine ⟨rfl, Or.inl ?_⟩
        have : x.1 = it.revPtr := by rw [hrv]; rfl
        simp [this]
      | cons y m =>
        left
        refine ⟨by simp, ?_, ?_, ?_⟩
        · have : ¬ x.1 = it.revPtr := by
            rw [hrv]
            have hnd := h.nodup
            intro hc
            have hmem : (ids (x :: y :: m)).getLastD 0 ∈ ids (y :: m) :=
              getLastD_mem (l := ids (y :: m)) (by simp) x.1
            rw [← hc] at hmem
            simp only [ids, List.map_append, List.map_cons] at hnd
            have h3 := (List.nodup_append.1 (List.nodup_append.1 hnd).1).2.1
            exact (List.nodup_cons.1 h3).1 (by simpa [ids] using hmem)
          simp [this, ht]
        · simp [ids]
        · split <;> rw [hrv] <;> rfl
    · simp at hc

theorem nextBackMut_spec {L : List Nat} {d : Deque T M} {pre m post : List (Nat × T)} (h : DRepL L d (pre ++ m ++ post))
    {it : Iter} (hi : ItRest it (ids m)) :
    ∃ it', it.nextBackMut d = .ok (it', m.getLast?.map Prod.fst) ∧ ItRest it' (ids m.dropLast) := by
  unfold Iter.nextBackMut SENTINEL
  rcases List.eq_nil_or_concat m with rfl | ⟨m, x, rfl⟩
  · rcases hi with ⟨hc, _⟩ | ⟨_, hc⟩
    · exact absurd rfl hc
    · refine ⟨it, ?_, Or.inr ⟨rfl, hc⟩⟩
      rcases hc with hc | hc
      · simp [hc]
      · cases ht : it.terminated <;> simp [hc.2]
  · simp only [List.concat_eq_append] at *
    rcases hi with ⟨_, ht, hfw, hrv⟩ | ⟨hc, _⟩
    · have hx : x.1 ∈ ids (pre ++ (m ++ [x]) ++ post) := by simp [ids]
      obtain ⟨hx1, hx2⟩ := h.range hx
      have hrv : it.revPtr = x.1 := by rw [hrv]; simp [ids]
      simp only [ht, Bool.false_eq_true, if_false, hrv]
      rw [if_neg (by omega)]
      have hn : d.getPrev x.1 = .ok ((ids (pre ++ m)).getLastD 0) := by
        unfold getPrev PREV
        rw [getRegister_ok _ hx2 (by omega)]
        have h' : DRepL L d ((pre ++ m) ++ (x.1, x.2) :: post) := by simpa using h
        rw [h'.neighbours.1]
      simp only [hn, except_bind_ok, except_pure]
      refine ⟨_, by simp; rfl, ?_⟩
      simp only [List.dropLast_concat]
      rcases List.eq_nil_or_concat m with rfl | ⟨m, y, rfl⟩
      · right
        refine ⟨rfl, Or.inl ?_⟩
        have : x.1 = it.fwdPtr := by rw [hfw]; rfl
        simp [this]
      · simp only [List.concat_eq_append] at *
        left
        refine ⟨by simp, ?_, ?_, ?_⟩
        · have : ¬ x.1 = it.fwdPtr := by
            rw [hfw]
            have hnd := h.nodup
            intro hc
            have hmem : (ids (m ++ [y] ++ [x])).headD 0 ∈ ids (m ++ [y]) := by
              cases m <;> simp [ids]
            rw [← hc] at hmem
            simp only [ids, List.map_append, List.map_cons, List.map_nil] at hnd
            have h3 := (List.nodup_append.1 (List.nodup_append.1 hnd).1).2.1
            exact (List.nodup_append.1 h3).2.2 x.1 (by simpa [ids] using hmem) x.1 (by simp) rfl
          simp [this, ht]
        · have hhd : (ids (m ++ [y] ++ [x])).headD 0 = (ids (m ++ [y])).headD 0 := by
            cases m <;> simp [ids]
          split <;> rw [hfw, hhd]
        · simp [ids]
    · simp at hc

/-- The shared and the mutable iterator move alike; the shared one also reads the value. -/
theorem next_of_nextMut {d : Deque T M} {it it' : Iter} {o : Option Nat}
    (h : it.nextMut d = .ok (it', o)) :
    (o = none → it.next d = .ok (it', none)) ∧
    (∀ p, o = some p → it.next d = (do let v ← d.getNode p; return (it', some (p, v)))) := by
  unfold Iter.nextMut at h
  unfold Iter.next
  split at h
  · rw [if_pos (by assumption)]; cases h; exact ⟨fun _ => rfl, fun p hp => by cases hp⟩
  · rw [if_neg (by assumption)]
    split at h
    · rw [if_pos (by assumption)]; cases h; exact ⟨fun _ => rfl, fun p hp => by cases hp⟩
    · rw [if_neg (by assumption)]
      simp only at h ⊢
      cases hn : d.getNext it.fwdPtr with
      | error e => rw [hn] at h; simp at h
      | ok n =>
        rw [hn] at h
        simp only [except_bind_ok, except_pure] at h ⊢
        cases h; exact ⟨fun hp => (by cases hp), fun p hp => (by cases hp; rfl)⟩

theorem nextBack_of_nextBackMut {d : Deque T M} {it it' : Iter} {o : Option Nat}
    (h : it.nextBackMut d = .ok (it', o)) :
    (o = none → it.nextBack d = .ok (it', none)) ∧
    (∀ p, o = some p → it.nextBack d = (do let v ← d.getNode p; return (it', some (p, v)))) := by
  unfold Iter.nextBackMut at h
  unfold Iter.nextBack
  split at h
  · rw [if_pos (by assumption)]; cases h; exact ⟨fun _ => rfl, fun p hp => by cases hp⟩
  · rw [if_neg (by assumption)]
    split at h
    · rw [if_pos (by assumption)]; cases h; exact ⟨fun _ => rfl, fun p hp => by cases hp⟩
    · rw [if_neg (by assumption)]
      simp only at h ⊢
      cases hn : d.getPrev it.revPtr with
      | error e => rw [hn] at h; simp at h
      | ok n =>
        rw [hn] at h
        simp only [except_bind_ok, except_pure] at h ⊢
        cases h; exact ⟨fun hp => (by cases hp), fun p hp => (by cases hp; rfl)⟩

theorem drive_iter {L : List Nat} {d : Deque T M} {l : List (Nat × T)} (h : DRepL L d l) (es : List End) :
    ∃ it', drive (Iter.next d) (Iter.nextBack d) d.iter es = .ok (it', consume l es) := by
  refine drive_spec (Inv := fun it m => ItRest it (ids m) ∧ ∃ pre post, l = pre ++ m ++ post)
    ?_ ?_ es d.iter l ⟨iter_rest h, [], [], by simp⟩
  · rintro it m ⟨hi, pre, post, hl⟩
    subst hl
    obtain ⟨it', e, hi'⟩ := nextMut_spec h hi
    refine ⟨it', ?_, hi', ?_⟩
    · cases m with
      | nil => exact (next_of_nextMut e).1 rfl
      | cons x m =>
        rw [(next_of_nextMut e).2 x.1 rfl]
        simp only [List.head?_cons, getNode]
        rw [getValue_ok _ (h.vals x (by simp))]; rfl
    · cases m with
      | nil => exact ⟨pre, post, rfl⟩
      | cons x m => exact ⟨pre ++ [x], post, by simp⟩
  · rintro it m ⟨hi, pre, post, hl⟩
    subst hl
    obtain ⟨it', e, hi'⟩ := nextBackMut_spec h hi
    refine ⟨it', ?_, hi', ?_⟩
    · rcases List.eq_nil_or_concat m with rfl | ⟨m, x, rfl⟩
      · exact (nextBack_of_nextBackMut e).1 rfl
      · rw [(nextBack_of_nextBackMut e).2 x.1 (by simp)]
        simp only [getNode]
        rw [getValue_ok _ (h.vals x (by simp))]; simp
    · rcases List.eq_nil_or_concat m with rfl | ⟨m, x, rfl⟩
      · exact ⟨pre, post, rfl⟩
      · exact ⟨pre, x :: post, by simp⟩

theorem writeSlot_specL {L : List Nat} {d : Deque T M} {l1 l2 : List (Nat × T)} {x : Nat × T}
    (h : DRepL L d (l1 ++ x :: l2)) (v : T) :
    ∃ d', d.writeSlot x.1 v = .ok d' ∧ DRepL L d' (l1 ++ (x.1, v) :: l2) ∧
      d'.sequenceNumber = d.sequenceNumber ∧ Keeps L d d' := by
  have hx : x.1 ∈ ids (l1 ++ x :: l2) := by simp
  obtain ⟨h1, h2⟩ := h.range hx
  refine ⟨{ d with allocator := d.allocator.setVal x.1 v }, ?_, ?_, rfl, fun k hk => ⟨fun r => by simp, ?_⟩⟩
  rotate_left 2
  · have : k ≠ x.1 := fun hc => h.disj hk (hc ▸ hx)
    rw [val?_setVal, if_neg (fun hc => this hc.1)]
  · unfold writeSlot; rw [setValue_ok _ v h1 h2]; rfl
  · have hids : ids (l1 ++ (x.1, v) :: l2) = ids (l1 ++ x :: l2) := by simp
    obtain ⟨free, hf⟩ := h.inv
    refine ⟨⟨free, by rw [hids]; exact hf.setVal _ _⟩, by rw [hids]; exact h.clean.setVal _ _, ?_, ?_,
      by rw [hids]; exact h.head, by rw [hids]; exact h.tail⟩
    · rw [hids]; exact DSeg.frame (fun i _ => by simp) h.seg
    · have hnd := h.nodup
      simp only [ids, List.map_append, List.map_cons] at hnd
      obtain ⟨_, hnd2, hdis⟩ := List.nodup_append.1 hnd
      intro e he
      simp only [val?_setVal]
      simp only [List.mem_append, List.mem_cons] at he
      rcases he with he | rfl | he
      · have : e.1 ≠ x.1 := hdis e.1 (List.mem_map_of_mem he) x.1 (by simp)
        rw [if_neg (fun hc => this hc.1)]; exact h.vals e (by simp [he])
      · simp [h1, h2]
      · have : e.1 ≠ x.1 := by
          intro hc; exact (List.nodup_cons.1 hnd2).1 (hc ▸ List.mem_map_of_mem he)
        rw [if_neg (fun hc => this hc.1)]; exact h.vals e (by simp [he])

theorem writeSlot_spec {d : Deque T M} {l1 l2 : List (Nat × T)} {x : Nat × T}
    (h : DRep d (l1 ++ x :: l2)) (v : T) :
    ∃ d', d.writeSlot x.1 v = .ok d' ∧ DRep d' (l1 ++ (x.1, v) :: l2) ∧
      d'.sequenceNumber = d.sequenceNumber := by
  obtain ⟨d', e, hr, hq, _⟩ := writeSlot_specL h v
  exact ⟨d', e, hr, hq⟩

/-- update the value of an (index, value) pair -/
def updVal (f : T → T) (x : Nat × T) : Nat × T := (x.1, f x.2)

theorem iterMut_specL {L : List Nat} {d : Deque T M} {l : List (Nat × T)} (h : DRepL L d l)
    (es : List (End × (T → T))) :
    ∃ d' it', DequeSpec.iterMut d es =
      .ok (d', it', (consumeMut l (es.map fun e => (e.1, updVal e.2))).1) ∧
      DRepL L d' (consumeMut l (es.map fun e => (e.1, updVal e.2))).2 ∧
      d'.sequenceNumber = d.sequenceNumber ∧ Keeps L d d' := by
  have := driveMut_spec (next := Iter.nextMut) (nextBack := Iter.nextBackMut) (read := getNode (T := T) (maxSize := M))
    (write := writeSlot) (slot := Prod.fst) (val := Prod.snd) (upd := updVal)
    (Inv := fun s it pre m post => DRepL L s (pre ++ m ++ post) ∧ ItRest it (ids m) ∧
      s.sequenceNumber = d.sequenceNumber ∧ Keeps L d s) ?_ ?_ ?_ ?_ es d d.iter [] l []
    ⟨by simpa using h, iter_rest h, rfl, .refl _ _⟩
  · obtain ⟨d', it', pre', m', post', e, ⟨hr, _, hs⟩, hl⟩ := this
    refine ⟨d', it', ?_, ?_, hs⟩
    · rw [DequeSpec.iterMut, e]
      congr 3
      simp
    · rw [hl] at hr; simpa using hr
  · rintro s it pre m post ⟨hr, hi, hs⟩
    obtain ⟨it', e, hi'⟩ := nextMut_spec hr hi
    refine ⟨it', e, ?_⟩
    rintro x l rfl
    refine ⟨getValue_ok _ (hr.vals x (by simp)), fun f => ?_⟩
    have hr' : DRepL L s (pre ++ x :: (l ++ post)) := by simpa using hr
    obtain ⟨s', e', hr2, hs2, hk2⟩ := writeSlot_specL hr' (f x.2)
    exact ⟨s', e', by simpa [updVal] using hr2, hi', by rw [hs2, hs.1], hs.2.trans hk2⟩
  · rintro s it pre m post ⟨hr, hi, hs⟩
    obtain ⟨it', e, hi'⟩ := nextBackMut_spec hr hi
    refine ⟨it', e, ?_⟩
    rintro x l rfl
    refine ⟨getValue_ok _ (hr.vals x (by simp)), fun f => ?_⟩
    have hr' : DRepL L s ((pre ++ l) ++ x :: post) := by simpa using hr
    obtain ⟨s', e', hr2, hs2, hk2⟩ := writeSlot_specL hr' (f x.2)
    exact ⟨s', e', by simpa [updVal] using hr2, by simpa using hi', by rw [hs2, hs.1], hs.2.trans hk2⟩
  · rintro s it it' pre post ⟨hr, hi, hs⟩ e
    obtain ⟨it2, e2, hi2⟩ := nextMut_spec hr hi
    rw [e] at e2; cases e2
    exact ⟨hr, hi2, hs⟩
  · rintro s it it' pre post ⟨hr, hi, hs⟩ e
    obtain ⟨it2, e2, hi2⟩ := nextBackMut_spec hr hi
    rw [e] at e2; cases e2
    exact ⟨hr, hi2, hs⟩

theorem iterMut_spec {d : Deque T M} {l : List (Nat × T)} (h : DRep d l)
    (es : List (End × (T → T))) :
    ∃ d' it', DequeSpec.iterMut d es =
      .ok (d', it', (consumeMut l (es.map fun e => (e.1, updVal e.2))).1) ∧
      DRep d' (consumeMut l (es.map fun e => (e.1, updVal e.2))).2 ∧
      d'.sequenceNumber = d.sequenceNumber := by
  obtain ⟨d', it', e, hr, hq, _⟩ := iterMut_specL h es
  exact ⟨d', it', e, hr, hq⟩

end Sokoban.Deque
