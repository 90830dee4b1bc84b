import Verif.Spec.Alloc
import Verif.Proof.Alloc

/-! Invariants of client histories of the allocator. -/
namespace Sokoban.AllocSpec
open NodeAllocator
variable {T : Type} {M N : Nat}

/-- What a history says about memory. -/
structure HInv (a : NodeAllocator T M N) (tr : List (Event T)) : Prop where
  inv : AInv a (freed tr) (live tr)
  vals : ∀ i ∈ live tr, a.val? i = lastVal tr i
  regs : ∀ i ∈ live tr, ∀ r, r < N → a.reg i r = lastReg tr i r
  /-- registers above 0 keep the last written value also in freed nodes -/
  stale : ∀ i r, r ≠ 0 → r < N → 1 ≤ i → i ≤ M → a.reg i r = lastReg tr i r
  virgin : ∀ i, a.bumpIndex ≤ i → i ≤ M → a.reg i 0 = 0
  /-- events only mention indices below the bump index -/
  ever : ∀ i v, Event.added i v ∈ tr → i < a.bumpIndex

theorem erase_head {l : List Nat} {d : Nat} (h : d ∉ l) : l.erase (l.headD d) = l.tail := by
  cases l with
  | nil => simp
  | cons x l => simp

theorem HInv.wroteReg {a : NodeAllocator T M N} {tr : List (Event T)} (h : HInv a tr)
    {i r v : Nat} (hi : i ∈ live tr) (hr : r < N) :
    HInv (a.setReg i r v) (.wroteReg i r v :: tr) := by
  have ⟨h1, h2⟩ := h.inv.live_range hi
  have hreg : ∀ k s, (a.setReg i r v).reg k s = if k = i ∧ s = r then v else a.reg k s := by
    intro k s; rw [reg_setReg]; simp [h1, h2, hr]
  refine ⟨h.inv.setReg r v (Or.inl hi), ?_, ?_, ?_, ?_, ?_⟩
  · intro k hk; simpa [lastVal] using h.vals k hk
  · intro k hk s hs; rw [hreg, lastReg, h.regs k hk s hs]
  · intro k s h0 hs hk1 hk2; rw [hreg, lastReg, h.stale k s h0 hs hk1 hk2]
  · intro k hk hkM
    rw [hreg, if_neg]
    · exact h.virgin k (by simpa using hk) hkM
    · rintro ⟨rfl, _⟩
      have := (h.inv.mem k).1 (by simp [hi])
      simp at hk; omega
  · intro k w hk
    simp at hk
    simpa using h.ever k w hk

theorem HInv.wroteVal {a : NodeAllocator T M N} {tr : List (Event T)} (h : HInv a tr)
    {i : Nat} {v : T} (hi : i ∈ live tr) :
    HInv (a.setVal i v) (.wroteVal i v :: tr) := by
  have ⟨h1, h2⟩ := h.inv.live_range hi
  refine ⟨h.inv.setVal i v, ?_, ?_, ?_, ?_, ?_⟩
  · intro k hk
    rw [val?_setVal, lastVal, h.vals k hk]; simp [h1, h2]
  · intro k hk s hs; rw [reg_setVal, lastReg, h.regs k hk s hs]
  · intro k s h0 hs hk1 hk2; rw [reg_setVal, lastReg, h.stale k s h0 hs hk1 hk2]
  · intro k hk hkM; rw [reg_setVal]; exact h.virgin k (by simpa using hk) hkM
  · intro k w hk
    simp at hk
    simpa using h.ever k w hk

theorem HInv.setRegister {a : NodeAllocator T M N} {tr : List (Event T)} (h : HInv a tr)
    {i r v : Nat} (hi : Mentionable tr i) (hr : r < N) :
    HInv (a.setReg i r v) ((if i = 0 then [] else [.wroteReg i r v]) ++ tr) := by
  rcases hi with hi | hi
  · have ⟨h1, h2⟩ := h.inv.live_range hi
    rw [if_neg (by omega)]; exact h.wroteReg hi hr
  · subst hi; simpa [setReg_zero] using h

theorem Mentionable.le {a : NodeAllocator T M N} {tr : List (Event T)} (h : HInv a tr) {i : Nat}
    (hi : Mentionable tr i) : i ≤ M := by
  rcases hi with hi | hi
  · exact (h.inv.live_range hi).2
  · omega

theorem mentionable_append {tr : List (Event T)} {i k r v : Nat} (h : Mentionable tr k) :
    Mentionable ((if i = 0 then [] else [.wroteReg i r v]) ++ tr) k := by
  split
  · exact h
  · simpa [Mentionable, live] using h

theorem bump_after {a : NodeAllocator T M N} {free live : List Nat} (h : AInv a free live) {i : Nat}
    {a' : NodeAllocator T M N} (h' : AInv a' free.tail (i :: live)) :
    a'.bumpIndex = if free = [] then a.bumpIndex + 1 else a.bumpIndex := by
  have e1 := h.length_eq; have e2 := h'.length_eq
  have := h'.bump_pos
  have := h.bump_pos
  cases free <;> simp at e1 e2 ⊢ <;> omega

/-- A legal call either is an `add_node` on a full allocator and panics "Buffer is full", or
returns and keeps the invariant. -/
theorem call_spec {a : NodeAllocator T M N} {tr : List (Event T)} (h : HInv a tr)
    (hN : 0 < N) {op : Op T} (hl : Legal N tr op) :
    ((∃ v, op = .add v) ∧ (live tr).length = usable M ∧ call a op = .error (fullPanic M)) ∨
    ∃ a' out, call a op = .ok (a', out) ∧ HInv a' (events op out ++ tr) := by
  cases op with
  | add v =>
    by_cases hf : (live tr).length < usable M
    · right
      obtain ⟨a', i, e, hi, hnl, h1, h2, hinv, hr, hv⟩ := addNode_usable h.inv hN hf v
      have hbn : a.bumpIndex ∉ freed tr := by
        intro hb
        have := (h.inv.mem a.bumpIndex).1 (by simp [hb])
        omega
      have hfr : (freed tr).erase i = (freed tr).tail := by rw [hi, erase_head hbn]
      have hb := bump_after h.inv hinv
      refine ⟨a', .index i, by simp [call, e], ?_⟩
      simp only [events, List.singleton_append]
      have hreg0 : ∀ k r, r ≠ 0 → a'.reg k r = a.reg k r := by
        intro k r hr0; rw [hr, if_neg (by tauto)]
      have hregk : ∀ k r, k ≠ i → a'.reg k r = a.reg k r := by
        intro k r hr0; rw [hr, if_neg (by tauto)]
      have hregi : a'.reg i 0 = 0 := by
        rw [hr]
        by_cases hfe : freed tr = []
        · rw [if_neg (by tauto)]
          apply h.virgin _ _ h2
          rw [hi, hfe]; simp
        · rw [if_pos (by tauto)]
      refine ⟨?_, ?_, ?_, ?_, ?_, ?_⟩
      · simpa [freed, live, hfr] using hinv
      · intro k hk
        simp only [live, List.mem_cons] at hk
        rw [hv, lastVal]
        by_cases hki : k = i
        · simp [hki]
        · simp [hki]; exact h.vals k (hk.resolve_left hki)
      · intro k hk r hrN
        simp only [live, List.mem_cons] at hk
        by_cases hki : k = i
        · subst hki
          by_cases hr0 : r = 0
          · subst hr0; rw [hregi]; simp [lastReg]
          · rw [hreg0 _ _ hr0]; simp [lastReg, hr0]; exact h.stale k r hr0 hrN h1 h2
        · rw [hregk _ _ hki]; simp [lastReg, hki]; exact h.regs k (hk.resolve_left hki) r hrN
      · intro k r hr0 hrN hk1 hk2
        rw [hreg0 _ _ hr0]; simp [lastReg, hr0]; exact h.stale k r hr0 hrN hk1 hk2
      · intro k hk hkM
        by_cases hki : k = i
        · rw [hki]; exact hregi
        · rw [hregk _ _ hki]; apply h.virgin k _ hkM
          rw [hb] at hk; split at hk <;> omega
      · intro k w hk
        simp only [List.mem_cons, Event.added.injEq] at hk
        rcases hk with ⟨rfl, rfl⟩ | hk
        · exact ((hinv.mem k).1 (by simp)).2
        · have := h.ever k w hk
          rw [hb]; split <;> omega
    · left
      have := h.inv.live_le_usable
      have hfull : (live tr).length = usable M := by omega
      exact ⟨⟨v, rfl⟩, hfull, by simp [call, addNode_usable_full h.inv hfull v]⟩
  | remove i =>
    right
    have hi : i ∈ live tr := hl
    have ⟨h1, h2⟩ := h.inv.live_range hi
    obtain ⟨a', v, e, hvv, hinv, hr, hv⟩ := removeNode_spec h.inv hN hi
    have hb : a'.bumpIndex = a.bumpIndex := by
      have e1 := h.inv.length_eq; have e2 := hinv.length_eq
      have := hinv.bump_pos
      have := h.inv.bump_pos
      rw [List.length_erase_of_mem hi] at e2
      have hpos : 0 < (live tr).length := List.length_pos_of_mem hi
      simp at e2; omega
    have hnd : (live tr).Nodup := (List.nodup_append.1 h.inv.nodup).2.1
    refine ⟨a', .value (some v), by simp [call, e], ?_⟩
    simp only [events, List.singleton_append]
    have hregk : ∀ k r, (k ≠ i ∨ r ≠ 0) → a'.reg k r = a.reg k r := by
      intro k r hr0; rw [hr, if_neg (by tauto)]
    refine ⟨hinv, ?_, ?_, ?_, ?_, ?_⟩
    · intro k hk
      rw [hv, lastVal]; exact h.vals k (List.mem_of_mem_erase hk)
    · intro k hk r hrN
      have hki : k ≠ i := by
        rintro rfl; exact (List.Nodup.not_mem_erase hnd) hk
      rw [hregk _ _ (Or.inl hki), lastReg]; exact h.regs k (List.mem_of_mem_erase hk) r hrN
    · intro k r hr0 hrN hk1 hk2
      rw [hregk _ _ (Or.inr hr0), lastReg]; exact h.stale k r hr0 hrN hk1 hk2
    · intro k hk hkM
      rw [hb] at hk
      have := (h.inv.mem i).1 (by simp [hi])
      rw [hregk _ _ (Or.inl (by omega))]; exact h.virgin k hk hkM
    · intro k w hk
      simp at hk
      rw [hb]; exact h.ever k w hk
  | setRegister i v r =>
    right
    obtain ⟨hi, hr⟩ := hl
    refine ⟨a.setReg i r v, .unit, ?_, ?_⟩
    · simp only [call]; rw [setRegister_ok a (hi.le h) hr]; rfl
    · exact h.setRegister hi hr
  | clearRegister i r =>
    right
    obtain ⟨hi, hr⟩ := hl
    refine ⟨a.setReg i r 0, .unit, ?_, ?_⟩
    · simp only [call]; rw [clearRegister_ok a (hi.le h) hr]; rfl
    · exact h.setRegister hi hr
  | connect i j rI rJ =>
    right
    obtain ⟨hi, hj, hrI, hrJ⟩ := hl
    refine ⟨(a.setReg i rI j).setReg j rJ i, .unit, ?_, ?_⟩
    · simp only [call]; rw [connect_ok a (hi.le h) (hj.le h) hrI hrJ]; rfl
    · simp only [events, List.append_assoc]
      exact (h.setRegister hi hrI).setRegister (mentionable_append hj) hrJ
  | disconnect i j rI rJ =>
    right
    obtain ⟨hi, hj, hrI, hrJ⟩ := hl
    refine ⟨(a.setReg i rI 0).setReg j rJ 0, .unit, ?_, ?_⟩
    · simp only [call]; rw [disconnect_ok a (hi.le h) (hj.le h) hrI hrJ]; rfl
    · simp only [events, List.append_assoc]
      exact (h.setRegister hi hrI).setRegister (mentionable_append hj) hrJ
  | setValue i v =>
    right
    have hi : i ∈ live tr := hl
    have ⟨h1, h2⟩ := h.inv.live_range hi
    refine ⟨a.setVal i v, .unit, ?_, ?_⟩
    · simp only [call]; rw [setValue_ok a v h1 h2]; rfl
    · exact h.wroteVal hi

theorem HInv.new (z : T) : HInv (NodeAllocator.new z : NodeAllocator T M N) [] where
  inv := new_AInv z
  vals := by simp [live]
  regs := by simp [live]
  stale i r _ _ _ _ := by rw [reg_new]; rfl
  virgin i _ _ := reg_new z i 0
  ever := by simp

theorem Reach.hinv {z : T} {a : NodeAllocator T M N} {tr : List (Event T)} (h : Reach z a tr)
    (hN : 0 < N) : HInv a tr := by
  induction h with
  | new => exact HInv.new z
  | step _ hl hc ih =>
    rcases call_spec ih hN hl with ⟨_, _, he⟩ | ⟨a', out, he, hh⟩
    · rw [he] at hc; cases hc
    · rw [he] at hc; cases hc; exact hh

theorem ReachClean.reach {z : T} {a : NodeAllocator T M N} {tr : List (Event T)}
    (h : ReachClean z a tr) : Reach z a tr := by
  induction h with
  | new => exact Reach.new
  | step _ hl _ hc ih => exact ih.step hl hc

/-- Under the documented rule nodes not in use have zero registers (except for the free list). -/
theorem ReachClean.zero {z : T} {a : NodeAllocator T M N} {tr : List (Event T)}
    (h : ReachClean z a tr) (hN : 0 < N) :
    ∀ i r, i ∉ live tr → r ≠ 0 → r < N → lastReg tr i r = 0 := by
  induction h with
  | new => intros; rfl
  | @step a a' tr op out hprev hl hcl hc ih =>
    have hH := hprev.reach.hinv hN
    have key : ∀ {tr : List (Event T)} {i r v : Nat}, Mentionable tr i →
        (∀ k s, k ∉ live tr → s ≠ 0 → s < N → lastReg tr k s = 0) →
        (∀ k s, k ∉ live ((if i = 0 then [] else [Event.wroteReg i r v]) ++ tr) → s ≠ 0 → s < N →
          lastReg ((if i = 0 then [] else [Event.wroteReg i r v]) ++ tr) k s = 0) := by
      intro tr i r v hm hz k s hk h0 hs
      by_cases hi : i = 0
      · simp only [hi, if_true, List.nil_append] at hk ⊢; exact hz k s hk h0 hs
      · simp only [hi, if_false, List.singleton_append, live, lastReg] at hk ⊢
        rw [if_neg]
        · exact hz k s hk h0 hs
        · rintro ⟨rfl, _⟩; exact hk (hm.resolve_right hi)
    cases op with
    | add v =>
      intro k s hk h0 hs
      cases out with
      | index i =>
        simp only [events, List.singleton_append, live, List.mem_cons, not_or, lastReg] at hk ⊢
        rw [if_neg (by tauto)]; exact ih k s hk.2 h0 hs
      | value _ => exact ih k s hk h0 hs
      | unit => exact ih k s hk h0 hs
    | remove i =>
      intro k s hk h0 hs
      simp only [events, List.singleton_append, live, lastReg] at hk ⊢
      by_cases hki : k = i
      · subst hki; exact hcl s hs
      · exact ih k s (fun h => hk ((List.mem_erase_of_ne hki).2 h)) h0 hs
    | setRegister i v r => exact key hl.1 ih
    | clearRegister i r => exact key hl.1 ih
    | connect i j rI rJ =>
      simp only [events, List.append_assoc]
      exact key (mentionable_append hl.2.1) (key hl.1 ih)
    | disconnect i j rI rJ =>
      simp only [events, List.append_assoc]
      exact key (mentionable_append hl.2.1) (key hl.1 ih)
    | setValue i v =>
      intro k s hk h0 hs
      simp only [events, List.singleton_append, live, lastReg] at hk ⊢
      exact ih k s hk h0 hs

theorem addAll_spec {a : NodeAllocator T M N} {free live : List Nat} (hN : 0 < N)
    (h : AInv a free live) : ∀ (vs : List T), vs.length + live.length ≤ usable M →
    ∃ a' is free', addAll a vs = .ok (a', is) ∧ is.length = vs.length ∧ (is ++ live).Nodup ∧
      AInv a' free' (is.reverse ++ live) := by
  intro vs
  induction vs generalizing a free live with
  | nil =>
    intro _
    exact ⟨a, [], free, rfl, rfl, (List.nodup_append.1 h.nodup).2.1, h⟩
  | cons v vs ih =>
    intro hle
    simp at hle
    obtain ⟨a', i, e, hi, hnl, h1, h2, hinv, hr, hv⟩ := addNode_usable h hN (by omega) v
    obtain ⟨a'', is, free', e', hlen, hnd, hinv'⟩ := ih hinv (by simp; omega)
    refine ⟨a'', i :: is, free', ?_, by simp [hlen], ?_, ?_⟩
    · simp [addAll, e, e']
    · exact (List.perm_middle.nodup_iff).1 hnd
    · simpa using hinv'

end Sokoban.AllocSpec
