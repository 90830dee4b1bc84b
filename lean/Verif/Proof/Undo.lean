import Verif.Proof.KeepInsert
import Verif.Proof.HashTableHist
import Verif.Proof.DequeHist

/-
A representation determines the links: two allocators with the same live nodes and (nearly) the same free list
have the same registers, and so have two hash tables with the same chains and two deques with the same elements.
-/
namespace Sokoban.NodeAllocator
variable {T : Type} {M N : Nat}

theorem FreeChain.regs {a a' : NodeAllocator T M N} (hb : a'.bumpIndex = a.bumpIndex) :
    ∀ {F : List Nat} {h h' : Nat}, a.FreeChain h F → a'.FreeChain h' F → ∀ j ∈ F, a'.reg j 0 = a.reg j 0
  | [], _, _, _, _, _, hj => by cases hj
  | i :: F, h, h', hc, hc', j, hj => by
    rcases List.mem_cons.1 hj with rfl | hj
    · have e1 := hc.2
      have e2 := hc'.2
      cases F with
      | nil => simp only [FreeChain] at e1 e2; omega
      | cons x F => rw [e1.1, e2.1]
    · exact FreeChain.regs hb hc.2 hc'.2 j hj

/-- The registers of the nodes not in use, from the free list. Either the free list is the same, or it has become
the first slot that was never used before. -/
theorem regs_free {a a' : NodeAllocator T M N} {F F' live : List Nat} {S : Nat → Prop} (h : AInv a F live) (h' : AInv a' F' live)
    (hc : Clean a S live) (hc' : Clean a' S live) (hF : F' = F ∨ F = [] ∧ F' = [a.bumpIndex]) {j r : Nat} (hj : j ∉ live)
    (hS : S r) (hji : F' = F ∨ j ≠ a.bumpIndex) : a'.reg j r = a.reg j r := by
  by_cases hr : r = 0
  · subst hr
    have l1 := h.length_eq
    have l2 := h'.length_eq
    have p1 := h.bump_pos
    have p2 := h'.bump_pos
    by_cases h0 : j = 0
    · subst h0; simp only [reg_zero]
    rcases hF with rfl | ⟨rfl, rfl⟩
    · have hb : a'.bumpIndex = a.bumpIndex := by omega
      by_cases hlt : j < a.bumpIndex
      · have hm := (h.mem j).2 ⟨by omega, hlt⟩
        rw [List.mem_append] at hm
        exact FreeChain.regs hb h.chain h'.chain j (hm.resolve_right hj)
      · rw [hc j 0 hj hS (Or.inr (by omega)), hc' j 0 hj hS (Or.inr (by omega))]
    · have hb : a'.bumpIndex = a.bumpIndex + 1 := by simp at l1 l2; omega
      have hne : j ≠ a.bumpIndex := hji.resolve_left (by simp)
      by_cases hlt : j < a.bumpIndex
      · exact absurd ((h.mem j).2 ⟨by omega, hlt⟩) (by simpa using hj)
      · rw [hc j 0 hj hS (Or.inr (by omega)), hc' j 0 hj hS (Or.inr (by omega))]
  · rw [hc j r hj hS (Or.inl hr), hc' j r hj hS (Or.inl hr)]

/-- which slot was handed out, from the invariants before and after -/
theorem AInv.handed {a a1 : NodeAllocator T M N} {F live : List Nat} {i : Nat} (h : AInv a F live)
    (h1 : AInv a1 F.tail (i :: live)) : i = F.headD a.bumpIndex := by
  have l1 := h.length_eq
  have l2 := h1.length_eq
  have p1 := h.bump_pos
  have p2 := h1.bump_pos
  have hm := (h1.mem i).1 (by simp)
  have hn := h1.nodup
  rw [List.nodup_append] at hn
  have hil : i ∉ live := (List.nodup_cons.1 hn.2.1).1
  cases F with
  | nil =>
    simp at l1 l2 ⊢
    have hb : a1.bumpIndex = a.bumpIndex + 1 := by omega
    by_cases hlt : i < a.bumpIndex
    · exact absurd ((h.mem i).2 ⟨hm.1, hlt⟩) (by simpa using hil)
    · omega
  | cons f F =>
    simp at l1 l2 ⊢
    have hi := (h.mem i).2 ⟨hm.1, by omega⟩
    have hiF : i ∉ F := fun hc => hn.2.2 i hc i (by simp) rfl
    rw [List.cons_append, List.mem_cons, List.mem_append] at hi
    tauto

/-- taking a slot and giving it back -/
theorem AInv.undone {a a1 a2 : NodeAllocator T M N} {F live : List Nat} {i : Nat} (h : AInv a F live)
    (h1 : AInv a1 F.tail (i :: live)) (h2 : AInv a2 (i :: F.tail) live) :
    (i :: F.tail = F ∨ F = [] ∧ i :: F.tail = [a.bumpIndex]) ∧ (i :: F.tail = F ∨ i = a.bumpIndex) ∧
      a2.freeListHead = a.freeListHead ∧ a2.freeListHead = i := by
  have hi := h.handed h1
  have e2 : a2.freeListHead = i := h2.chain.1
  have e1 := h.chain
  cases F with
  | nil => simp only [List.headD] at hi; simp only [FreeChain] at e1; simp [hi, e2, e1]
  | cons f F => simp only [List.headD] at hi; simp [hi, e2, e1.1]

/-- equal registers and values are seen by the reading functions -/
theorem getRegister_congr {a a' : NodeAllocator T M N} {j r : Nat} (hr : r < N) (h : a'.reg j r = a.reg j r) :
    a'.getRegister j r = a.getRegister j r := by
  by_cases hj : j ≤ M
  · rw [getRegister_ok a hj hr, getRegister_ok a' hj hr, h]
  · unfold getRegister get SENTINEL
    rw [if_pos (by omega), if_pos (by omega), dif_neg (by omega), dif_neg (by omega)]

end Sokoban.NodeAllocator

namespace Sokoban

theorem DSeg.regs {reg reg' : Nat → Nat → Nat} : ∀ {l : List Nat} {p q : Nat}, DSeg reg p l q → DSeg reg' p l q →
    ∀ i ∈ l, reg' i 0 = reg i 0 ∧ reg' i 1 = reg i 1
  | [], _, _, _, _, _, hi => by cases hi
  | x :: l, p, q, h, h', i, hi => by
    rcases List.mem_cons.1 hi with rfl | hi
    · exact ⟨h'.1.trans h.1.symm, h'.2.1.trans h.2.1.symm⟩
    · exact DSeg.regs h.2.2 h'.2.2 i hi

end Sokoban

namespace Sokoban.HashTable
open NodeAllocator
variable {K V : Type} {B M : Nat} {hash : K → Nat}

/-- what is known about the free list may be made explicit -/
theorem HRep.exactly {h : HashTable K V B M} {c : Nat → List (Ent K V)} (H : HRep hash h c) {F : List Nat}
    (hF : AInv h.allocator F (ids (all B c))) : HRep (kn := .exactly F) hash h c :=
  @HRep.mk _ _ _ _ (.exactly F) _ _ _ (@HHeld.mk _ _ _ _ (.exactly F) _ _ _ _ H.pos
    ⟨F, fun G hG => by cases hG; rfl, hF⟩ H.clean H.seg H.head H.vals H.home
    fun _ h => nomatch h) H.keys

theorem HRep.ainv {h : HashTable K V B M} {c : Nat → List (Ent K V)} {F : List Nat} {kn : Known} (hk : kn.list = some F)
    (H : HRep (kn := kn) hash h c) (hL : kn.lost = [] := by rfl) : AInv h.allocator F (ids (all B c)) := by
  obtain ⟨G, hG, hi⟩ := H.known
  rw [← hG F hk]; rw [hL] at hi; exact hi

/-- the chains determine the links -/
theorem HRep.links {h h' : HashTable K V B M} {c : Nat → List (Ent K V)} (H : HRep hash h c)
    (H' : HRep hash h' c) {F F' : List Nat} (hF : AInv h.allocator F (ids (all B c)))
    (hF' : AInv h'.allocator F' (ids (all B c)))
    (hf : F' = F ∨ F = [] ∧ F' = [h.allocator.bumpIndex]) {j : Nat} (hj : F' = F ∨ j ≠ h.allocator.bumpIndex) :
    h'.getNext j = h.getNext j ∧ h'.getPrev j = h.getPrev j := by
  suffices hs : ∀ r, r < 2 → h'.allocator.reg j r = h.allocator.reg j r from
    ⟨getRegister_congr (by unfold RIGHT; omega) (hs 1 (by omega)), getRegister_congr (by unfold LEFT; omega) (hs 0 (by omega))⟩
  intro r hr
  by_cases hm : j ∈ ids (all B c)
  · obtain ⟨e, he, rfl⟩ := List.mem_map.1 hm
    obtain ⟨b, hb, he⟩ := mem_all.1 he
    have := DSeg.regs (H.seg b hb) (H'.seg b hb) e.1 (List.mem_map_of_mem he)
    rcases (by omega : r = 0 ∨ r = 1) with rfl | rfl
    · exact this.1
    · exact this.2
  · exact regs_free hF hF' H.clean H'.clean hf hm hr hj

theorem HRep.same_buckets {h h' : HashTable K V B M} {c : Nat → List (Ent K V)} (H : HRep hash h c)
    (H' : HRep hash h' c) : h'.buckets = h.buckets := by
  ext b hb
  rw [H.head b hb, H'.head b hb]

theorem updB_updB (c : Nat → List (Ent K V)) (b : Nat) (l : List (Ent K V)) : updB (updB c b l) b (c b) = c := by
  funext x
  unfold updB
  split <;> simp_all

/-- `insert` of a new key and `remove` of it -/
theorem insert_remove [DecidableEq K] {h h1 : HashTable K V B M} {c : Nat → List (Ent K V)} (H : HRep hash h c) (hM : M + 1 < 2 ^ 32)
    {k : K} {v : V} {i : Nat} (hk : ∀ e ∈ all B c, e.2.1 ≠ k) (e : h.insert hash k v = .ok (h1, some i)) :
    ∃ h2, h1.remove hash k = .ok (h2, some v) ∧ HRep hash h2 c ∧ h2.allocator.freeListHead = h.allocator.freeListHead ∧
      h.allocator.freeListHead = i ∧ ∀ j, j ≠ i → h2.getNext j = h.getNext j ∧ h2.getPrev j = h.getPrev j := by
  have hb : hash k % B < B := Nat.mod_lt _ H.pos
  have hf : (c (hash k % B)).find? (fun e => e.2.1 = k) = none := by
    rw [List.find?_eq_none]
    intro x hx
    simpa using hk x (mem_all.2 ⟨_, hb, hx⟩)
  obtain ⟨F, hF⟩ := H.inv
  have HF := H.exactly hF
  have hlt : (all B c).length < M := by
    rcases Nat.lt_or_ge (all B c).length M with hlt | hge
    · exact hlt
    · rw [insert_full_spec H v hge hf] at e
      cases e
  obtain ⟨h1', i', e', H1, hi⟩ := insert_new_spec HF hM v hk hlt hf
  rw [e] at e'; cases e'
  have hc1 : updB c (hash k % B) ((i, k, v) :: c (hash k % B)) (hash k % B) = [] ++ (i, k, v) :: c (hash k % B) := by
    simp [updB]
  obtain ⟨h2, e2, H2⟩ := remove_old_spec H1 hc1 (by rw [hc1]; simp)
  have hcc : updB (updB c (hash k % B) ((i, k, v) :: c (hash k % B))) (hash k % B) ([] ++ c (hash k % B)) = c :=
    updB_updB c _ _
  rw [hcc] at H2
  have A1 := H1.ainv (F := F.tail) rfl
  have A2 := H2.ainv (F := i :: F.tail) rfl
  have A1' : AInv h1.allocator F.tail (i :: ids (all B c)) := by
    obtain ⟨A, C, e1, e2⟩ := all_split c hb
    rw [e2] at A1
    rw [e1]
    refine A1.perm ?_
    simp
  obtain ⟨u1, u2, u3, u4⟩ := hF.undone A1' A2
  refine ⟨h2, e2, H2.forget, u3, u3.symm.trans u4, fun j hj => ?_⟩
  exact H.links H2.forget hF A2 u1 (u2.imp id fun hb hc => hj (hc.trans hb.symm))

/-- `remove` of the first entry of a chain and `insert` of it -/
theorem remove_insert [DecidableEq K] {h : HashTable K V B M} {c : Nat → List (Ent K V)} (H : HRep hash h c) (hM : M + 1 < 2 ^ 32)
    {k : K} {v : V} {i : Nat} {l : List (Ent K V)} (hc : c (hash k % B) = (i, k, v) :: l) :
    ∃ h1 h2, h.remove hash k = .ok (h1, some v) ∧ h1.insert hash k v = .ok (h2, some i) ∧ HRep hash h2 c ∧
      h2.allocator.freeListHead = h.allocator.freeListHead ∧ ∀ j, h2.getNext j = h.getNext j ∧ h2.getPrev j = h.getPrev j := by
  have hb : hash k % B < B := Nat.mod_lt _ H.pos
  obtain ⟨F, hF⟩ := H.inv
  have HF := H.exactly hF
  obtain ⟨h1, e1, H1⟩ := remove_old_spec (l1 := []) HF hc (by rw [hc]; simp)
  simp only [List.nil_append] at H1
  have hall : ∀ e ∈ all B (updB c (hash k % B) l), e.2.1 ≠ k := by
    intro e he hek
    obtain ⟨b, hb', he⟩ := mem_all.1 he
    have hh := H1.forget.home trivial b hb' e he
    rw [hek] at hh
    subst hh
    have hn := H.keys _ hb
    rw [hc] at hn
    simp only [updB, if_true] at he
    exact (List.nodup_cons.1 hn).1 (List.mem_map.2 ⟨e, he, hek⟩)
  have A1 := H1.ainv (F := i :: F) rfl
  obtain ⟨A, C, s1, s2⟩ := all_split c hb
  have hlt : (all B (updB c (hash k % B) l)).length < M := by
    have := H.le
    rw [s1, hc] at this
    rw [s2]
    simp at this ⊢
    omega
  obtain ⟨h2, i', e2, H2, hi⟩ := insert_new_spec H1 hM v hall hlt (by
    rw [List.find?_eq_none]
    intro x hx
    simpa using hall x (mem_all.2 ⟨_, hb, hx⟩))
  have A2 := H2.ainv (F := F) rfl
  have A2' : AInv h2.allocator F (i' :: ids (all B (updB c (hash k % B) l))) := by
    obtain ⟨A', C', t1, t2⟩ := all_split (updB c (hash k % B) l) hb
    rw [t2] at A2
    rw [t1]
    refine A2.perm ?_
    simp
  have hii : i' = i := A1.handed A2'
  subst hii
  have hcc : updB (updB c (hash k % B) l) (hash k % B) ((i', k, v) :: updB c (hash k % B) l (hash k % B)) = c := by
    rw [show updB c (hash k % B) l (hash k % B) = l by simp [updB], ← hc]
    exact updB_updB c _ _
  rw [hcc] at H2 A2
  have hh : h2.allocator.freeListHead = h.allocator.freeListHead := by
    have c1 := hF.chain
    have c2 := A2.chain
    have l1 : F.length + (ids (all B c)).length = _ := hF.length_eq
    have l2 := A2.length_eq
    cases F with
    | nil => simp only [FreeChain] at c1 c2; have := hF.bump_pos; have := A2.bump_pos; omega
    | cons f F => exact c2.1.trans c1.1.symm
  exact ⟨h1, h2, e1, e2, H2.forget, hh, fun j => H.links H2.forget hF A2 (Or.inl rfl) (Or.inl rfl)⟩

end Sokoban.HashTable

namespace Sokoban.Deque
open NodeAllocator
variable {T : Type} {M : Nat}

/-- the elements and their slots determine the links -/
theorem DRep.links {d d' : Deque T M} {l : List (Nat × T)} (h : DRep d l) (h' : DRep d' l) {F F' : List Nat}
    (hF : AInv d.allocator F (ids l)) (hF' : AInv d'.allocator F' (ids l))
    (hf : F' = F ∨ F = [] ∧ F' = [d.allocator.bumpIndex]) {j : Nat} (hj : F' = F ∨ j ≠ d.allocator.bumpIndex) :
    d'.getNext j = d.getNext j ∧ d'.getPrev j = d.getPrev j := by
  suffices hs : ∀ r, r < 2 → d'.allocator.reg j r = d.allocator.reg j r from
    ⟨getRegister_congr (by unfold NEXT; omega) (hs 1 (by omega)), getRegister_congr (by unfold PREV; omega) (hs 0 (by omega))⟩
  intro r hr
  by_cases hm : j ∈ ids l
  · have := DSeg.regs h.seg h'.seg j hm
    rcases (by omega : r = 0 ∨ r = 1) with rfl | rfl
    · exact this.1
    · exact this.2
  · exact regs_free hF hF' h.clean h'.clean hf hm hr hj

/-- What is the same in two deques, apart from the links of slot `i`. -/
structure Same (i : Option Nat) (d d' : Deque T M) : Prop where
  head : d'.head = d.head
  tail : d'.tail = d.tail
  len : d'.len = d.len
  free : d'.allocator.freeListHead = d.allocator.freeListHead
  links : ∀ j, some j ≠ i → d'.getNext j = d.getNext j ∧ d'.getPrev j = d.getPrev j

theorem same_of {d d' : Deque T M} {l : List (Nat × T)} (h : DRep d l) (h' : DRep d' l) {i : Option Nat}
    (hf : d'.allocator.freeListHead = d.allocator.freeListHead)
    (hl : ∀ j, some j ≠ i → d'.getNext j = d.getNext j ∧ d'.getPrev j = d.getPrev j) : Same i d d' where
  head := by rw [h.head, h'.head]
  tail := by rw [h.tail, h'.tail]
  len := by rw [h.len, h'.len]
  free := hf
  links := hl

theorem push_pop {d d1 d2 : Deque T M} {l l1 : List (Nat × T)} {i : Nat} (h : DRep d l) (h2 : DRep d2 l)
    (hp : (ids l1).Perm (i :: ids l)) (a1 : ∀ F, AInv d.allocator F (ids l) → AInv d1.allocator F.tail (ids l1))
    (a2 : ∀ F, AInv d1.allocator F (ids l1) → AInv d2.allocator (i :: F) (ids l)) :
    Same (some i) d d2 ∧ d.allocator.freeListHead = i := by
  obtain ⟨F, hF⟩ := h.inv
  have A1 := a1 F hF
  have A2 := a2 _ A1
  obtain ⟨u1, u2, u3, u4⟩ := hF.undone (A1.perm hp) A2
  exact ⟨same_of h h2 u3 fun j hj => h.links h2 hF A2 u1 (u2.imp id fun hb hc => hj (by rw [hc, hb])), u3.symm.trans u4⟩

theorem pushBack_popBack {d d1 : Deque T M} {l : List (Nat × T)} (h : DRep d l) (hM : M + 1 < 2 ^ 32)
    (hs : d.sequenceNumber + 2 < 2 ^ 64) {v : T} (e : d.pushBack v = .ok d1) :
    ∃ d2, d1.popBack = .ok (d2, some v) ∧ Same (some d.allocator.freeListHead) d d2 ∧ d1.tail = d.allocator.freeListHead ∧
      d2.sequenceNumber = d.sequenceNumber + 2 ∧ ∀ j, j ≠ d.allocator.freeListHead → d2.getNode j = d.getNode j := by
  have hlt : l.length < M := by
    rcases Nat.lt_or_ge l.length M with hlt | hge
    · exact hlt
    · rw [(push_full h hM (Nat.le_antisymm h.le hge) v).1] at e; cases e
  obtain ⟨d1', i, e', h1, hq, hf⟩ := pushBack_free h hM (by omega) hlt v
  rw [e] at e'; cases e'
  obtain ⟨d2, e2, h2, hq2, hf2⟩ := remove'_free (l1 := l) (l2 := []) h1 (by omega) (Or.inr rfl)
  have ht : d1.tail = i := by rw [h1.tail]; simp
  have hi : i ≠ 0 := by have := h1.range (i := i) (by simp); omega
  simp only [List.append_nil] at h2 hf2
  obtain ⟨s, hi'⟩ := push_pop h h2 (i := i) (by simp [List.perm_append_singleton]) (fun F hF => (hf F hF).2) hf2
  have e3 : d1.popBack = .ok (d2, some v) := by unfold popBack SENTINEL; rw [ht, if_neg hi, e2]
  refine ⟨d2, e3, by rw [hi']; exact s, by rw [ht, hi'], by omega, fun j hj => getValue_eq ?_⟩
  rw [(keep_popBack (f := Frame.vals d1.allocator.val?) (fun _ => rfl) _ e3).1 j,
    kept_pushBack (f := d.allocator.val?) (fun _ => rfl) e j]
  exact if_neg hj

theorem pushFront_popFront {d d1 : Deque T M} {l : List (Nat × T)} (h : DRep d l) (hM : M + 1 < 2 ^ 32)
    (hs : d.sequenceNumber + 2 < 2 ^ 64) {v : T} (e : d.pushFront v = .ok d1) :
    ∃ d2, d1.popFront = .ok (d2, some v) ∧ Same (some d.allocator.freeListHead) d d2 ∧ d1.head = d.allocator.freeListHead ∧
      d2.sequenceNumber = d.sequenceNumber + 2 ∧ ∀ j, j ≠ d.allocator.freeListHead → d2.getNode j = d.getNode j := by
  have hlt : l.length < M := by
    rcases Nat.lt_or_ge l.length M with hlt | hge
    · exact hlt
    · rw [(push_full h hM (Nat.le_antisymm h.le hge) v).2] at e; cases e
  obtain ⟨d1', i, e', h1, hq, hf⟩ := pushFront_free h hM (by omega) hlt v
  rw [e] at e'; cases e'
  obtain ⟨d2, e2, h2, hq2, hf2⟩ := remove'_free (l1 := []) (l2 := l) h1 (by omega) (Or.inl rfl)
  have ht : d1.head = i := by rw [h1.head]; simp
  have hi : i ≠ 0 := by have := h1.range (i := i) (by simp); omega
  simp only [List.nil_append] at h2 hf2
  obtain ⟨s, hi'⟩ := push_pop h h2 (i := i) (by simp) (fun F hF => (hf F hF).2) hf2
  have e3 : d1.popFront = .ok (d2, some v) := by unfold popFront SENTINEL; rw [ht, if_neg hi, e2]
  refine ⟨d2, e3, by rw [hi']; exact s, by rw [ht, hi'], by omega, fun j hj => getValue_eq ?_⟩
  rw [(keep_popFront (f := Frame.vals d1.allocator.val?) (fun _ => rfl) _ e3).1 j,
    kept_pushFront (f := d.allocator.val?) (fun _ => rfl) e j]
  exact if_neg hj

theorem pop_push {d d2 : Deque T M} {l : List (Nat × T)} (h : DRep d l) (h2 : DRep d2 l) {F : List Nat}
    (hF : AInv d.allocator F (ids l)) (A2 : AInv d2.allocator F (ids l)) : Same none d d2 := by
  refine same_of h h2 ?_ fun j _ => h.links h2 hF A2 (Or.inl rfl) (Or.inl rfl)
  have c1 := hF.chain
  have c2 := A2.chain
  have l1 := hF.length_eq
  have l2 := A2.length_eq
  cases F with
  | nil => simp only [FreeChain] at c1 c2; have := hF.bump_pos; have := A2.bump_pos; omega
  | cons f F => exact c2.1.trans c1.1.symm

theorem popBack_pushBack {d d1 : Deque T M} {l : List (Nat × T)} (h : DRep d l) (hM : M + 1 < 2 ^ 32)
    (hs : d.sequenceNumber + 2 < 2 ^ 64) {v : T} (e : d.popBack = .ok (d1, some v)) :
    ∃ d2, d1.pushBack v = .ok d2 ∧ Same none d d2 ∧ d2.sequenceNumber = d.sequenceNumber + 2 ∧
      ∀ j, d2.getNode j = d.getNode j := by
  rcases List.eq_nil_or_concat l with rfl | ⟨m, ⟨i, w⟩, rfl⟩
  · obtain ⟨_, e', _⟩ := popBack_spec h (by omega)
    rw [e] at e'; cases e'
  rw [List.concat_eq_append] at h
  obtain ⟨F, hF⟩ := h.inv
  have hle := h.le
  obtain ⟨d1', e1, h1, hq, hf⟩ := remove'_free (l1 := m) (l2 := []) h (by omega) (Or.inr rfl)
  have ht : d.tail = i := by rw [h.tail]; simp
  have hi : i ≠ 0 := by have := h.range (i := i) (by simp); omega
  have e0 := e
  unfold popBack SENTINEL at e
  rw [ht, if_neg hi, e1] at e
  cases e
  simp only [List.append_nil] at h1 hf
  obtain ⟨d2, i', e2, h2, hq2, hf2⟩ := pushBack_free h1 hM (by omega) (by simp at hle; omega) v
  obtain ⟨hi', A2⟩ := hf2 _ (hf F hF)
  simp only [List.headD, List.tail] at hi' A2
  subst hi'
  refine ⟨d2, e2, pop_push h h2 hF A2, by omega, fun j => getValue_eq ?_⟩
  by_cases hj : j = i'
  · subst hj
    rw [h.vals (j, v) (by simp), h2.vals (j, v) (by simp)]
  · have c1 := (hf F hF).chain.1
    rw [kept_pushBack (f := d1.allocator.val?) (fun _ => rfl) e2 j]
    unfold updAt
    rw [c1, if_neg hj]
    exact (keep_popBack (f := Frame.vals d.allocator.val?) (fun _ => rfl) _ e0).1 j

theorem popFront_pushFront {d d1 : Deque T M} {l : List (Nat × T)} (h : DRep d l) (hM : M + 1 < 2 ^ 32)
    (hs : d.sequenceNumber + 2 < 2 ^ 64) {v : T} (e : d.popFront = .ok (d1, some v)) :
    ∃ d2, d1.pushFront v = .ok d2 ∧ Same none d d2 ∧ d2.sequenceNumber = d.sequenceNumber + 2 ∧
      ∀ j, d2.getNode j = d.getNode j := by
  cases l with
  | nil =>
    obtain ⟨_, e', _⟩ := popFront_spec h (by omega)
    rw [e] at e'; cases e'
  | cons x m =>
  obtain ⟨i, w⟩ := x
  obtain ⟨F, hF⟩ := h.inv
  have hle := h.le
  obtain ⟨d1', e1, h1, hq, hf⟩ := remove'_free (l1 := []) (l2 := m) h (by omega) (Or.inl rfl)
  have ht : d.head = i := by rw [h.head]; simp
  have hi : i ≠ 0 := by have := h.range (i := i) (by simp); omega
  have e0 := e
  unfold popFront SENTINEL at e
  rw [ht, if_neg hi, e1] at e
  cases e
  simp only [List.nil_append] at h1 hf
  obtain ⟨d2, i', e2, h2, hq2, hf2⟩ := pushFront_free h1 hM (by omega) (by simp at hle; omega) v
  obtain ⟨hi', A2⟩ := hf2 _ (hf F hF)
  simp only [List.headD, List.tail] at hi' A2
  subst hi'
  refine ⟨d2, e2, pop_push h h2 hF A2, by omega, fun j => getValue_eq ?_⟩
  by_cases hj : j = i'
  · subst hj
    rw [h.vals (j, v) (by simp), h2.vals (j, v) (by simp)]
  · have c1 := (hf F hF).chain.1
    rw [kept_pushFront (f := d1.allocator.val?) (fun _ => rfl) e2 j]
    unfold updAt
    rw [c1, if_neg hj]
    exact (keep_popFront (f := Frame.vals d.allocator.val?) (fun _ => rfl) _ e0).1 j

end Sokoban.Deque
