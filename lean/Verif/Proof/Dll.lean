import Verif.Proof.Alloc

/-! Doubly linked lists in registers 0 (previous) and 1 (next); shared by the deque and the
hash table buckets. -/
namespace Sokoban

/-- The indices `l` form a doubly linked segment; the first one's predecessor is `p`, the last
one's successor is `q`. -/
def DSeg (reg : Nat → Nat → Nat) : Nat → List Nat → Nat → Prop
  | _, [], _ => True
  | p, i :: l, q => reg i 0 = p ∧ reg i 1 = l.headD q ∧ DSeg reg i l q

theorem getLastD_append_cons {α : Type} (l : List α) (i : α) (m : List α) (d : α) :
    (l ++ i :: m).getLastD d = m.getLastD i := by
  induction l generalizing d with
  | nil => cases m <;> rfl
  | cons x l ih =>
    have : (x :: l ++ i :: m).getLastD d = (l ++ i :: m).getLastD x := by
      cases l <;> rfl
    rw [this, ih]

theorem getLastD_concat' {α : Type} (l : List α) (x d : α) : (l ++ [x]).getLastD d = x := by
  rw [getLastD_append_cons]; rfl

theorem getLastD_mem {α : Type} {l : List α} (h : l ≠ []) (d : α) : l.getLastD d ∈ l := by
  rcases List.eq_nil_or_concat l with rfl | ⟨m, x, rfl⟩
  · exact absurd rfl h
  · simp only [List.concat_eq_append]; rw [getLastD_concat']; simp

namespace DSeg
variable {reg reg' : Nat → Nat → Nat}

theorem frame : ∀ {l : List Nat} {p q : Nat}, (∀ i ∈ l, reg' i 0 = reg i 0 ∧ reg' i 1 = reg i 1) →
    DSeg reg p l q → DSeg reg' p l q
  | [], _, _, _, _ => trivial
  | i :: l, p, q, hf, ⟨h1, h2, h3⟩ => by
    have := hf i (by simp)
    exact ⟨by rw [this.1, h1], by rw [this.2, h2], frame (fun j hj => hf j (by simp [hj])) h3⟩

theorem append_iff : ∀ {l m : List Nat} {p q : Nat},
    DSeg reg p (l ++ m) q ↔ DSeg reg p l (m.headD q) ∧ DSeg reg (l.getLastD p) m q
  | [], m, p, q => by simp [DSeg]
  | i :: l, m, p, q => by
    simp only [List.cons_append, DSeg, append_iff (l := l)]
    have h1 : (l ++ m).headD q = l.headD (m.headD q) := by cases l <;> rfl
    have h2 : (i :: l).getLastD p = l.getLastD i := by
      cases l <;> rfl
    rw [h1, h2]
    tauto

/-- Redirect the successor of the last element. -/
theorem set_next {l : List Nat} {p q q' : Nat} (hn : l.Nodup) (h : DSeg reg p l q)
    (h0 : ∀ i ∈ l, reg' i 0 = reg i 0)
    (h1 : ∀ i ∈ l, i ≠ l.getLastD 0 → reg' i 1 = reg i 1)
    (h2 : l ≠ [] → reg' (l.getLastD 0) 1 = q') : DSeg reg' p l q' := by
  rcases List.eq_nil_or_concat l with rfl | ⟨m, x, rfl⟩
  · trivial
  · simp only [List.concat_eq_append] at *
    rw [append_iff] at h ⊢
    have hx : (m ++ [x]).getLastD 0 = x := by simp
    rw [hx] at h1 h2
    have hxm : x ∉ m := by
      intro hm
      exact (List.nodup_append.1 hn).2.2 x hm x (by simp) rfl
    refine ⟨frame (fun i hi => ⟨h0 i (by simp [hi]), h1 i (by simp [hi]) ?_⟩) h.1, ?_, ?_, trivial⟩
    · rintro rfl; exact hxm hi
    · rw [h0 x (by simp)]; exact h.2.1
    · simpa using h2 (by simp)

/-- Redirect the predecessor of the first element. -/
theorem set_prev {l : List Nat} {p p' q : Nat} (hn : l.Nodup) (h : DSeg reg p l q)
    (h0 : ∀ i ∈ l, i ≠ l.headD 0 → reg' i 0 = reg i 0)
    (h1 : ∀ i ∈ l, reg' i 1 = reg i 1)
    (h2 : l ≠ [] → reg' (l.headD 0) 0 = p') : DSeg reg' p' l q := by
  cases l with
  | nil => trivial
  | cons x m =>
    have hxm : x ∉ m := (List.nodup_cons.1 hn).1
    refine ⟨h2 (by simp), by rw [h1 x (by simp)]; exact h.2.1, ?_⟩
    refine frame (fun i hi => ⟨h0 i (by simp [hi]) ?_, h1 i (by simp [hi])⟩) h.2.2
    rintro rfl; exact hxm hi

/-- Unlink `i` from the middle: the neighbours are connected to each other. -/
theorem unlink {l m : List Nat} {i : Nat} {p q : Nat} (hz : 0 ∉ l ++ m) (hn : (l ++ i :: m).Nodup)
    (h : DSeg reg p (l ++ i :: m) q)
    (h0 : ∀ j ∈ l ++ m, j ≠ m.headD 0 → reg' j 0 = reg j 0)
    (h1 : ∀ j ∈ l ++ m, j ≠ l.getLastD 0 → reg' j 1 = reg j 1)
    (h2 : l ≠ [] → reg' (l.getLastD 0) 1 = m.headD q)
    (h3 : m ≠ [] → reg' (m.headD 0) 0 = l.getLastD p) : DSeg reg' p (l ++ m) q := by
  rw [append_iff] at h ⊢
  obtain ⟨ha, hb⟩ := h
  obtain ⟨hn1, hn2, hd⟩ := List.nodup_append.1 hn
  refine ⟨set_next hn1 ha (fun j hj => h0 j (by simp [hj]) ?_) (fun j hj => h1 j (by simp [hj])) h2,
    set_prev (List.nodup_cons.1 hn2).2 hb.2.2 (fun j hj => h0 j (by simp [hj]))
      (fun j hj => h1 j (by simp [hj]) ?_) h3⟩
  · rintro rfl
    cases m with
    | nil => exact hz (by simpa using hj)
    | cons x m => exact hd x hj x (by simp) rfl
  · rintro rfl
    rcases List.eq_nil_or_concat l with rfl | ⟨l', x, rfl⟩
    · exact hz (by simpa using hj)
    · simp only [List.concat_eq_append] at *
      have hx : (l' ++ [x]).getLastD 0 = x := by simp
      rw [hx] at hj
      exact hd x (by simp) x (by simp [hj]) rfl

end DSeg
end Sokoban
