import Verif.Spec.RBFull
import Verif.Proof.Amortised

/-
A red-black tree has a red node after the insertion of a new key.
-/
namespace Sokoban.Textbook.RBTree
variable {K : Type}

/-- some node is red -/
def Red : RBTree K → Prop
  | leaf => False
  | node c l _ r => c = true ∨ l.Red ∨ r.Red

/-- some node other than the root is red -/
def Below : RBTree K → Prop
  | leaf => False
  | node _ l _ r => l.Red ∨ r.Red

theorem Below.red {T : RBTree K} (h : T.Below) : T.Red := by
  cases T with
  | leaf => exact h.elim
  | node c l k r => exact Or.inr h

theorem Below.blacken {T : RBTree K} (h : T.Below) : T.blacken.Red := by
  cases T with
  | leaf => exact h.elim
  | node c l k r => exact Or.inr h

theorem not_red (T : RBTree K) (h : T.AllBlack) : ¬ T.Red := by
  induction T with
  | leaf => exact id
  | node c l k r h1 h2 =>
    rintro (q | q | q)
    · rw [h.1] at q; cases q
    · exact h1 h.2.1 q
    · exact h2 h.2.2 q

theorem Red.tag {T : RBTree K} (h : T.Red) : ∃ k, (k, true) ∈ T.tags := by
  induction T with
  | leaf => exact h.elim
  | node c l k r h1 h2 =>
    rcases h with q | q | q
    · exact ⟨k, by simp [tags, q]⟩
    · obtain ⟨x, hx⟩ := h1 q
      exact ⟨x, by simp [tags, hx]⟩
    · obtain ⟨x, hx⟩ := h2 q
      exact ⟨x, by simp [tags, hx]⟩

theorem fixL_below {l r : RBTree K} {k : K} (h : l.Red) : (fixL l k r).Below := by
  unfold fixL
  split
  · split <;> simp [Below, Red]
  · split <;> simp [Below, Red]
  · exact Or.inl h

theorem fixR_below {l r : RBTree K} {k : K} (h : r.Red) : (fixR l k r).Below := by
  unfold fixR
  split
  · split <;> simp [Below, Red]
  · split <;> simp [Below, Red]
  · exact Or.inr h

/-- the insertion of a new key leaves a red node below the root -/
theorem ins_below {cmp : K → Ordering} {k : K} : ∀ {T : RBTree K}, T.has cmp = false →
    (T.ins cmp k).Red ∧ (T ≠ leaf → (T.ins cmp k).Below)
  | leaf, _ => ⟨Or.inl rfl, fun h => absurd rfl h⟩
  | node c l x r, h => by
    have key : ((node c l x r).ins cmp k).Below := by
      unfold ins
      unfold has at h
      cases e : cmp x with
      | lt =>
        rw [e] at h
        have := (ins_below (k := k) h).1
        cases c
        · exact fixL_below this
        · exact Or.inl this
      | gt =>
        rw [e] at h
        have := (ins_below (k := k) h).1
        cases c
        · exact fixR_below this
        · exact Or.inr this
      | eq => rw [e] at h; cases h
    exact ⟨key.red, fun _ => key⟩

end Sokoban.Textbook.RBTree

namespace Sokoban.RedBlackTree
open BT Ctx NodeAllocator Ents MapSpec Textbook RedBlackSpec
variable {K V : Type} {M : Nat} {s : RedBlackTree K V M} {E : Ents K V} {T : RBTree K}

theorem HeldT.removeRoot_size (h : HeldT T s E) : T.removeRoot.size = E.length - 1 := by
  obtain ⟨t, hz, hg, hE, _, _, _, _, hT⟩ := h.tree
  cases t with
  | nil => rw [← hT, ← hE]; rfl
  | node l x r =>
    obtain ⟨s', t', _, hz', hg', hk'⟩ := removeTreeNode_spec (lim := M + 2) hz hg (by have := hz.lim_ok; omega)
    have h' : HeldT t'.rsk s' (l.ents ++ r.ents) := ⟨t', by simpa [Ctx.lft, Ctx.rgt] using hz', hg', rfl⟩
    have e : t'.rsk = T.removeRoot := by rw [← hT]; exact hk'
    rw [← e, h'.is.2.1, ← hE]
    simp only [BT.ents_node, List.length_append, List.length_cons]
    omega

section
variable [Ord K]

/-- one call -/
theorem HeldT.full (hM : M + 1 < 2 ^ 32) (hM2 : 2 ≤ M) (h : HeldT T s E) (hr : T.size = M → T.Red) (op : TOp K V)
    (hs : (T.step compare M op).size = M) : (T.step compare M op).Red := by
  have hsz := h.is.2.1
  have hle := h.held.base.le
  cases op with
  | removeRoot =>
    have h1 := h.removeRoot_size
    have h2 : T.removeRoot.size = M := hs
    omega
  | map op =>
    cases op with
    | getMut k v => exact hr hs
    | iterMut f => exact hr hs
    | remove k =>
      have h2 : (T.remove (compare k)).size = M := hs
      show (T.remove (compare k)).Red
      rcases h.find hM (by omega) k with ⟨_, _, ⟨_, h3⟩, _⟩ | ⟨L1, i, k', w, L2, h1, _, _, ⟨s', _, h5⟩, _⟩
      · rw [h3] at h2 ⊢; exact hr h2
      · have h6 := h5.is.2.1
        rw [h1] at hle
        simp only [List.length_append, List.length_cons] at h6 hle
        omega
    | insert k v =>
      have e : T.step compare M (.map (.insert k v) : TOp K V) =
        if T.size = M ∧ T.has (compare k) = false then T else T.insert (compare k) k := rfl
      rw [e] at hs ⊢
      split at hs
      · rename_i hc; rw [if_pos hc]; exact hr hs
      · rename_i hc
        rw [if_neg hc]
        rcases h.find hM (by omega) k with ⟨_, _, ⟨h2, _⟩, h4⟩ | ⟨L1, i, k', w, L2, _, _, _, _, ⟨_, h3⟩, _⟩
        · rcases h4 v with ⟨h5, _⟩ | ⟨_, s', i, L1, L2, h6, _, h7⟩
          · exact absurd ⟨hsz.trans h5, h2⟩ hc
          · have h8 := h7.is.2.1
            rw [h6] at hsz
            simp only [List.length_append, List.length_cons] at h8 hsz
            refine ((RBTree.ins_below h2).2 ?_).blacken
            rintro rfl
            have : (RBTree.leaf : RBTree K).size = 0 := rfl
            omega
        · rw [h3] at hs ⊢; exact hr hs

theorem run_full (hM : M + 1 < 2 ^ 32) (hM2 : 2 ≤ M) : ∀ (ops : List (TOp K V)) {s : RedBlackTree K V M} {E : Ents K V} {T : RBTree K},
    HeldT T s E → (T.size = M → T.Red) → (ops.foldl (RBTree.step compare M) T).size = M →
      (ops.foldl (RBTree.step compare M) T).Red
  | [], _, _, _, _, hr, hs => hr hs
  | op :: ops, s, E, T, h, hr, hs => by
    obtain ⟨s', o, E', _, h', _⟩ := h.call hM (by omega) op
    exact run_full hM hM2 ops h' (h.full hM hM2 hr op) hs

theorem new_full (hM : M + 1 < 2 ^ 32) (hM2 : 2 ≤ M) (z : RBNode K V) (ops : List (TOp K V)) {t : RedBlackTree K V M}
    {outs : List (TOut K V)} (hrun : run call (new z) ops = .ok (t, outs)) :
    ∃ T E, HeldT T t E ∧ (T.size = M → T.Red) := by
  obtain ⟨s, os, E, e, h⟩ := run_textbook (M := M) hM (by omega) z ops
  rw [hrun] at e; cases e
  exact ⟨_, E, h, run_full hM hM2 ops (HeldT.new z) (fun q => by
    have : (RBTree.leaf : RBTree K).size = 0 := rfl
    omega)⟩

/-- without removals -/
theorem HeldT.grown (hM : M + 1 < 2 ^ 32) (hM0 : 0 < M) (h : HeldT T s E) (hr : 2 ≤ T.size → T.Red) (op : TOp K V)
    (hop : Removal op = false) (hs : 2 ≤ (T.step compare M op).size) : (T.step compare M op).Red := by
  have hsz := h.is.2.1
  cases op with
  | removeRoot => cases hop
  | map op =>
    cases op with
    | getMut k v => exact hr hs
    | iterMut f => exact hr hs
    | remove k => cases hop
    | insert k v =>
      have e : T.step compare M (.map (.insert k v) : TOp K V) =
        if T.size = M ∧ T.has (compare k) = false then T else T.insert (compare k) k := rfl
      rw [e] at hs ⊢
      split at hs
      · rename_i hc; rw [if_pos hc]; exact hr hs
      · rename_i hc
        rw [if_neg hc]
        rcases h.find hM hM0 k with ⟨_, _, ⟨h2, _⟩, h4⟩ | ⟨L1, i, k', w, L2, _, _, _, _, ⟨_, h3⟩, _⟩
        · refine ((RBTree.ins_below h2).2 ?_).blacken
          rintro rfl
          have : ((RBTree.leaf : RBTree K).insert (compare k) k).size = 1 := rfl
          omega
        · rw [h3] at hs ⊢; exact hr hs

theorem run_grown (hM : M + 1 < 2 ^ 32) (hM0 : 0 < M) : ∀ (ops : List (TOp K V)) {s : RedBlackTree K V M} {E : Ents K V} {T : RBTree K},
    HeldT T s E → (2 ≤ T.size → T.Red) → (∀ op ∈ ops, Removal op = false) →
      2 ≤ (ops.foldl (RBTree.step compare M) T).size → (ops.foldl (RBTree.step compare M) T).Red
  | [], _, _, _, _, hr, _, hs => hr hs
  | op :: ops, s, E, T, h, hr, ho, hs => by
    obtain ⟨s', o, E', _, h', _⟩ := h.call hM hM0 op
    exact run_grown hM hM0 ops h' (h.grown hM hM0 hr op (ho op (by simp))) (fun o q => ho o (by simp [q])) hs

end

/-- a red node of the tree is seen in the memory -/
theorem red_of : ∀ {t : BT K V} {p n : Nat}, RBShape s.rg p t → (∀ i ∈ t.ids, 1 ≤ i ∧ i ≤ M) → RB t n →
    ∀ {k}, (k, true) ∈ t.rsk.tags → ∃ i v, (i, k, v) ∈ t.ents ∧ i ≠ 0 ∧ s.getColor i = .ok RED
  | .nil, _, _, _, _, _, _, h => by simp [RBTree.tags] at h
  | .node l x r, p, n, ⟨_, _, _, k4, k5, k6⟩, hr, hb, k, h => by
    have hrec : (∃ m, RB l m) ∧ ∃ m, RB r m := by
      rcases hb with ⟨h, _, _, h1, h2⟩ | ⟨h, m, _, h1, h2⟩
      · exact ⟨⟨_, h1⟩, _, h2⟩
      · exact ⟨⟨_, h1⟩, _, h2⟩
    obtain ⟨⟨m1, h1⟩, m2, h2⟩ := hrec
    simp only [BT.rsk_node, RBTree.tags, List.mem_append, List.mem_cons, Prod.mk.injEq] at h
    rcases h with h | ⟨hk, h⟩ | h
    · obtain ⟨i, v, q1, q2⟩ := red_of k5 (fun i hi => hr i (by simp [hi])) h1 h
      exact ⟨i, v, by simp [q1], q2⟩
    · have hx := hr x.idx (by simp)
      refine ⟨x.idx, x.val, by simp [GN.ent, hk], by omega, ?_⟩
      have ht : x.tag = 1 := by simpa using h.symm
      rw [getColor_ok hx.2, k4, ht]; rfl
    · obtain ⟨i, v, q1, q2⟩ := red_of k6 (fun i hi => hr i (by simp [hi])) h2 h
      exact ⟨i, v, by simp [q1], q2⟩

theorem Inv.red [LinearOrder K] (h : Inv s E) (hT : HeldT T s E) (hr : T.Red) : ∃ k, Coloured s k RED := by
  obtain ⟨t, hz, ⟨n, hb, _⟩, hE, _, _, _, _, e⟩ := hT.tree
  subst e
  obtain ⟨k, hk⟩ := hr.tag
  obtain ⟨i, v, q1, q2, q3⟩ := red_of hz.shape (fun i hi => hz.rng (Or.inl hi)) hb hk
  rw [hE] at q1
  exact ⟨k, i, (h.getAddr_iff q2).2 ⟨v, q1⟩, q2, q3⟩

end Sokoban.RedBlackTree
