import Verif.Proof.Textbook
import Verif.Spec.Amortised
import Verif.Proof.AVLLaws

/-
A potential for the heights of AVL trees: insertions change few of them on average.
-/
namespace Sokoban.Textbook.Tree
variable {K : Type}

/-- the keys in order, with what is stored as their height -/
def tags : Tree K → List (K × Nat)
  | leaf => []
  | node l k r => l.tags ++ (k, max l.height r.height) :: r.tags

/-- 1 for equal numbers -/
def same (a b : Nat) : Nat := if a = b then 1 else 0

theorem same_or (a b : Nat) : (a = b ∧ same a b = 1) ∨ (a ≠ b ∧ same a b = 0) := by
  unfold same
  by_cases h : a = b
  · exact Or.inl ⟨h, if_pos h⟩
  · exact Or.inr ⟨h, if_neg h⟩

/-- the number of nodes whose subtrees have the same height -/
def pot : Tree K → Nat
  | leaf => 0
  | node l _ r => same l.height r.height + l.pot + r.pot

/-- balance -/
def Bal : Tree K → Prop
  | leaf => True
  | node l _ r => l.height ≤ r.height + 1 ∧ r.height ≤ l.height + 1 ∧ l.Bal ∧ r.Bal

theorem height_leaf : (leaf : Tree K).height = 0 := rfl
theorem height_node (l : Tree K) (k : K) (r : Tree K) : (node l k r).height = max l.height r.height + 1 := rfl
theorem pot_node (l : Tree K) (k : K) (r : Tree K) :
    (node l k r).pot = same l.height r.height + l.pot + r.pot := rfl

/-- `T'` has few heights that `T` does not have, paid by the potential and `d` -/
def Cost (T' T : Tree K) (d : Nat) : Prop :=
  ∃ D : List (K × Nat), (∀ e ∈ T'.tags, e ∈ T.tags ∨ e ∈ D) ∧ D.length + T'.pot ≤ T.pot + d

theorem Cost.refl (T : Tree K) (d : Nat) : Cost T T d := ⟨[], fun e he => Or.inl he, by simp⟩

theorem Cost.mono {T' T : Tree K} {d d' : Nat} (h : Cost T' T d) (hd : d ≤ d') : Cost T' T d' := by
  obtain ⟨D, h1, h2⟩ := h
  exact ⟨D, h1, by omega⟩

/-- what an insertion makes of a tree -/
def InsOk (T T' : Tree K) : Prop :=
  (T'.height = T.height ∧ Cost T' T 7) ∨
  (T'.height = T.height + 1 ∧ Cost T' T 2 ∧
    (T = leaf ∨ ∃ a y b, T' = node a y b ∧ (a.height = b.height + 1 ∨ b.height = a.height + 1)))

theorem InsOk.left {l l' r : Tree K} {x : K} (hT : (node l x r).Bal) (h : InsOk l l') :
    InsOk (node l x r) (balance l' x r) := by
  obtain ⟨b1, b2, _, _⟩ := hT
  rcases h with ⟨h1, D, hD, hp⟩ | ⟨h1, ⟨D, hD, hp⟩, h3⟩
  · have e : balance l' x r = node l' x r := by
      unfold balance
      rw [if_neg (by omega), if_neg (by omega)]
    rw [e]
    refine Or.inl ⟨by rw [height_node, height_node, h1], D, ?_, by rw [pot_node, pot_node, h1]; omega⟩
    intro e he
    simp only [tags, List.mem_append, List.mem_cons, h1] at he ⊢
    rcases he with he | he | he
    · rcases hD e he with q | q <;> simp [q]
    all_goals simp [he]
  · by_cases hb : l.height = r.height + 1
    · -- rotation
      rcases h3 with h3 | ⟨a, y, b, rfl, h3⟩
      · subst h3; rw [height_leaf] at hb; omega
      · rw [height_node] at h1
        have hold : (y, max a.height b.height) ∈ l.tags ∨ (y, max a.height b.height) ∈ D := hD _ (by simp [tags])
        rcases h3 with h3 | h3
        · have e : balance (node a y b) x r = node a y (node b x r) := by
            unfold balance
            rw [if_pos (by rw [height_node]; omega)]
            simp only [leanLeft]
            rw [if_neg (by omega)]
            rfl
          rw [e]
          refine Or.inl ⟨by simp only [height_node]; omega, (x, max b.height r.height) :: D, ?_, ?_⟩
          · intro e he
            simp only [tags, List.mem_append, List.mem_cons, height_node] at he hD ⊢
            rcases he with he | he | he | he | he
            · rcases hD e (Or.inl he) with q | q <;> simp [q]
            · have : e = (y, max a.height b.height) := by rw [he]; congr 1; omega
              rw [← this] at hold
              rcases hold with q | q <;> simp [q]
            · rcases hD e (Or.inr (Or.inr he)) with q | q <;> simp [q]
            · simp [he]
            · simp [he]
          · simp only [pot_node, List.length_cons, height_node] at hp ⊢
            have q1 := same_or a.height (max b.height r.height + 1)
            have q2 := same_or b.height r.height
            omega
        · cases b with
          | leaf => rw [height_leaf] at h3; omega
          | node c z d =>
            rw [height_node] at h1 h3
            have e : balance (node a y (node c z d)) x r = node (node a y c) z (node d x r) := by
              unfold balance
              rw [if_pos (by rw [height_node, height_node]; omega)]
              simp only [leanLeft]
              rw [if_pos (by rw [height_node]; omega)]
              rfl
            rw [e]
            refine Or.inl ⟨by simp only [height_node]; omega,
              (y, max a.height c.height) :: (z, max (node a y c).height (node d x r).height) :: (x, max d.height r.height) :: D, ?_, ?_⟩
            · intro e he
              simp only [tags, List.mem_append, List.mem_cons] at he hD ⊢
              rcases he with (he | he | he) | he | he | he | he
              · rcases hD e (Or.inl he) with q | q <;> simp [q]
              · simp [he]
              · rcases hD e (Or.inr (Or.inr (Or.inl he))) with q | q <;> simp [q]
              · simp [he]
              · rcases hD e (Or.inr (Or.inr (Or.inr (Or.inr he)))) with q | q <;> simp [q]
              · simp [he]
              · simp [he]
            · simp only [pot_node, List.length_cons, height_node] at hp ⊢
              have q1 := same_or c.height d.height
              have q2 := same_or a.height c.height
              have q3 := same_or d.height r.height
              have q4 := same_or (max a.height c.height + 1) (max d.height r.height + 1)
              omega
    · have e : balance l' x r = node l' x r := by
        unfold balance
        rw [if_neg (by omega), if_neg (by omega)]
      rw [e]
      by_cases hq : l.height = r.height
      · refine Or.inr ⟨by simp only [height_node]; omega, ⟨(x, max l'.height r.height) :: D, ?_, ?_⟩,
          Or.inr ⟨_, _, _, rfl, Or.inl (by omega)⟩⟩
        · intro e he
          simp only [tags, List.mem_append, List.mem_cons] at he ⊢
          rcases he with he | he | he
          · rcases hD e he with q | q <;> simp [q]
          all_goals simp [he]
        · rw [pot_node, pot_node, List.length_cons]
          have q1 := same_or l.height r.height
          have q2 := same_or l'.height r.height
          omega
      · refine Or.inl ⟨by simp only [height_node]; omega, D, ?_, ?_⟩
        · intro e he
          simp only [tags, List.mem_append, List.mem_cons] at he ⊢
          rcases he with he | he | he
          · rcases hD e he with q | q <;> simp [q]
          · rw [show max l'.height r.height = max l.height r.height by omega] at he
            simp [he]
          · simp [he]
        · rw [pot_node, pot_node]
          have q1 := same_or l.height r.height
          have q2 := same_or l'.height r.height
          omega

/-! ### mirror images -/

/-- the mirror image -/
def flip : Tree K → Tree K
  | leaf => leaf
  | node l k r => node r.flip k l.flip

theorem flip_node (l : Tree K) (k : K) (r : Tree K) : (node l k r).flip = node r.flip k l.flip := rfl
theorem flip_flip (t : Tree K) : t.flip.flip = t := by
  induction t with
  | leaf => rfl
  | node l k r h1 h2 => rw [flip_node, flip_node, h1, h2]
theorem height_flip (t : Tree K) : t.flip.height = t.height := by
  induction t with
  | leaf => rfl
  | node l k r h1 h2 => rw [flip_node, height_node, height_node, h1, h2]; omega
theorem pot_flip (t : Tree K) : t.flip.pot = t.pot := by
  induction t with
  | leaf => rfl
  | node l k r h1 h2 =>
    rw [flip_node, pot_node, pot_node, h1, h2, height_flip, height_flip]
    have q1 := same_or l.height r.height
    have q2 := same_or r.height l.height
    omega
theorem mem_flip {t : Tree K} {e : K × Nat} : e ∈ t.flip.tags ↔ e ∈ t.tags := by
  induction t with
  | leaf => exact Iff.rfl
  | node l k r h1 h2 =>
    simp only [flip_node, tags, List.mem_append, List.mem_cons, h1, h2, height_flip, Nat.max_comm r.height]
    tauto
theorem Bal.flip : ∀ {t : Tree K}, t.Bal → t.flip.Bal
  | .leaf, h => h
  | .node l _ r, ⟨h1, h2, h3, h4⟩ => ⟨by rw [height_flip, height_flip]; exact h2, by rw [height_flip, height_flip]; exact h1, h4.flip, h3.flip⟩

theorem Cost.flip {T' T : Tree K} {d : Nat} (h : Cost T' T d) : Cost T'.flip T.flip d := by
  obtain ⟨D, h1, h2⟩ := h
  refine ⟨D, fun e he => ?_, by rw [pot_flip, pot_flip]; exact h2⟩
  rw [mem_flip] at he ⊢
  exact h1 e he

theorem InsOk.flip {T T' : Tree K} (h : InsOk T T') : InsOk T.flip T'.flip := by
  rcases h with ⟨h1, h2⟩ | ⟨h1, h2, h3⟩
  · exact Or.inl ⟨by rw [height_flip, height_flip]; exact h1, h2.flip⟩
  · refine Or.inr ⟨by rw [height_flip, height_flip]; exact h1, h2.flip, ?_⟩
    rcases h3 with rfl | ⟨a, y, b, rfl, h3⟩
    · exact Or.inl rfl
    · exact Or.inr ⟨_, _, _, rfl, by rw [height_flip, height_flip]; exact h3.symm⟩

theorem rotateRight_flip (t : Tree K) : rotateRight t.flip = (rotateLeft t).flip := by
  rcases t with _ | ⟨_ | _, _, _ | _⟩ <;> rfl
theorem rotateLeft_flip (t : Tree K) : rotateLeft t.flip = (rotateRight t).flip := by
  rcases t with _ | ⟨_ | _, _, _ | _⟩ <;> rfl
theorem leanLeft_flip (t : Tree K) : leanLeft t.flip = (leanRight t).flip := by
  cases t with
  | leaf => rfl
  | node l k r =>
    simp only [flip_node, leanLeft, leanRight, height_flip]
    split
    · rw [← flip_node, rotateLeft_flip]
    · rfl
theorem leanRight_flip (t : Tree K) : leanRight t.flip = (leanLeft t).flip := by
  cases t with
  | leaf => rfl
  | node l k r =>
    simp only [flip_node, leanLeft, leanRight, height_flip]
    split
    · rw [← flip_node, rotateRight_flip]
    · rfl
theorem balance_flip (l : Tree K) (k : K) (r : Tree K) : balance r.flip k l.flip = (balance l k r).flip := by
  unfold balance
  rw [height_flip, height_flip, leanLeft_flip, leanRight_flip]
  by_cases h1 : l.height + 1 < r.height
  · rw [if_pos h1, if_neg (by omega), if_pos h1, ← flip_node, rotateRight_flip]
  · rw [if_neg h1]
    by_cases h2 : r.height + 1 < l.height
    · rw [if_pos h2, if_pos h2, ← flip_node, rotateLeft_flip]
    · rw [if_neg h2, if_neg h2, if_neg h1]; rfl

theorem InsOk.right {l r r' : Tree K} {x : K} (hT : (node l x r).Bal) (h : InsOk r r') :
    InsOk (node l x r) (balance l x r') := by
  have := (InsOk.left (x := x) hT.flip h.flip).flip
  rwa [balance_flip, flip_flip, flip_node, flip_flip, flip_flip] at this

theorem ins_ok (cmp : K → Ordering) (k : K) : ∀ {T : Tree K}, T.Bal → InsOk T (T.insert cmp k)
  | .leaf, _ => Or.inr ⟨rfl, ⟨[(k, 0)], by simp [tags, insert, height], by simp [insert, pot, height, same]⟩, Or.inl rfl⟩
  | .node l x r, h => by
    simp only [insert]
    cases cmp x with
    | lt => exact InsOk.left h (ins_ok cmp k h.2.2.1)
    | gt => exact InsOk.right h (ins_ok cmp k h.2.2.2)
    | eq => exact Or.inl ⟨rfl, Cost.refl _ _⟩

theorem step_cost {V : Type} (cmp : K → K → Ordering) (M : Nat) {T : Tree K} (h : T.Bal) (op : MapSpec.Op K V)
    (hk : AVLSpec.Keeps op) : Cost (T.step cmp M op) T (AVLSpec.allowance op) := by
  cases op with
  | insert k v =>
    simp only [step]
    split
    · exact Cost.refl _ _
    · rcases ins_ok (cmp k) k h with ⟨_, h1⟩ | ⟨_, h1, _⟩
      · exact h1
      · exact h1.mono (show 2 ≤ 7 by decide)
  | remove k => exact absurd hk (fun h => h)
  | getMut k f => exact Cost.refl _ _
  | iterMut es => exact Cost.refl _ _

theorem pot_le (T : Tree K) : T.pot ≤ T.size := by
  induction T with
  | leaf => simp [pot]
  | node l k r h1 h2 => rw [pot_node, size]; have q := same_or l.height r.height; omega

end Sokoban.Textbook.Tree

namespace Sokoban
open BT Ctx NodeAllocator Ents MapSpec Textbook AVLSpec

theorem avl_tags_keys {K : Type} (T : Tree K) : T.tags.map Prod.fst = T.keys := by
  induction T with
  | leaf => rfl
  | node l k r h1 h2 => simp [Tree.tags, Tree.keys, h1, h2]

theorem BT.sk_bal {K V : Type} : ∀ {t : BT K V}, AVL t → t.sk.Bal
  | .nil, _ => trivial
  | .node _ _ _, ⟨_, h2, h3, h4, h5⟩ => ⟨by rw [height_sk, height_sk]; exact h2, by rw [height_sk, height_sk]; exact h3, sk_bal h4, sk_bal h5⟩

namespace AVLTree
variable {K V : Type} {M : Nat} {s : AVLTree K V M} {E : Ents K V}

theorem tag_of : ∀ {t : BT K V}, AShape s.rg t → (∀ i ∈ t.ids, 1 ≤ i ∧ i ≤ M) → AVL t →
    ∀ {i k v}, (i, k, v) ∈ t.ents → ∃ b : Nat, (k, b) ∈ t.sk.tags ∧ s.getField i HEIGHT = .ok b
  | .nil, _, _, _, _, _, _, h => by simp at h
  | .node l x r, ⟨_, _, k3, k4, k5⟩, hr, ⟨g1, _, _, g4, g5⟩, i, k, v, h => by
    simp only [BT.ents_node, List.mem_append, List.mem_cons] at h
    rcases h with h | h | h
    · obtain ⟨b, q1, q2⟩ := tag_of k4 (fun i hi => hr i (by simp [hi])) g4 h
      exact ⟨b, by simp [Tree.tags, q1], q2⟩
    · have hx := hr x.idx (by simp)
      cases h
      refine ⟨max l.height r.height, by simp [Tree.tags, BT.height_sk], ?_⟩
      show s.getField x.idx _ = _
      rw [HEIGHT, getField_ok hx.2 (by decide), k3, g1]
    · obtain ⟨b, q1, q2⟩ := tag_of k5 (fun i hi => hr i (by simp [hi])) g5 h
      exact ⟨b, by simp [Tree.tags, q1], q2⟩

variable [LinearOrder K]

theorem Inv.heights (h : Inv s E) : ∃ T, HeldT T s E ∧ T.Bal ∧ (T.tags.map Prod.fst).Nodup ∧
    ∀ k c, High s k c → (k, c) ∈ T.tags := by
  obtain ⟨t, hz, hg, hs, hE, _⟩ := h.tree
  refine ⟨t.sk, ⟨t, hz, hg, rfl⟩, sk_bal hg, ?_, ?_⟩
  · rw [avl_tags_keys, keys_sk, hE]
    have hs' : (E.map fun e => e.2.1).Pairwise (· < ·) := by rw [List.pairwise_map]; exact hs
    exact hs'.imp (fun h => ne_of_lt h)
  · rintro k c ⟨i, e1, h1, e2⟩
    obtain ⟨v, hv⟩ := (h.getAddr_iff h1).1 e1
    rw [← hE] at hv
    obtain ⟨b, q1, q2⟩ := tag_of hz.shape (fun i hi => hz.rng (Or.inl hi)) hg hv
    rw [e2] at q2
    injection q2 with q2
    rw [q2]; exact q1

/-- one call -/
theorem Inv.rewrite (hM : M + 1 < 2 ^ 32) (hM0 : 0 < M) (h : Inv s E) {T : Tree K} (hT : HeldT T s E) (m : FMap K V)
    (hm : m.Lists (E.map Prod.snd)) {op : Op K V} (hk : Keeps op) {s' : AVLTree K V M} {o : Out K V} (e : call s op = .ok (s', o)) :
    ∃ (E' : Ents K V) (T' : Tree K) (m' : FMap K V), Inv s' E' ∧ HeldT T' s' E' ∧ m'.Lists (E'.map Prod.snd) ∧
      ∀ L, Rewritten s s' L → L.length + T'.pot ≤ T.pot + allowance op := by
  obtain ⟨s1, o1, E1, e1, hT1, _⟩ := hT.call hM hM0 op
  rw [e] at e1; cases e1
  obtain ⟨s2, o2, E2, m2, e2, h2, hm2, _⟩ := call_spec hM hM0 s E m op h hm
  rw [e] at e2; cases e2
  obtain ⟨T0, hT0, hok, hnd, hc⟩ := h.heights
  have e0 : T0 = T := hT0.is.1.unique hT.is.1
  subst e0
  obtain ⟨T2, hT2, _, _, hc2⟩ := h2.heights
  have e3 : T2 = T0.step order M op := hT2.is.1.unique hT1.is.1
  refine ⟨E2, T2, m2, h2, hT2, hm2, fun L hL => ?_⟩
  obtain ⟨D, hD, hp⟩ := Tree.step_cost order M hok op hk
  rw [← e3] at hD hp
  have hsub : L ⊆ D.map Prod.fst := by
    intro k hk
    obtain ⟨c, c', q1, q2, q3⟩ := hL.2 k hk
    rcases hD _ (hc2 k c' q2) with q | q
    · have hf := List.inj_on_of_nodup_map hnd (hc k c q1) q rfl
      injection hf with _ hf
      exact absurd hf q3
    · exact List.mem_map_of_mem (f := Prod.fst) q
  have hlen := (hL.1.subperm hsub).length_le
  rw [List.length_map] at hlen
  omega

theorem rewritings_le (hM : M + 1 < 2 ^ 32) (hM0 : 0 < M) {ops : List (Op K V)} {n : Nat} (hr : Rewritings s ops n) :
    ∀ {E : Ents K V} {T : Tree K} {m : FMap K V}, Inv s E → HeldT T s E → m.Lists (E.map Prod.snd) → (∀ op ∈ ops, Keeps op) →
      n ≤ (ops.map allowance).sum + T.pot := by
  induction hr with
  | done s => intro E T m _ _ _ _; simp
  | call e hL _ ih =>
    intro E T m h hT hm hk
    obtain ⟨E', T', m', h', hT', hm', hc⟩ := h.rewrite hM hM0 hT m hm (hk _ (by simp)) e
    have h1 := ih h' hT' hm' (fun op ho => hk op (by simp [ho]))
    have h2 := hc _ hL
    simp only [List.map_cons, List.sum_cons]
    omega

end AVLTree
end Sokoban
