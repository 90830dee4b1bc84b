import Verif.Spec.Nav
import Verif.Proof.RBAny
import Verif.Proof.CritbitLaws
import Verif.Proof.HashTable

/-
The accessor functions for children and parents describe the ghost trees.
-/
namespace Sokoban
open Nav

namespace Nav
variable {left right parent : Nat → R Nat}

theorem climb_add (a b i : Nat) : climb parent (a + b) i = climb parent a i >>= climb parent b := by
  induction a generalizing i with
  | zero => simp [climb]
  | succ a ih =>
    rw [Nat.add_right_comm, climb, climb]
    cases parent i with
    | error e => rfl
    | ok j => exact ih j

theorem climb_one (i : Nat) : climb parent 1 i = parent i := by
  simp only [climb]
  cases parent i <;> rfl

theorem Linked.top {p i : Nat} {L : List Nat} (h : Linked left right parent p i L) (hi : i ≠ SENTINEL) :
    i ∈ L ∧ parent i = .ok p := by
  cases h with
  | none => exact absurd rfl hi
  | node h1 h2 => exact ⟨by simp, h2⟩

theorem Linked.empty {p i : Nat} {L : List Nat} (h : Linked left right parent p i L) : i = SENTINEL ↔ L = [] := by
  cases h with
  | none => simp
  | node h1 => simp [h1]

theorem Linked.not_sentinel {p i : Nat} {L : List Nat} (h : Linked left right parent p i L) : SENTINEL ∉ L := by
  induction h with
  | none => simp
  | node h1 _ _ _ _ _ i1 i2 => simp [i1, i2, Ne.symm h1]

/-- the node and its neighbours, seen from a node of the tree -/
theorem Linked.at {p i : Nat} {L : List Nat} (h : Linked left right parent p i L) (nd : L.Nodup) {j : Nat} (hj : j ∈ L) :
    ∃ q l r, parent j = .ok q ∧ left j = .ok l ∧ right j = .ok r ∧
      (l ≠ SENTINEL → parent l = .ok j ∧ ∃ a b c, L = a ++ l :: (b ++ j :: c)) ∧
      (r ≠ SENTINEL → parent r = .ok j ∧ ∃ a b c, L = a ++ j :: (b ++ r :: c)) ∧
      ((j = i ∧ q = p) ∨ (j ≠ i ∧
        ((left q = .ok j ∧ ∃ a b c, L = a ++ j :: (b ++ q :: c)) ∨ (right q = .ok j ∧ ∃ a b c, L = a ++ q :: (b ++ j :: c))))) := by
  induction h with
  | none => cases hj
  | @node p i l r A B h1 h2 h3 h4 h5 h6 i1 i2 =>
    obtain ⟨n1, n2, n3⟩ := List.nodup_append.1 nd
    obtain ⟨n4, n5⟩ := List.nodup_cons.1 n2
    have key : ∀ {l' r' : Nat} {L : List Nat}, Linked left right parent l' r' L → r' ≠ SENTINEL → ∃ a b, L = a ++ r' :: b :=
      fun h hr => List.append_of_mem (h.top hr).1
    rcases List.mem_append.1 hj with hjA | hjB
    · obtain ⟨q, x, y, e1, e2, e3, e4, e5, e6⟩ := i1 n1 hjA
      refine ⟨q, x, y, e1, e2, e3, ?_, ?_, Or.inr ⟨n3 _ hjA _ (by simp), ?_⟩⟩
      · intro hx
        obtain ⟨f1, a, b, c, rfl⟩ := e4 hx
        exact ⟨f1, a, b, c ++ i :: B, by simp⟩
      · intro hx
        obtain ⟨f1, a, b, c, rfl⟩ := e5 hx
        exact ⟨f1, a, b, c ++ i :: B, by simp⟩
      · rcases e6 with ⟨rfl, rfl⟩ | ⟨_, ⟨f1, a, b, c, rfl⟩ | ⟨f1, a, b, c, rfl⟩⟩
        · obtain ⟨a, b, e⟩ := List.append_of_mem hjA
          exact Or.inl ⟨h3, a, b, B, by rw [e]; simp⟩
        · exact Or.inl ⟨f1, a, b, c ++ i :: B, by simp⟩
        · exact Or.inr ⟨f1, a, b, c ++ i :: B, by simp⟩
    · rcases List.mem_cons.1 hjB with rfl | hjC
      · refine ⟨p, l, r, h2, h3, h4, ?_, ?_, Or.inl ⟨rfl, rfl⟩⟩
        · intro hx
          obtain ⟨a, b, rfl⟩ := key h5 hx
          exact ⟨(h5.top hx).2, a, b, B, by simp⟩
        · intro hx
          obtain ⟨a, b, rfl⟩ := key h6 hx
          exact ⟨(h6.top hx).2, A, a, b, by simp⟩
      · obtain ⟨q, x, y, e1, e2, e3, e4, e5, e6⟩ := i2 n5 hjC
        refine ⟨q, x, y, e1, e2, e3, ?_, ?_, Or.inr ⟨fun h => n4 (h ▸ hjC), ?_⟩⟩
        · intro hx
          obtain ⟨f1, a, b, c, rfl⟩ := e4 hx
          exact ⟨f1, A ++ i :: a, b, c, by simp⟩
        · intro hx
          obtain ⟨f1, a, b, c, rfl⟩ := e5 hx
          exact ⟨f1, A ++ i :: a, b, c, by simp⟩
        · rcases e6 with ⟨rfl, rfl⟩ | ⟨_, ⟨f1, a, b, c, rfl⟩ | ⟨f1, a, b, c, rfl⟩⟩
          · obtain ⟨a, b, e⟩ := List.append_of_mem hjC
            exact Or.inr ⟨h4, A, a, b, by rw [e]⟩
          · exact Or.inl ⟨f1, A ++ i :: a, b, c, by simp⟩
          · exact Or.inr ⟨f1, A ++ i :: a, b, c, by simp⟩

end Nav

namespace RedBlackTree
open BT
variable {K V : Type} {M : Nat} {s : RedBlackTree K V M}

theorem shape_linked {t : BT K V} {p : Nat} (h : RBShape s.rg p t) (hr : ∀ j ∈ t.ids, 1 ≤ j ∧ j ≤ M) :
    Linked s.getLeft s.getRight s.getParent p t.root t.ids := by
  induction t generalizing p with
  | nil => exact Linked.none p
  | node l x r ihl ihr =>
    obtain ⟨h1, h2, h3, _, h5, h6⟩ := h
    obtain ⟨x1, x2⟩ := hr x.idx (by simp)
    rw [ids_node]
    show Linked _ _ _ p x.idx _
    exact Linked.node (by simp [SENTINEL]; omega) (by rw [getParent_ok x2, h3]) (by rw [getLeft_ok x2, h1])
      (by rw [getRight_ok x2, h2]) (ihl h5 fun j hj => hr j (by simp [hj])) (ihr h6 fun j hj => hr j (by simp [hj]))

theorem shape_climb {t : BT K V} {p : Nat} (h : RBShape s.rg p t) (hr : ∀ j ∈ t.ids, 1 ≤ j ∧ j ≤ M) {i : Nat}
    (hi : i ∈ t.ids) : ∃ d, d < t.height ∧ climb s.getParent d i = .ok t.root := by
  induction t generalizing p with
  | nil => cases hi
  | node l x r ihl ihr =>
    obtain ⟨h1, h2, h3, _, h5, h6⟩ := h
    have step : ∀ {u : BT K V} {d : Nat}, RBShape s.rg x.idx u → (∀ j ∈ u.ids, 1 ≤ j ∧ j ≤ M) → i ∈ u.ids →
        climb s.getParent d i = .ok u.root → climb s.getParent (d + 1) i = .ok x.idx := by
      intro u d hu hur hiu e
      rw [climb_add, e]
      show climb s.getParent 1 u.root = _
      rw [climb_one]
      cases u with
      | nil => cases hiu
      | node l' y r' =>
        rw [BT.root, getParent_ok (hur y.idx (by simp)).2, hu.2.2.1]
    rw [ids_node] at hi
    have hl : ∀ j ∈ l.ids, 1 ≤ j ∧ j ≤ M := fun j hj => hr j (by simp [hj])
    have hr' : ∀ j ∈ r.ids, 1 ≤ j ∧ j ≤ M := fun j hj => hr j (by simp [hj])
    rcases List.mem_append.1 hi with hi | hi
    · obtain ⟨d, hd, e⟩ := ihl h5 hl hi
      exact ⟨d + 1, by simp only [BT.height]; omega, step h5 hl hi e⟩
    · rcases List.mem_cons.1 hi with rfl | hi
      · exact ⟨0, by simp only [BT.height]; omega, rfl⟩
      · obtain ⟨d, hd, e⟩ := ihr h6 hr' hi
        exact ⟨d + 1, by simp only [BT.height]; omega, step h6 hr' hi e⟩

theorem Held.linked {E : List (Nat × K × V)} (h : Held s E) :
    Linked s.getLeft s.getRight s.getParent SENTINEL s.root (E.map Prod.fst) ∧ (E.map Prod.fst).Nodup ∧
    (∀ i ∈ E.map Prod.fst, 1 ≤ i ∧ i ≤ M) ∧ (∀ e ∈ E, s.getNode e.1 = .ok ⟨e.2.1, e.2.2⟩) ∧
    ∀ i ∈ E.map Prod.fst, ∃ d, d < 2 * (E.length + 1).log2 ∧ climb s.getParent d i = .ok s.root := by
  obtain ⟨t, hz, hg, hE, hroot, _, _, _, hh⟩ := h.tree
  have hi : t.ids = E.map Prod.fst := by rw [← hE]; rfl
  rw [← hi, hroot]
  refine ⟨shape_linked hz.shape hz.range, ?_, hz.range, fun e he => getNode_ok h.base he, fun i hi => ?_⟩
  · rw [hi]; exact h.base.nodup
  · obtain ⟨d, hd, e⟩ := shape_climb hz.shape hz.range hi
    exact ⟨d, by omega, e⟩

end RedBlackTree

namespace Critbit
open CT
variable {V : Type} {N M : Nat} {s : Critbit V N M} {t : CT V}

/-- nodes from left to right -/
def inord : CT V → List Nat
  | .leaf i _ _ _ => [i]
  | .inner i _ _ l r => inord l ++ i :: inord r

theorem inord_perm (t : CT V) : (inord t).Perm t.ids := by
  induction t with
  | leaf => exact List.Perm.refl _
  | inner i p k l r ihl ihr =>
    exact List.perm_middle.trans ((ihl.append ihr).cons i)

theorem regs_ok {i r : Nat} (hi : i ≤ N) (hr : r < 4) :
    s.nodeAllocator.getRegister i r = .ok (s.nodeAllocator.reg i r) := NodeAllocator.getRegister_ok _ hi hr

theorem Sh.linked {p : Nat} (h : Sh s p t) : Linked s.getLeft s.getRight s.getParent p t.root (inord t) := by
  induction t generalizing p with
  | leaf i j k v =>
    have hi := h.range (CT.root_mem _)
    obtain ⟨h1, h2, h3, _⟩ := h
    exact Linked.node (A := []) (B := []) (by simp [SENTINEL]; simp at hi; omega) ((regs_ok hi.2 (by decide)).trans (by rw [← h3]; rfl))
      ((regs_ok hi.2 (by decide)).trans (congrArg _ h1)) ((regs_ok hi.2 (by decide)).trans (congrArg _ h2)) (Linked.none _) (Linked.none _)
  | inner i q k l r ihl ihr =>
    have hi := h.range (CT.root_mem _)
    obtain ⟨h1, h2, h3, _, _, h6, h7⟩ := h
    exact Linked.node (by simp [SENTINEL]; simp at hi; omega) ((regs_ok hi.2 (by decide)).trans (by rw [← h3]; rfl))
      ((regs_ok hi.2 (by decide)).trans (congrArg _ h1)) ((regs_ok hi.2 (by decide)).trans (congrArg _ h2)) (ihl h6) (ihr h7)

/-- what a node of the tree is -/
theorem Sh.kind {p : Nat} (h : Sh s p t) {i : Nat} (hi : i ∈ inord t) :
    (s.isInnerNode i = .ok true ∧ (∃ l r, s.getLeft i = .ok l ∧ s.getRight i = .ok r ∧ l ≠ SENTINEL ∧ r ≠ SENTINEL)) ∨
    (s.isInnerNode i = .ok false ∧ s.getLeft i = .ok SENTINEL ∧ s.getRight i = .ok SENTINEL ∧
      ∃ j k v, s.getKey i = .ok k ∧ (i, j, k, v) ∈ t.nents) := by
  induction t generalizing p with
  | leaf i' j k v =>
    have hr := h.range (CT.root_mem _)
    have hj := h.slot_range (j := j) (by simp)
    obtain ⟨h1, h2, h3, h4, h5, h6⟩ := h
    simp only [inord, List.mem_singleton] at hi
    subst hi
    refine Or.inr ⟨?_, (regs_ok hr.2 (by decide)).trans (congrArg _ h1), (regs_ok hr.2 (by decide)).trans (congrArg _ h2), j, k, v, ?_, by simp⟩
    · unfold isInnerNode
      simp only [root_leaf] at hr
      rw [show (VALUE : Nat) = 3 from rfl, regs_ok hr.2 (by decide)]
      simp only [h4]
      have : j ≠ SENTINEL := by simp [SENTINEL]; omega
      simp [this]
    · unfold getKey
      rw [NodeAllocator.getValue_ok _ h5]; rfl
  | inner i' q k l r ihl ihr =>
    have hr := h.range (CT.root_mem _)
    obtain ⟨h1, h2, h3, h4, h5, h6, h7⟩ := h
    simp only [inord, List.mem_append, List.mem_cons] at hi
    rcases hi with hi | rfl | hi
    · rcases ihl h6 hi with h | ⟨a, b, c, j, k', v, d, e⟩
      · exact Or.inl h
      · exact Or.inr ⟨a, b, c, j, k', v, d, by simp [e]⟩
    · refine Or.inl ⟨?_, _, _, (regs_ok hr.2 (by decide)).trans (congrArg _ h1), (regs_ok hr.2 (by decide)).trans (congrArg _ h2), h6.root_pos, h7.root_pos⟩
      unfold isInnerNode
      rw [show (VALUE : Nat) = 3 from rfl]
      simp only [root_inner] at hr
      rw [regs_ok hr.2 (by decide), h4]
      rfl
    · rcases ihr h7 hi with h | ⟨a, b, c, j, k', v, d, e⟩
      · exact Or.inl h
      · exact Or.inr ⟨a, b, c, j, k', v, d, by simp [e]⟩

theorem mem_inord {t : CT V} {n j : Nat} {k : BitVec 128} {v : V} (h : (n, j, k, v) ∈ t.nents) : n ∈ inord t :=
  (inord_perm t).mem_iff.2 (mem_nents h).2

/-- the keys of the leaves ascend -/
theorem Sh.ascending {p : Nat} (h : Sh s p t) (hr : Rad t) : (inord t).Pairwise fun i j =>
    s.isInnerNode i = .ok false → s.isInnerNode j = .ok false → ∀ k k', s.getKey i = .ok k → s.getKey j = .ok k' → k < k' := by
  induction t generalizing p with
  | leaf => exact List.pairwise_singleton _ _
  | inner i q k l r ihl ihr =>
    have hs := hr.sorted
    have hi : 1 ≤ i ∧ i ≤ N := h.range (CT.root_mem _)
    obtain ⟨_, _, _, h4, _, h6, h7⟩ := h
    obtain ⟨_, _, _, r4, r5⟩ := hr
    have hin : s.isInnerNode i = .ok true := by
      unfold isInnerNode
      rw [show (VALUE : Nat) = 3 from rfl, regs_ok hi.2 (by decide), h4]
      rfl
    simp only [inord, List.pairwise_append, List.pairwise_cons]
    refine ⟨ihl h6 r4, ⟨fun j _ hi => (by rw [hin] at hi; cases hi), ihr h7 r5⟩, ?_⟩
    intro a ha b hb ia ib k1 k2 e1 e2
    rcases List.mem_cons.1 hb with rfl | hb
    · rw [hin] at ib; cases ib
    · rcases h6.kind ha with ⟨h, _⟩ | ⟨_, _, _, j, k', v, d, e⟩
      · rw [h] at ia; cases ia
      rcases h7.kind hb with ⟨h, _⟩ | ⟨_, _, _, j', k'', v', d', e'⟩
      · rw [h] at ib; cases ib
      rw [e1] at d; cases d
      rw [e2] at d'; cases d'
      rw [ents_inner, List.pairwise_append] at hs
      exact hs.2.2 _ (mem_nents e).1 _ (mem_nents e').1

end Critbit

namespace HashTable
variable {K V : Type} {B M : Nat} {st : Prop} {hash : K → Nat} {h : HashTable K V B M} {c : Nat → List (Ent K V)}

theorem HHeld.links (H : HHeld st hash h c) {b : Nat} (hb : b < B) :
    (∀ n i, (ids (c b))[n]? = some i → h.getNext i = .ok ((ids (c b))[n + 1]?.getD SENTINEL)) ∧
    (∀ n i, (ids (c b))[n]? = some i → h.getPrev i = .ok (if n = 0 then SENTINEL else (ids (c b))[n - 1]?.getD SENTINEL)) := by
  have hsplit : ∀ n i, (ids (c b))[n]? = some i → ∃ l1 x l3, c b = l1 ++ x :: l3 ∧ l1.length = n ∧ x.1 = i ∧ i ≤ M := by
    intro n i hk
    have hm := H.range hb (List.mem_of_getElem? hk)
    simp only [ids, List.getElem?_map, Option.map_eq_some_iff] at hk
    obtain ⟨x, hx, rfl⟩ := hk
    obtain ⟨hlt, hx⟩ := List.getElem?_eq_some_iff.1 hx
    refine ⟨(c b).take n, x, (c b).drop (n + 1), ?_, by simp; omega, rfl, hm.2⟩
    rw [← hx, List.getElem_cons_drop, List.take_append_drop]
  constructor
  · intro n i hk
    obtain ⟨l1, x, l3, e, rfl, rfl, hM⟩ := hsplit n i hk
    have := (neighbours H hb e).2
    unfold getNext
    rw [NodeAllocator.getRegister_ok _ hM (by decide), show (RIGHT : Nat) = 1 from rfl, this, e]
    refine congrArg Except.ok ?_
    rw [show ids (l1 ++ x :: l3) = ids l1 ++ x.1 :: ids l3 by simp [ids], List.getElem?_append_right (by simp [ids])]
    cases l3 <;> simp [ids, SENTINEL]
  · intro n i hk
    obtain ⟨l1, x, l3, e, rfl, rfl, hM⟩ := hsplit n i hk
    have := (neighbours H hb e).1
    unfold getPrev
    rw [NodeAllocator.getRegister_ok _ hM (by decide), show (LEFT : Nat) = 0 from rfl, this, e]
    refine congrArg Except.ok ?_
    rcases List.eq_nil_or_concat l1 with rfl | ⟨m, y, rfl⟩
    · simp [ids, SENTINEL]
    · simp [ids]

end HashTable
end Sokoban
