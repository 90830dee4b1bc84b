import Verif.Spec.Mirror
import Verif.Proof.RBDeep
import Verif.Proof.AVLPerfect

/-
Insertions and mirror images.
-/
namespace Sokoban.Textbook
variable {K V : Type}

namespace RBTree

@[simp] theorem isRed_mirror (T : RBTree K) : T.mirror.isRed = T.isRed := by cases T <;> rfl
@[simp] theorem blacken_mirror (T : RBTree K) : T.blacken.mirror = T.mirror.blacken := by cases T <;> rfl
theorem size_mirror (T : RBTree K) : T.mirror.size = T.size := by
  induction T with
  | leaf => rfl
  | node c l k r h1 h2 => simp only [mirror, size, h1, h2]; omega

theorem has_mirror (cmp : K → Ordering) (T : RBTree K) : T.mirror.has (fun x => (cmp x).swap) = T.has cmp := by
  induction T with
  | leaf => rfl
  | node c l k r h1 h2 => simp only [mirror, has]; cases cmp k <;> simp [h1, h2]

theorem fixL_mirror (l : RBTree K) (k : K) (r : RBTree K) : (fixL l k r).mirror = fixR r.mirror k l.mirror := by
  rcases l with _ | ⟨_ | _, a, x, b⟩
  · simp [fixL, fixR, mirror]
  · simp [fixL, fixR, mirror]
  · rcases a with _ | ⟨_ | _, a1, y, a2⟩ <;> rcases b with _ | ⟨_ | _, b1, w, b2⟩ <;> simp only [fixL, fixR, mirror, isRed_mirror] <;>
      first | rfl | (split <;> simp [mirror])

theorem fixR_mirror (l : RBTree K) (k : K) (r : RBTree K) : (fixR l k r).mirror = fixL r.mirror k l.mirror := by
  rcases r with _ | ⟨_ | _, a, x, b⟩
  · simp [fixL, fixR, mirror]
  · simp [fixL, fixR, mirror]
  · rcases a with _ | ⟨_ | _, a1, y, a2⟩ <;> rcases b with _ | ⟨_ | _, b1, w, b2⟩ <;> simp only [fixL, fixR, mirror, isRed_mirror] <;>
      first | rfl | (split <;> simp [mirror])

theorem ins_mirror (cmp : K → Ordering) (k : K) (T : RBTree K) : (T.ins cmp k).mirror = T.mirror.ins (fun x => (cmp x).swap) k := by
  induction T with
  | leaf => rfl
  | node c l x r h1 h2 =>
    simp only [mirror, ins]
    cases cmp x with
    | lt => cases c <;> simp [mirror, fixL_mirror, h1]
    | gt => cases c <;> simp [mirror, fixR_mirror, h2]
    | eq => simp [mirror]

theorem step_mirror (cmp cmp' : K → K → Ordering) (hc : ∀ a b, cmp' a b = (cmp a b).swap) (M : Nat) (T : RBTree K)
    {op : RedBlackSpec.TOp K V} (ho : RedBlackSpec.Removal op = false) : (T.step cmp M op).mirror = T.mirror.step cmp' M op := by
  have e : cmp' = fun a b => (cmp a b).swap := by funext a b; exact hc a b
  subst e
  cases op with
  | removeRoot => cases ho
  | map op =>
    cases op with
    | remove k => cases ho
    | getMut k v => rfl
    | iterMut f => rfl
    | insert k v =>
      simp only [step, size_mirror, has_mirror]
      split
      · rfl
      · simp [insert, ins_mirror]

theorem fold_mirror (cmp cmp' : K → K → Ordering) (hc : ∀ a b, cmp' a b = (cmp a b).swap) (M : Nat) :
    ∀ (ops : List (RedBlackSpec.TOp K V)) (T : RBTree K), (∀ op ∈ ops, RedBlackSpec.Removal op = false) →
      (ops.foldl (step cmp M) T).mirror = ops.foldl (step cmp' M) T.mirror
  | [], _, _ => rfl
  | op :: ops, T, h => by
    rw [List.foldl_cons, List.foldl_cons, fold_mirror cmp cmp' hc M ops _ (fun o q => h o (by simp [q])),
      step_mirror cmp cmp' hc M T (h op (by simp))]

end RBTree

namespace Tree

@[simp] theorem height_mirror (T : Tree K) : T.mirror.height = T.height := by
  induction T with
  | leaf => rfl
  | node l k r h1 h2 => simp only [mirror, height, h1, h2]; omega
theorem size_mirror (T : Tree K) : T.mirror.size = T.size := by
  induction T with
  | leaf => rfl
  | node l k r h1 h2 => simp only [mirror, size, h1, h2]; omega

theorem has_mirror (cmp : K → Ordering) (T : Tree K) : T.mirror.has (fun x => (cmp x).swap) = T.has cmp := by
  induction T with
  | leaf => rfl
  | node l k r h1 h2 => simp only [mirror, has]; cases cmp k <;> simp [h1, h2]

theorem rotL_mirror (T : Tree K) : T.rotateLeft.mirror = T.mirror.rotateRight := by
  rcases T with _ | ⟨a, x, _ | ⟨b, y, c⟩⟩ <;> simp [rotateLeft, rotateRight, mirror]
theorem rotR_mirror (T : Tree K) : T.rotateRight.mirror = T.mirror.rotateLeft := by
  rcases T with _ | ⟨_ | ⟨b, y, c⟩, x, a⟩ <;> simp [rotateLeft, rotateRight, mirror]

theorem leanL_mirror (T : Tree K) : T.leanLeft.mirror = T.mirror.leanRight := by
  cases T with
  | leaf => rfl
  | node a x b =>
    simp only [leanLeft, leanRight, mirror, height_mirror]
    split
    · exact rotL_mirror _
    · rfl
theorem leanR_mirror (T : Tree K) : T.leanRight.mirror = T.mirror.leanLeft := by
  cases T with
  | leaf => rfl
  | node a x b =>
    simp only [leanLeft, leanRight, mirror, height_mirror]
    split
    · exact rotR_mirror _
    · rfl

theorem balance_mirror (l : Tree K) (k : K) (r : Tree K) : (balance l k r).mirror = balance r.mirror k l.mirror := by
  unfold balance
  simp only [height_mirror]
  by_cases h1 : r.height + 1 < l.height
  · rw [if_pos h1, if_neg (by omega), if_pos h1, rotR_mirror, mirror, leanL_mirror]
  · rw [if_neg h1]
    by_cases h2 : l.height + 1 < r.height
    · rw [if_pos h2, if_pos h2, rotL_mirror, mirror, leanR_mirror]
    · rw [if_neg h2, if_neg h2, if_neg h1]; rfl

theorem insert_mirror (cmp : K → Ordering) (k : K) (T : Tree K) :
    (T.insert cmp k).mirror = T.mirror.insert (fun x => (cmp x).swap) k := by
  induction T with
  | leaf => rfl
  | node l x r h1 h2 =>
    simp only [mirror, insert]
    cases cmp x with
    | lt => simp [balance_mirror, h1]
    | gt => simp [balance_mirror, h2]
    | eq => simp [mirror]

theorem step_mirror (cmp cmp' : K → K → Ordering) (hc : ∀ a b, cmp' a b = (cmp a b).swap) (M : Nat) (T : Tree K)
    {op : MapSpec.Op K V} (ho : IsRemove op = false) : (T.step cmp M op).mirror = T.mirror.step cmp' M op := by
  have e : cmp' = fun a b => (cmp a b).swap := by funext a b; exact hc a b
  subst e
  cases op with
  | remove k => cases ho
  | getMut k v => rfl
  | iterMut f => rfl
  | insert k v =>
    simp only [step, size_mirror, has_mirror]
    split
    · rfl
    · simp [insert_mirror]

theorem fold_mirror (cmp cmp' : K → K → Ordering) (hc : ∀ a b, cmp' a b = (cmp a b).swap) (M : Nat) :
    ∀ (ops : List (MapSpec.Op K V)) (T : Tree K), (∀ op ∈ ops, IsRemove op = false) →
      (ops.foldl (step cmp M) T).mirror = ops.foldl (step cmp' M) T.mirror
  | [], _, _ => rfl
  | op :: ops, T, h => by
    rw [List.foldl_cons, List.foldl_cons, fold_mirror cmp cmp' hc M ops _ (fun o q => h o (by simp [q])),
      step_mirror cmp cmp' hc M T (h op (by simp))]

end Tree

/-- two orders, one the reverse of the other -/
theorem compare_swap (o1 o2 : LinearOrder K) (h : ∀ a b, o1.lt a b ↔ o2.lt b a) (a b : K) :
    o2.compare a b = (o1.compare a b).swap := by
  rcases @lt_trichotomy K o1 a b with q | q | q
  · rw [(@compare_lt_iff_lt K o1 a b).2 q, (@compare_gt_iff_gt K o2 a b).2 ((h a b).1 q)]; rfl
  · rw [(@compare_eq_iff_eq K o1 a b).2 q, (@compare_eq_iff_eq K o2 a b).2 q]; rfl
  · rw [(@compare_gt_iff_gt K o1 a b).2 q, (@compare_lt_iff_lt K o2 a b).2 ((h b a).1 q)]; rfl

end Sokoban.Textbook

namespace Sokoban.Textbook
variable {K V : Type}

/-- the reverse order -/
abbrev rev (o : LinearOrder K) : LinearOrder K := inferInstanceAs (LinearOrder Kᵒᵈ)

theorem reverse_rev (o : LinearOrder K) : Reverse o (rev o) := fun _ _ => Iff.rfl

theorem order_self [LinearOrder K] (a : K) : order a a = .eq := by simp [order, PartialGt.gt]

theorem order_swap (o1 o2 : LinearOrder K) (h : Reverse o1 o2) (a b : K) :
    (letI := o2; order a b) = (letI := o1; order a b).swap := by
  rcases @lt_trichotomy K o1 a b with q | q | q
  · rw [@Tree.order_lt K o1 a b q, @Tree.order_gt K o2 a b ((h a b).1 q)]; rfl
  · subst q
    rw [@order_self K o1 a, @order_self K o2 a]; rfl
  · rw [@Tree.order_gt K o1 a b q, @Tree.order_lt K o2 a b ((h b a).1 q)]; rfl

theorem run_avl (o : LinearOrder K) {M : Nat} (hM : M + 1 < 2 ^ 32) (hM0 : 0 < M) (z : AVLNode K V) (ops : List (MapSpec.Op K V)) :
    ∃ s os E, run (callAVL o) (AVLTree.new z : AVLTree K V M) ops = .ok (s, os) ∧
      AVLTree.HeldT (ops.foldl (Tree.step (letI := o; order) M) .leaf) s E :=
  letI := o
  AVLTree.run_textbook hM hM0 z ops

theorem Tree.Perfect.mirror : ∀ {h : Nat} {T : Tree K}, T.mirror.Perfect h → T.Perfect h
  | 0, T, q => by
    cases T with
    | leaf => rfl
    | node l k r => cases q
  | h + 1, T, ⟨l, k, r, e, h1, h2⟩ => by
    cases T with
    | leaf => cases e
    | node l' k' r' =>
      simp only [Tree.mirror, Tree.node.injEq] at e
      obtain ⟨rfl, rfl, rfl⟩ := e
      exact ⟨l', k', r', rfl, h2.mirror, h1.mirror⟩

end Sokoban.Textbook

namespace Sokoban.RedBlackTree
open MapSpec Textbook RedBlackSpec
variable {K V : Type} {M : Nat} {t : RedBlackTree K V M}

theorem walk_left : ∀ {T : RBTree K} {p i : Nat}, RBIs t p i T → ∀ j ≤ T.mirror.spine,
    ∃ b, walk t i (List.replicate j false) = .ok b ∧ (b = SENTINEL ↔ j = T.mirror.spine)
  | .leaf, p, i, h, 0, _ => ⟨i, rfl, ⟨fun _ => rfl, fun _ => h⟩⟩
  | .node c l k r, p, i, h, 0, _ => ⟨i, rfl, ⟨fun q => absurd q h.1, fun q => by simp [RBTree.mirror, RBTree.spine] at q⟩⟩
  | .leaf, _, _, _, j + 1, hj => by simp [RBTree.mirror, RBTree.spine] at hj
  | .node c l k r, p, i, ⟨_, _, _, _, ⟨b, e, hr⟩, _⟩, j + 1, hj => by
    obtain ⟨b', e', hb⟩ := walk_left hr j (by simp only [RBTree.mirror, RBTree.spine] at hj; omega)
    refine ⟨b', ?_, by rw [hb]; simp [RBTree.mirror, RBTree.spine]⟩
    rw [List.replicate_succ, walk]
    simp only [Bool.false_eq_true, if_false, e, except_bind_ok, e']

end Sokoban.RedBlackTree
