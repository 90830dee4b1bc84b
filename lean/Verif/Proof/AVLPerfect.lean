import Verif.Spec.AVLPerfect
import Verif.Proof.AVLShapes

/-
Insertions in ascending order make perfect AVL trees.
-/
namespace Sokoban.Textbook.Tree
variable {K : Type}

/-- insertion of a key greater than all others -/
def grow (T : Tree K) (ks : List K) : Tree K := ks.foldl (fun T k => T.insert (fun _ => .gt) k) T

theorem grow_cons (T : Tree K) (k : K) (ks : List K) : grow T (k :: ks) = grow (T.insert (fun _ => .gt) k) ks := rfl
theorem grow_append (T : Tree K) (ks ks' : List K) : grow T (ks ++ ks') = grow (grow T ks) ks' := List.foldl_append

theorem Perfect.height : ∀ {h : Nat} {T : Tree K}, Perfect h T → T.height = h
  | 0, T, q => by rw [show T = leaf from q]; rfl
  | h + 1, T, ⟨l, k, r, e, h1, h2⟩ => by
    rw [e, height_node, h1.height, h2.height]; simp

/-- without rotations at the root -/
theorem grow_frame {l : Tree K} {x : K} : ∀ (ks : List K) {r : Tree K},
    (∀ n, (grow r (ks.take n)).height ≤ l.height + 1 ∧ l.height ≤ (grow r (ks.take n)).height + 1) →
    grow (node l x r) ks = node l x (grow r ks)
  | [], _, _ => rfl
  | k :: ks, r, h => by
    have e : (node l x r).insert (fun _ => .gt) k = node l x (r.insert (fun _ => .gt) k) :=
      balance_id (h 1).2 (h 1).1
    rw [grow_cons, grow_cons, e]
    exact grow_frame ks (fun n => h (n + 1))

theorem Perfect.grow : ∀ {h : Nat} {T : Tree K}, Perfect h T → ∀ {ks : List K}, 1 ≤ ks.length → ks.length ≤ 2 ^ h →
    (T.grow ks).height = h + 1 ∧ (ks.length = 2 ^ h → Perfect (h + 1) (T.grow ks))
  | 0, T, q, ks, h1, h2 => by
    rw [show T = leaf from q]
    match ks, h1, h2 with
    | [k], _, _ => exact ⟨rfl, fun _ => ⟨leaf, k, leaf, rfl, rfl, rfl⟩⟩
    | _ :: _ :: _, _, h2 => simp at h2
  | h + 1, T, ⟨l, x, r, e, hl, hr⟩, ks, h1, h2 => by
    subst e
    have e2 : 2 ^ (h + 1) = 2 ^ h + 2 ^ h := by rw [Nat.pow_succ]; omega
    have p : 0 < 2 ^ h := Nat.pow_pos (by decide)
    have hlh := hl.height
    have near : ∀ {b : Tree K}, Perfect h b → ∀ {ks' : List K}, ks'.length ≤ 2 ^ h → ∀ n,
        h ≤ (b.grow (ks'.take n)).height ∧ (b.grow (ks'.take n)).height ≤ h + 1 := by
      intro b hb ks' hk n
      by_cases h0 : (ks'.take n).length = 0
      · rw [List.length_eq_zero_iff.1 h0]
        have := hb.height
        show h ≤ b.height ∧ b.height ≤ h + 1
        omega
      · have hle : (ks'.take n).length ≤ 2 ^ h := by rw [List.length_take]; omega
        have := (hb.grow (by omega) hle).1
        omega
    by_cases hc : ks.length ≤ 2 ^ h
    · have e3 : (node l x r).grow ks = node l x (r.grow ks) := grow_frame ks (fun n => by
        have := near hr hc n; omega)
      have := (hr.grow h1 hc).1
      rw [e3]
      refine ⟨by rw [height_node]; omega, fun q => by omega⟩
    · obtain ⟨ks1, k, ks2, rfl, hk1⟩ : ∃ ks1 k ks2, ks = ks1 ++ k :: ks2 ∧ ks1.length = 2 ^ h := by
        refine ⟨ks.take (2 ^ h), ks[2 ^ h]'(by omega), ks.drop (2 ^ h + 1), ?_, by rw [List.length_take]; omega⟩
        rw [← List.drop_eq_getElem_cons, List.take_append_drop]
      simp only [List.length_append, List.length_cons] at h2 hc
      have e3 : (node l x r).grow ks1 = node l x (r.grow ks1) := grow_frame ks1 (fun n => by
        have := near hr (le_of_eq hk1) n; omega)
      obtain ⟨a, y, b, e4, ha, hb⟩ := (hr.grow (by omega) (le_of_eq hk1)).2 hk1
      have hah := ha.height
      have hbh := hb.height
      have hb1 : (b.insert (fun _ => .gt) k).height = h + 1 := (hb.grow (ks := [k]) (by simp) (show 1 ≤ 2 ^ h from p)).1
      have e5 : (node a y b).insert (fun _ => .gt) k = node a y (b.insert (fun _ => .gt) k) := balance_id (by omega) (by omega)
      have e6 : (node l x (node a y b)).insert (fun _ => .gt) k = node (node l x a) y (b.insert (fun _ => .gt) k) := by
        show balance l x ((node a y b).insert (fun _ => .gt) k) = _
        rw [e5]
        unfold balance
        rw [if_neg (by rw [height_node]; omega), if_pos (by rw [height_node]; omega)]
        have e7 : leanRight (node a y (b.insert (fun _ => .gt) k)) = node a y (b.insert (fun _ => .gt) k) := by
          simp only [leanRight]
          rw [if_neg (by omega)]
        rw [e7]; rfl
      have hL : (node l x a).height = h + 1 := by rw [height_node]; omega
      have e8 : (node (node l x a) y b).insert (fun _ => .gt) k = node (node l x a) y (b.insert (fun _ => .gt) k) :=
        balance_id (by omega) (by omega)
      have hk2 : (k :: ks2).length ≤ 2 ^ h := by simp only [List.length_cons]; omega
      have e9 : (node l x r).grow (ks1 ++ k :: ks2) = node (node l x a) y (b.grow (k :: ks2)) := by
        rw [grow_append, e3, e4, grow_cons, e6, ← e8, ← grow_cons]
        exact grow_frame (k :: ks2) (fun n => by have := near hb hk2 n; omega)
      obtain ⟨g1, g2⟩ := hb.grow (ks := k :: ks2) (by simp) hk2
      rw [e9]
      refine ⟨by rw [height_node]; omega, fun q => ⟨node l x a, y, _, rfl, ⟨l, x, a, rfl, hl, ha⟩, g2 ?_⟩⟩
      simp only [List.length_append, List.length_cons] at q ⊢
      omega

theorem grow_perfect : ∀ (h : Nat) {ks : List K}, ks.length + 1 = 2 ^ h → Perfect h (grow leaf ks)
  | 0, ks, e => by
    have : ks = [] := List.length_eq_zero_iff.1 (by simpa using e)
    subst this; rfl
  | h + 1, ks, e => by
    have e2 : 2 ^ (h + 1) = 2 ^ h + 2 ^ h := by rw [Nat.pow_succ]; omega
    have p : 0 < 2 ^ h := Nat.pow_pos (by decide)
    rw [← List.take_append_drop (2 ^ h - 1) ks, grow_append]
    have hd : (ks.drop (2 ^ h - 1)).length = 2 ^ h := by rw [List.length_drop]; omega
    exact ((grow_perfect h (by rw [List.length_take]; omega)).grow (by omega) (by omega)).2 hd

theorem insert_gt {cmp : K → Ordering} {k : K} {T : Tree K} (h : ∀ x ∈ T.keys, cmp x = .gt) :
    T.insert cmp k = T.insert (fun _ => .gt) k := by
  induction T with
  | leaf => rfl
  | node l x r _ h2 =>
    have e := h x (by simp [keys])
    have e2 := h2 (fun y hy => h y (by simp [keys, hy]))
    simp only [insert, e, e2]

theorem keys_rotL (T : Tree K) : T.rotateLeft.keys = T.keys := by
  unfold rotateLeft; split <;> simp [keys]

theorem keys_rotR (T : Tree K) : T.rotateRight.keys = T.keys := by
  unfold rotateRight; split <;> simp [keys]

theorem keys_leanL (T : Tree K) : T.leanLeft.keys = T.keys := by
  cases T with
  | leaf => rfl
  | node a x b => simp only [leanLeft]; split
                  · exact keys_rotL _
                  · rfl

theorem keys_leanR (T : Tree K) : T.leanRight.keys = T.keys := by
  cases T with
  | leaf => rfl
  | node a x b => simp only [leanRight]; split
                  · exact keys_rotR _
                  · rfl

theorem keys_bal (l : Tree K) (k : K) (r : Tree K) : (balance l k r).keys = l.keys ++ k :: r.keys := by
  unfold balance
  split
  · rw [keys_rotR, keys, keys_leanL]
  · split
    · rw [keys_rotL, keys, keys_leanR]
    · rfl

theorem keys_insert_gt (k : K) (T : Tree K) : (T.insert (fun _ => .gt) k).keys = T.keys ++ [k] := by
  induction T with
  | leaf => rfl
  | node l x r _ h2 => simp [insert, keys, keys_bal, h2]

theorem size_keys (T : Tree K) : T.size = T.keys.length := by
  induction T with
  | leaf => rfl
  | node l x r h1 h2 => simp [size, keys, h1, h2]; omega

/-- ascending insertions -/
theorem ascend {V : Type} [LinearOrder K] {M : Nat} (v : V) : ∀ (ks : List K) {T : Tree K},
    (T.keys ++ ks).Pairwise (· < ·) → T.keys.length + ks.length ≤ M →
    (ks.map fun k => (.insert k v : MapSpec.Op K V)).foldl (step order M) T = T.grow ks ∧ (T.grow ks).keys = T.keys ++ ks
  | [], T, _, _ => ⟨rfl, by simp [grow]⟩
  | k :: ks, T, hs, hl => by
    have hk : ∀ x ∈ T.keys, order k x = .gt := fun x hx =>
      order_gt ((List.pairwise_append.1 hs).2.2 x hx k (by simp))
    have e : T.step order M (.insert k v : MapSpec.Op K V) = T.insert (fun _ => .gt) k := by
      show (if T.size = M ∧ T.has (order k) = false then T else T.insert (order k) k) = _
      rw [if_neg, insert_gt hk]
      rintro ⟨q, _⟩
      rw [size_keys] at q
      simp only [List.length_cons] at hl
      omega
    have hkeys := keys_insert_gt k T
    have := ascend (M := M) v ks (T := T.insert (fun _ => .gt) k) (by rw [hkeys]; simpa using hs)
      (by rw [hkeys]; simp only [List.length_append, List.length_cons, List.length_nil] at hl ⊢; omega)
    rw [List.map_cons, List.foldl_cons, e, grow_cons]
    exact ⟨this.1, by rw [this.2, hkeys]; simp⟩

end Sokoban.Textbook.Tree

namespace Sokoban.AVLTree
open MapSpec Textbook AVLSpec
variable {K V : Type} {M : Nat} {t : AVLTree K V M}

theorem walk_perfect : ∀ {h : Nat} {T : Tree K} {i : Nat}, T.Perfect h → AVLIs t i T → ∀ p : List Bool, p.length ≤ h →
    ∃ j, walk t i p = .ok j ∧ (j = SENTINEL ↔ p.length = h)
  | 0, T, i, hT, hi, p, hp => by
    have e : p = [] := List.length_eq_zero_iff.1 (by omega)
    subst e
    rw [show T = .leaf from hT] at hi
    exact ⟨i, rfl, ⟨fun _ => rfl, fun _ => hi⟩⟩
  | h + 1, T, i, ⟨l, k, r, e, h1, h2⟩, hi, p, hp => by
    subst e
    obtain ⟨h0, _, _, ⟨a, ea, ha⟩, b, eb, hb⟩ := hi
    cases p with
    | nil => exact ⟨i, rfl, ⟨fun q => absurd q h0, fun q => by simp at q⟩⟩
    | cons d p =>
      simp only [List.length_cons] at hp
      cases d
      · obtain ⟨j, e1, e2⟩ := walk_perfect h1 ha p (by omega)
        exact ⟨j, by simp only [walk, ea]; exact e1, by rw [e2]; simp⟩
      · obtain ⟨j, e1, e2⟩ := walk_perfect h2 hb p (by omega)
        exact ⟨j, by simp only [walk, eb]; exact e1, by rw [e2]; simp⟩

end Sokoban.AVLTree
