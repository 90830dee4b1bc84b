import Verif.Proof.RBFull
import Mathlib.Logic.Function.Iterate

/-
Insertions in ascending order count on the right spine of a red-black tree, with the digits 1, 2 and 3.
-/
namespace Sokoban.Textbook.RBTree
variable {K : Type}

/-- one more: the digits, the highest first, and whether there is a carry -/
def inc : List Nat → List Nat × Bool
  | [] => ([], true)
  | d :: ds => if (inc ds).2 then (if d = 3 then (2 :: (inc ds).1, true) else ((d + 1) :: (inc ds).1, false))
    else (d :: (inc ds).1, false)

/-- one more, with a new digit for the carry -/
def next (ds : List Nat) : List Nat := if (inc ds).2 then 1 :: (inc ds).1 else (inc ds).1

theorem inc_length : ∀ ds, (inc ds).1.length = ds.length
  | [] => rfl
  | d :: ds => by
    unfold inc
    split
    · split <;> simp [inc_length ds]
    · simp [inc_length ds]

theorem inc_two : ∀ ds, inc (ds ++ [2]) = (ds ++ [3], false)
  | [] => rfl
  | d :: ds => by
    rw [List.cons_append, inc, inc_two ds]; rfl

theorem inc_three : ∀ ds, inc (ds ++ [3]) = ((inc ds).1 ++ [2], (inc ds).2)
  | [] => rfl
  | d :: ds => by
    rw [List.cons_append, inc, inc_three ds, inc]
    cases (inc ds).2
    · rfl
    · by_cases h : d = 3 <;> simp [h]

theorem next_next (ds : List Nat) : next (next (ds ++ [2])) = next ds ++ [2] := by
  have e : next (ds ++ [2]) = ds ++ [3] := by unfold next; rw [inc_two]; rfl
  rw [e]
  unfold next
  rw [inc_three]
  cases (inc ds).2 <;> rfl

theorem next_double : ∀ (n : Nat) (ds : List Nat), next^[2 * n] (ds ++ [2]) = next^[n] ds ++ [2]
  | 0, _ => rfl
  | n + 1, ds => by
    have e : 2 * (n + 1) = 2 * n + 1 + 1 := by omega
    rw [e, Function.iterate_succ_apply, Function.iterate_succ_apply, next_next, next_double n, Function.iterate_succ_apply]

theorem next_twos : ∀ h : Nat, next^[2 ^ (h + 1)] (List.replicate h 2) = List.replicate (h + 1) 2
  | 0 => rfl
  | h + 1 => by
    have e : 2 ^ (h + 1 + 1) = 2 * 2 ^ (h + 1) := by rw [Nat.pow_succ]; omega
    rw [e, List.replicate_succ', next_double, next_twos h, ← List.replicate_succ']

theorem next_all : ∀ h n : Nat, n + 2 = 2 ^ (h + 1) → next^[n] [] = List.replicate h 2
  | 0, n, e => by
    have : n = 0 := by simpa using e
    subst this; rfl
  | h + 1, n, e => by
    have e1 : 2 ^ (h + 1 + 1) = 2 ^ (h + 1) + 2 ^ (h + 1) := by rw [Nat.pow_succ]; omega
    have p : 2 ≤ 2 ^ (h + 1) := by rw [Nat.pow_succ]; have := Nat.one_le_two_pow (n := h); omega
    have e2 : n = 2 ^ (h + 1) + (2 ^ (h + 1) - 2) := by omega
    rw [e2, Function.iterate_add_apply, next_all h _ (by omega), next_twos]

/-- a perfect tree of black nodes -/
def Perf : Nat → RBTree K → Prop
  | 0, T => T = leaf
  | h + 1, T => ∃ l k r, T = node false l k r ∧ Perf h l ∧ Perf h r

/-- the right spine counts: with digit 1 a black node, with 2 also a red one, with 3 a black one between two red ones -/
def Sp : List Nat → RBTree K → Prop
  | [], T => T = leaf
  | d :: ds, T => ∃ R P k, Sp ds R ∧ Perf ds.length P ∧ ((d = 1 ∧ T = node false P k R) ∨
      (d = 2 ∧ ∃ P' k', Perf ds.length P' ∧ T = node false P k (node true P' k' R)) ∨
      (d = 3 ∧ ∃ P' k' P'' k'', Perf ds.length P' ∧ Perf ds.length P'' ∧
        T = node false (node true P k P') k' (node true P'' k'' R)))

theorem Perf.isRed {h : Nat} {T : RBTree K} (q : Perf h T) : T.isRed = false := by
  cases h with
  | zero => rw [show T = leaf from q]; rfl
  | succ h => obtain ⟨l, k, r, rfl, _⟩ := q; rfl

theorem Sp.isRed {ds : List Nat} {T : RBTree K} (q : Sp ds T) : T.isRed = false := by
  cases ds with
  | nil => rw [show T = leaf from q]; rfl
  | cons d ds =>
    obtain ⟨R, P, k, _, _, ⟨_, rfl⟩ | ⟨_, _, _, _, rfl⟩ | ⟨_, _, _, _, _, _, _, rfl⟩⟩ := q <;> rfl

theorem fixR_id {l r : RBTree K} {k : K} (h : r.isRed = false) : fixR l k r = node false l k r := by
  cases r with
  | leaf => simp [fixR]
  | node c a x b =>
    have : c = false := h
    subst this
    simp [fixR]

theorem fixR_one {l a b : RBTree K} {k x : K} (ha : a.isRed = false) (hb : b.isRed = false) :
    fixR l k (node true a x b) = node false l k (node true a x b) := by
  cases a with
  | leaf => cases b with
    | leaf => simp [fixR]
    | node c b1 y b2 => have : c = false := hb
                        subst this; simp [fixR]
  | node c a1 y a2 =>
    have : c = false := ha
    subst this
    cases b with
    | leaf => simp [fixR]
    | node c b1 y b2 => have : c = false := hb
                        subst this; simp [fixR]

theorem ins_gt {cmp : K → Ordering} {k : K} {T : RBTree K} (h : ∀ x ∈ T.keys, cmp x = .gt) :
    T.ins cmp k = T.ins (fun _ => .gt) k := by
  induction T with
  | leaf => rfl
  | node c l x r _ h2 =>
    have e := h x (by simp [keys])
    have e2 := h2 (fun y hy => h y (by simp [keys, hy]))
    simp only [ins, e, e2]

/-- a key greater than all others is inserted -/
theorem Sp.ins {k : K} : ∀ {ds : List Nat} {T : RBTree K}, Sp ds T →
    ((inc ds).2 = true → ∃ P k' R, T.ins (fun _ => .gt) k = node true P k' R ∧ Perf ds.length P ∧ Sp (inc ds).1 R) ∧
    ((inc ds).2 = false → Sp (inc ds).1 (T.ins (fun _ => .gt) k))
  | [], T, h => by
    rw [show T = leaf from h]
    exact ⟨fun _ => ⟨leaf, k, leaf, rfl, rfl, rfl⟩, fun h => by cases h⟩
  | d :: ds, T, ⟨R, P, x, hR, hP, h⟩ => by
    obtain ⟨i1, i2⟩ := Sp.ins (k := k) hR
    have hl := inc_length ds
    cases hc : (inc ds).2 with
    | false =>
      have e : inc (d :: ds) = (d :: (inc ds).1, false) := by rw [inc, hc]; rfl
      rw [e]
      refine ⟨fun q => (by cases q), fun _ => ?_⟩
      have h1 := i2 hc
      have h2 := h1.isRed
      refine ⟨R.ins (fun _ => .gt) k, P, x, h1, by rw [hl]; exact hP, ?_⟩
      rw [hl]
      rcases h with ⟨hd, rfl⟩ | ⟨hd, P', k', hP', rfl⟩ | ⟨hd, P', k', P'', k'', hP', hP'', rfl⟩
      · exact Or.inl ⟨hd, fixR_id h2⟩
      · exact Or.inr (Or.inl ⟨hd, P', k', hP', fixR_one hP'.isRed h2⟩)
      · exact Or.inr (Or.inr ⟨hd, P', k', P'', k'', hP', hP'', fixR_one hP''.isRed h2⟩)
    | true =>
      obtain ⟨Q, y, R', e1, hQ, hR'⟩ := i1 hc
      rcases h with ⟨hd, rfl⟩ | ⟨hd, P', k', hP', rfl⟩ | ⟨hd, P', k', P'', k'', hP', hP'', rfl⟩
      · have e : inc (d :: ds) = (2 :: (inc ds).1, false) := by rw [inc, hc, hd]; rfl
        rw [e]
        refine ⟨fun q => (by cases q), fun _ => ⟨R', P, x, hR', by rw [hl]; exact hP, Or.inr (Or.inl ⟨rfl, Q, y, by rw [hl]; exact hQ, ?_⟩)⟩⟩
        show fixR P x (R.ins (fun _ => .gt) k) = _
        rw [e1, fixR_one hQ.isRed hR'.isRed]
      · have e : inc (d :: ds) = (3 :: (inc ds).1, false) := by rw [inc, hc, hd]; rfl
        rw [e]
        refine ⟨fun q => (by cases q), fun _ => ⟨R', P, x, hR', by rw [hl]; exact hP, Or.inr (Or.inr ⟨rfl, P', k', Q, y, by rw [hl]; exact hP',
          by rw [hl]; exact hQ, ?_⟩)⟩⟩
        show fixR P x (node true P' k' (R.ins (fun _ => .gt) k)) = _
        rw [e1]
        simp [fixR, hP.isRed]
      · have e : inc (d :: ds) = (2 :: (inc ds).1, true) := by rw [inc, hc, hd]; rfl
        rw [e]
        refine ⟨fun _ => ⟨node false P x P', k', node false P'' k'' (node true Q y R'), ?_, ⟨P, x, P', rfl, hP, hP'⟩,
          ⟨R', P'', k'', hR', by rw [hl]; exact hP'', Or.inr (Or.inl ⟨rfl, Q, y, by rw [hl]; exact hQ, rfl⟩)⟩⟩, fun q => by cases q⟩
        show fixR (node true P x P') k' (node true P'' k'' (R.ins (fun _ => .gt) k)) = _
        rw [e1]
        simp [fixR, blacken]

theorem Sp.insert {cmp : K → Ordering} {k : K} {ds : List Nat} {T : RBTree K} (h : Sp ds T) (hk : ∀ x ∈ T.keys, cmp x = .gt) :
    Sp (next ds) (T.insert cmp k) := by
  unfold RBTree.insert
  rw [ins_gt hk]
  obtain ⟨h1, h2⟩ := h.ins (k := k)
  unfold next
  cases hc : (inc ds).2 with
  | true =>
    obtain ⟨P, x, R, e, hP, hR⟩ := h1 hc
    rw [e]
    exact ⟨R, P, x, hR, by rw [inc_length]; exact hP, Or.inl ⟨rfl, rfl⟩⟩
  | false =>
    have h3 := h2 hc
    have h4 := h3.isRed
    have e : (T.ins (fun _ => .gt) k).blacken = T.ins (fun _ => .gt) k := by
      cases q : T.ins (fun _ => .gt) k with
      | leaf => rfl
      | node c l x r => rw [q] at h4; have : c = false := h4
                        subst this; rfl
    rw [e]; exact h3

theorem keys_blacken (T : RBTree K) : T.blacken.keys = T.keys := by cases T <;> rfl

theorem keys_fixR (l : RBTree K) (k : K) (r : RBTree K) : (fixR l k r).keys = l.keys ++ k :: r.keys := by
  unfold fixR
  split
  · split <;> simp [keys, keys_blacken]
  · split <;> simp [keys, keys_blacken]
  · rfl

theorem keys_ins_gt (k : K) (T : RBTree K) : (T.ins (fun _ => .gt) k).keys = T.keys ++ [k] := by
  induction T with
  | leaf => rfl
  | node c l x r _ h2 => cases c <;> simp [RBTree.ins, keys, keys_fixR, h2]

theorem size_keys (T : RBTree K) : T.size = T.keys.length := by
  induction T with
  | leaf => rfl
  | node c l x r h1 h2 => simp [size, keys, h1, h2]; omega

/-- ascending insertions -/
theorem ascend {V : Type} [LinearOrder K] {M : Nat} (v : V) : ∀ (ks : List K) {ds : List Nat} {T : RBTree K}, Sp ds T →
    (T.keys ++ ks).Pairwise (· < ·) → T.keys.length + ks.length ≤ M →
    Sp (next^[ks.length] ds) ((ks.map fun k => (.map (.insert k v) : RedBlackSpec.TOp K V)).foldl (step compare M) T) ∧
    ((ks.map fun k => (.map (.insert k v) : RedBlackSpec.TOp K V)).foldl (step compare M) T).keys = T.keys ++ ks
  | [], ds, T, h, _, _ => ⟨h, by simp⟩
  | k :: ks, ds, T, h, hs, hl => by
    have hk : ∀ x ∈ T.keys, compare k x = .gt := fun x hx =>
      compare_gt_iff_gt.2 ((List.pairwise_append.1 hs).2.2 x hx k (by simp))
    have e : T.step compare M (.map (.insert k v) : RedBlackSpec.TOp K V) = T.insert (compare k) k := by
      show (if T.size = M ∧ T.has (compare k) = false then T else T.insert (compare k) k) = _
      rw [if_neg]
      rintro ⟨q, _⟩
      rw [size_keys] at q
      simp only [List.length_cons] at hl
      omega
    have hkeys : (T.insert (compare k) k).keys = T.keys ++ [k] := by
      unfold RBTree.insert
      rw [keys_blacken, ins_gt hk, keys_ins_gt]
    have := ascend (M := M) v ks (h.insert (k := k) hk) (by rw [hkeys]; simpa using hs)
      (by rw [hkeys]; simp only [List.length_append, List.length_cons, List.length_nil] at hl ⊢; omega)
    rw [List.map_cons, List.foldl_cons, e, List.length_cons, Function.iterate_succ_apply]
    exact ⟨this.1, by rw [this.2, hkeys]; simp⟩

/-- the number of nodes on the right spine -/
def spine : RBTree K → Nat
  | leaf => 0
  | node _ _ _ r => r.spine + 1

theorem Sp.spine : ∀ {h : Nat} {T : RBTree K}, Sp (List.replicate h 2) T → T.spine = 2 * h
  | 0, T, q => by rw [show T = leaf from q]; rfl
  | h + 1, T, q => by
    rw [List.replicate_succ] at q
    obtain ⟨R, P, k, hR, _, ⟨hd, _⟩ | ⟨_, P', k', _, rfl⟩ | ⟨hd, _⟩⟩ := q
    · cases hd
    · have := Sp.spine hR
      show R.spine + 1 + 1 = _
      omega
    · cases hd

end Sokoban.Textbook.RBTree

namespace Sokoban.RedBlackTree
open MapSpec Textbook RedBlackSpec
variable {K V : Type} {M : Nat} {t : RedBlackTree K V M}

theorem rbIs_zero {p i : Nat} {T : RBTree K} (h : RBIs t p i T) : i = SENTINEL ↔ T.spine = 0 := by
  cases T with
  | leaf => exact ⟨fun _ => rfl, fun _ => h⟩
  | node c l k r => exact ⟨fun q => absurd q h.1, fun q => by simp [RBTree.spine] at q⟩

theorem walk_spine : ∀ {T : RBTree K} {p i : Nat}, RBIs t p i T → ∀ j ≤ T.spine,
    ∃ b, walk t i (List.replicate j true) = .ok b ∧ (b = SENTINEL ↔ j = T.spine)
  | T, p, i, h, 0, _ => ⟨i, rfl, by rw [rbIs_zero h]; exact eq_comm⟩
  | .leaf, _, _, _, j + 1, hj => by simp [RBTree.spine] at hj
  | .node c l k r, p, i, ⟨_, _, _, _, _, b, e, hr⟩, j + 1, hj => by
    obtain ⟨b', e', hb⟩ := walk_spine hr j (by simp only [RBTree.spine] at hj; omega)
    refine ⟨b', ?_, by rw [hb]; simp [RBTree.spine]⟩
    rw [List.replicate_succ, walk]
    simp only [if_true, e, except_bind_ok, e']

theorem search_spine [LinearOrder K] {k : K} : ∀ {T : RBTree K} {p i : Nat}, RBIs t p i T → T.keys.Pairwise (· < ·) →
    (∀ x ∈ T.keys, x ≤ k) → ∀ {f : Nat}, f < T.spine → t.getAddrLoop k f i = .error .diverge
  | .leaf, _, _, _, _, _, f, hf => by simp [RBTree.spine] at hf
  | .node c l x r, p, i, _, _, _, 0, _ => rfl
  | .node c l x r, p, i, ⟨_, ⟨n, e1, e2⟩, _, _, _, b, e, hr⟩, hs, hk, f + 1, hf => by
    have hf' : f < r.spine := by simp only [RBTree.spine] at hf; omega
    have hb : b ≠ SENTINEL := fun q => by have := (rbIs_zero hr).1 q; omega
    have hs' := (List.pairwise_append.1 hs).2.1
    have hx : x < k := by
      cases r with
      | leaf => simp [RBTree.spine] at hf'
      | node c' l' y r' =>
        exact lt_of_lt_of_le ((List.pairwise_cons.1 hs').1 y (by simp [RBTree.keys])) (hk y (by simp [RBTree.keys]))
    have hc : compare k n.key = .gt := by rw [e2]; exact compare_gt_iff_gt.2 hx
    have ih := search_spine hr (List.pairwise_cons.1 hs').2 (fun y hy => hk y (by simp [RBTree.keys, hy])) hf'
    unfold getAddrLoop
    simp only [e1, except_bind_ok, hc, e, if_neg hb, ih]

end Sokoban.RedBlackTree
