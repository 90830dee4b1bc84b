import Verif.Proof.LikeMore
import Mathlib.Order.Compare
import Mathlib.Data.Finset.Card
import Mathlib.Data.Finset.Basic

/-
Keys replaced by their ranks in a finite set.
-/
namespace Sokoban
open MapSpec
variable {K V : Type} [LinearOrder K]

/-- The rank of a key in a set: how many smaller keys the set has. -/
def rank (S : Finset K) (k : K) : Nat := (S.filter (· < k)).card

/-- `n` is the rank of the member `k` of `S`. -/
def IsRank (S : Finset K) (k : K) (n : Nat) : Prop := k ∈ S ∧ n = rank S k

theorem rank_lt {S : Finset K} {k l : K} (hk : k ∈ S) (h : k < l) : rank S k < rank S l := by
  refine Finset.card_lt_card ?_
  rw [Finset.ssubset_iff_of_subset]
  · exact ⟨k, by simp [hk, h], by simp⟩
  · intro x hx
    simp only [Finset.mem_filter] at hx ⊢
    exact ⟨hx.1, hx.2.trans h⟩

theorem rank_bound {S : Finset K} {k : K} (hk : k ∈ S) : rank S k < S.card := by
  refine Finset.card_lt_card ?_
  rw [Finset.ssubset_iff_of_subset (Finset.filter_subset _ _)]
  exact ⟨k, hk, by simp⟩

theorem IsRank.lt_iff {S : Finset K} {k l : K} {m n : Nat} (hk : IsRank S k m) (hl : IsRank S l n) : m < n ↔ k < l := by
  obtain ⟨hk, rfl⟩ := hk
  obtain ⟨hl, rfl⟩ := hl
  refine ⟨fun h => ?_, rank_lt hk⟩
  rcases lt_trichotomy k l with h' | h' | h'
  · exact h'
  · subst h'; omega
  · have := rank_lt hl h'; omega

theorem IsRank.compare {S : Finset K} {k l : K} {m n : Nat} (hk : IsRank S k m) (hl : IsRank S l n) :
    compare m n = compare k l := by
  rcases lt_trichotomy k l with h | h | h
  · rw [compare_lt_iff_lt.2 h, compare_lt_iff_lt]
    exact (hk.lt_iff hl).2 h
  · subst h
    rw [compare_eq_iff_eq.2 rfl, compare_eq_iff_eq, hk.2, hl.2]
  · rw [compare_gt_iff_gt.2 h, compare_gt_iff_gt]
    exact (hl.lt_iff hk).2 h

theorem IsRank.inj {S : Finset K} {k l : K} {n : Nat} (hk : IsRank S k n) (hl : IsRank S l n) : k = l := by
  rcases lt_trichotomy k l with h | h | h
  · exact absurd ((hk.lt_iff hl).2 h) (by omega)
  · exact h
  · exact absurd ((hl.lt_iff hk).2 h) (by omega)

open Classical in
/-- A function of keys as a function of ranks. -/
noncomputable def onRanks (S : Finset K) (f : K → V → V) (n : Nat) (v : V) : V :=
  if h : ∃ k, IsRank S k n then f h.choose v else v

theorem onRanks_eq {S : Finset K} (f : K → V → V) {k : K} {n : Nat} (h : IsRank S k n) (v : V) : onRanks S f n v = f k v := by
  unfold onRanks
  have he : ∃ k, IsRank S k n := ⟨k, h⟩
  rw [dif_pos he, he.choose_spec.inj h]

/-- A call with ranks instead of keys. -/
noncomputable def rankOp (S : Finset K) : Op K V → Op Nat V
  | .insert k v => .insert (rank S k) v
  | .remove k => .remove (rank S k)
  | .getMut k f => .getMut (rank S k) f
  | .iterMut es => .iterMut (es.map fun e => (e.1, onRanks S e.2))

/-- The key of a call. -/
def opKey : Op K V → List K
  | .insert k _ => [k]
  | .remove k => [k]
  | .getMut k _ => [k]
  | .iterMut _ => []

omit [LinearOrder K] in
theorem opKey_length (op : Op K V) : (opKey op).length ≤ 1 := by
  cases op <;> simp [opKey]

theorem rankOp_like {S : Finset K} {op : Op K V} (h : ∀ k ∈ opKey op, k ∈ S) : OpLike (IsRank S) Eq op (rankOp S op) := by
  cases op with
  | insert k v => exact .insert ⟨h k (by simp [opKey]), rfl⟩ rfl
  | remove k => exact .remove ⟨h k (by simp [opKey]), rfl⟩
  | getMut k f => exact .getMut ⟨h k (by simp [opKey]), rfl⟩ (by rintro v _ rfl; rfl)
  | iterMut es =>
    refine .iterMut ?_
    clear h
    induction es with
    | nil => exact .nil
    | cons e es ih =>
      refine .cons ⟨rfl, ?_⟩ ih
      rintro k n v _ hk rfl
      exact (onRanks_eq e.2 hk v).symm

/-- The keys of a history and one more. -/
def keySet {O : Type} (key : O → List K) (z : K) (ops : List O) : Finset K := (z :: ops.flatMap key).toFinset

theorem keySet_card {O : Type} {key : O → List K} (h : ∀ o, (key o).length ≤ 1) (z : K) (ops : List O) :
    (keySet key z ops).card ≤ ops.length + 1 := by
  refine (List.toFinset_card_le _).trans ?_
  simp only [List.length_cons, Nat.add_le_add_iff_right]
  induction ops with
  | nil => simp
  | cons o ops ih =>
    have := h o
    simp only [List.flatMap_cons, List.length_append, List.length_cons]
    omega

theorem mem_keySet {O : Type} {key : O → List K} {z : K} {ops : List O} {o : O} (ho : o ∈ ops) {k : K} (hk : k ∈ key o) :
    k ∈ keySet key z ops := by
  unfold keySet
  simp only [List.mem_toFinset, List.mem_cons, List.mem_flatMap]
  exact .inr ⟨o, ho, hk⟩

theorem zero_keySet {O : Type} {key : O → List K} {z : K} {ops : List O} : z ∈ keySet key z ops := by
  simp [keySet]

theorem forall₂_map {α β : Type} {P : α → β → Prop} {f : α → β} {l : List α} (h : ∀ a ∈ l, P a (f a)) :
    List.Forall₂ P l (l.map f) := by
  induction l with
  | nil => exact .nil
  | cons a l ih => exact .cons (h a (by simp)) (ih fun b hb => h b (by simp [hb]))

/-- The key of a call on a red-black tree. -/
def topKey : RedBlackSpec.TOp K V → List K
  | .map op => opKey op
  | .removeRoot => []

/-- A call with ranks instead of keys. -/
noncomputable def rankTOp (S : Finset K) : RedBlackSpec.TOp K V → RedBlackSpec.TOp Nat V
  | .map op => .map (rankOp S op)
  | .removeRoot => .removeRoot

theorem rankTOp_like {S : Finset K} {op : RedBlackSpec.TOp K V} (h : ∀ k ∈ topKey op, k ∈ S) :
    RedBlackSpec.TOpLike (IsRank S) Eq op (rankTOp S op) := by
  cases op with
  | map op => exact .map (rankOp_like h)
  | removeRoot => exact .removeRoot

end Sokoban
