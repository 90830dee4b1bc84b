import Verif.Proof.LikeMore
import Verif.Props.Poke

/-
An `insert` of a key that is there is a write of one value.
-/
namespace Sokoban

theorem NodeAllocator.like_refl {T : Type} {M N : Nat} {P : T → T → Prop} (hP : ∀ x, P x x) (a : NodeAllocator T M N) :
    a.Like P a := ⟨rfl, rfl, rfl, fun _ _ => rfl, fun _ _ => hP _⟩

theorem NodeAllocator.like_trans {T : Type} {M N : Nat} {P : T → T → Prop} (hP : ∀ x y z, P x y → P y z → P x z)
    {a b c : NodeAllocator T M N} (h : a.Like P b) (h' : b.Like P c) : a.Like P c :=
  ⟨h'.size.trans h.size, h'.bumpIndex.trans h.bumpIndex, h'.freeListHead.trans h.freeListHead,
    fun i hi => (h'.registers i hi).trans (h.registers i hi), fun i hi => hP _ _ _ (h.value i hi) (h'.value i hi)⟩

/-- a write to a slot that can be read -/
theorem NodeAllocator.like_setValue_self {T : Type} {M N : Nat} {P : T → T → Prop} (hP : ∀ x, P x x)
    {a : NodeAllocator T M N} {i : Nat} {v w : T} (hv : a.getValue i = .ok v) (hw : P v w) :
    ∃ a', a.setValue i w = .ok a' ∧ a'.getValue i = .ok w ∧ a.Like P a' ∧
      ∀ j, j ≠ i → a'.getValue j = a.getValue j := by
  unfold NodeAllocator.getValue at hv
  unfold NodeAllocator.setValue
  cases hg : a.get i with
  | error p => rw [hg] at hv; cases hv
  | ok n =>
    rw [hg] at hv; simp only [except_bind_ok] at hv ⊢
    injection hv with hv
    unfold NodeAllocator.get at hg
    unfold NodeAllocator.put
    split at hg
    · next h =>
      injection hg with hg
      rw [dif_pos h]
      refine ⟨_, rfl, by simp [NodeAllocator.getValue, NodeAllocator.get, h, except_bind_ok, Node.setValue],
        ⟨rfl, rfl, rfl, fun j hj => ?_, fun j hj => ?_⟩, fun j hj => ?_⟩
      · simp only [Vector.getElem_set]
        split
        · next e => subst e; rw [hg]; rfl
        · rfl
      · simp only [Vector.getElem_set]
        split
        · next e => subst e; rw [hg, hv]; exact hw
        · exact hP _
      · simp only [NodeAllocator.getValue, NodeAllocator.get]
        split
        · next hr => rw [Vector.getElem_set_ne _ _ (by omega)]
        · rfl
    · cases hg

section
variable {K V : Type} {B N M : Nat}

theorem RedBlackTree.overwrite [Ord K] (t : RedBlackTree K V M) {k : K} {w : V} (hg : t.get k = .ok (some w)) (v : V) :
    ∃ t' i n, t.insert k v = .ok (t', some i) ∧ t.Like Eq (fun _ _ => True) t' ∧ t.getAddr k = .ok i ∧ i ≠ SENTINEL ∧
      t.getNode i = .ok n ∧ n.value = w ∧ t'.getNode i = .ok { n with value := v } := by
  unfold RedBlackTree.get at hg
  cases hi : t.getAddr k with
  | error p => rw [hi] at hg; cases hg
  | ok i =>
    rw [hi] at hg; simp only [except_bind_ok] at hg
    split at hg
    · cases hg
    · next h0 =>
      cases hn : t.getNode i with
      | error p => rw [hn] at hg; cases hg
      | ok n =>
        rw [hn, except_bind_ok] at hg
        injection hg with hg; injection hg with hg
        obtain ⟨a', e, hv, hl, _⟩ := NodeAllocator.like_setValue_self (P := fun n n' : RBNode K V => n.key = n'.key ∧ True)
          (fun _ => ⟨rfl, trivial⟩) (w := { n with value := v }) hn ⟨rfl, trivial⟩
        rw [Props.C72_rb_value_write_is_insert t hi h0 hn v]
        exact ⟨{ t with allocator := a' }, i, n, by simp only [RedBlackTree.setNode, e, except_bind_ok]; rfl, ⟨rfl, hl⟩,
          rfl, h0, hn, hg, hv⟩

theorem AVLTree.overwrite [LT K] [DecidableLT K] [PartialGt K] (t : AVLTree K V M) {k : K} {w : V}
    (hg : t.get k = .ok (some w)) (v : V) :
    ∃ t' i n, t.insert k v = .ok (t', some i) ∧ t.Like Eq (fun _ _ => True) t' ∧ t.getAddr k = .ok i ∧ i ≠ SENTINEL ∧
      t.getNode i = .ok n ∧ n.value = w ∧ t'.getNode i = .ok { n with value := v } := by
  unfold AVLTree.get at hg
  split at hg
  · cases hg
  next hr =>
  cases hi : t.searchLoop k (M + 1) t.root with
  | error p => rw [hi] at hg; cases hg
  | ok i =>
    rw [hi] at hg; simp only [except_bind_ok] at hg
    split at hg
    · cases hg
    · next h0 =>
      cases hn : t.getNode i with
      | error p => rw [hn] at hg; cases hg
      | ok n =>
        rw [hn, except_bind_ok] at hg
        injection hg with hg; injection hg with hg
        have ha : t.getAddr k = .ok i := by unfold AVLTree.getAddr; rw [if_neg hr]; exact hi
        obtain ⟨a', e, hv, hl, _⟩ := NodeAllocator.like_setValue_self (P := fun n n' : AVLNode K V => n.key = n'.key ∧ True)
          (fun _ => ⟨rfl, trivial⟩) (w := { n with value := v }) hn ⟨rfl, trivial⟩
        rw [Props.C72_avl_value_write_is_insert t ha h0 hn v]
        exact ⟨{ t with allocator := a' }, i, n, by simp only [AVLTree.setNode, e, except_bind_ok]; rfl, ⟨rfl, hl⟩,
          ha, h0, hn, hg, hv⟩

theorem HashTable.overwrite [BEq K] (hash : K → Nat) (h : HashTable K V B M) {k : K} {w : V}
    (hg : h.get hash k = .ok (some w)) (v : V) :
    ∃ h' i n, h.insert hash k v = .ok (h', some i) ∧ h.Like Eq (fun _ _ => True) h' ∧ h.getAddr hash k = .ok i ∧
      i ≠ SENTINEL ∧ h.getNode i = .ok n ∧ n.value = w ∧ h'.getNode i = .ok { n with value := v } := by
  unfold HashTable.get at hg
  cases hb : HashTable.bucketIndex B hash k with
  | error p => rw [hb] at hg; cases hg
  | ok b =>
  rw [hb] at hg; simp only [except_bind_ok] at hg
  cases hh : h.bucket b with
  | error p => rw [hh] at hg; cases hg
  | ok head =>
  rw [hh] at hg; simp only [except_bind_ok] at hg
  cases hi : h.findLoop k (M + 1) head with
  | error p => rw [hi] at hg; cases hg
  | ok i =>
    rw [hi] at hg; simp only [except_bind_ok] at hg
    split at hg
    · cases hg
    · next h0 =>
      cases hn : h.getNode i with
      | error p => rw [hn] at hg; cases hg
      | ok n =>
        rw [hn, except_bind_ok] at hg
        injection hg with hg; injection hg with hg
        have ha : h.getAddr hash k = .ok i := by
          unfold HashTable.getAddr; simp only [hb, hh, hi, except_bind_ok]
        obtain ⟨a', e, hv, hl, _⟩ := NodeAllocator.like_setValue_self (P := fun n n' : HashNode K V => n.key = n'.key ∧ True)
          (fun _ => ⟨rfl, trivial⟩) (w := { n with value := v }) hn ⟨rfl, trivial⟩
        rw [Props.C72_hash_value_write_is_insert hash h ha h0 hn v]
        exact ⟨{ h with allocator := a' }, i, n, by simp only [HashTable.setNode, e, except_bind_ok]; rfl, ⟨rfl, hl⟩,
          ha, h0, hn, hg, hv⟩

/-- the key that is not there is not removed -/
theorem HashTable.remove_missing [BEq K] (hash : K → Nat) (h : HashTable K V B M) {k : K}
    (hg : h.get hash k = .ok none) : h.remove hash k = .ok (h, none) := by
  unfold HashTable.get at hg
  unfold HashTable.remove
  cases hb : HashTable.bucketIndex B hash k with
  | error p => rw [hb] at hg; cases hg
  | ok b =>
  rw [hb] at hg; simp only [except_bind_ok] at hg ⊢
  cases hh : h.bucket b with
  | error p => rw [hh] at hg; cases hg
  | ok head =>
  rw [hh] at hg; simp only [except_bind_ok] at hg ⊢
  cases hi : h.findLoop k (M + 1) head with
  | error p => rw [hi] at hg; cases hg
  | ok i =>
    rw [hi] at hg; simp only [except_bind_ok] at hg ⊢
    split at hg
    · next h0 => rw [if_pos h0]; rfl
    · cases hn : h.getNode i with
      | error p => rw [hn] at hg; cases hg
      | ok n => rw [hn] at hg; cases hg

/-- the search of `insert` takes the way of the search of `get` -/
theorem Critbit.insertLoop_found (t : Critbit V N M) (k : BitVec 128) (v : V) {n : Nat} : ∀ (fuel i : Nat),
    t.findLoop k fuel i = .ok (some n) →
    t.insertLoop k v fuel i = (do
      let j ← t.getLeafIndex n
      let t ← t.replaceLeaf j v
      return (t, some n))
  | 0, _, h => by simp [findLoop] at h
  | fuel + 1, i, h => by
    simp only [findLoop] at h
    simp only [insertLoop]
    cases hg : t.getNode i with
    | error p => rw [hg] at h; cases h
    | ok x =>
    rw [hg] at h; simp only [except_bind_ok] at h ⊢
    cases hin : t.isInnerNode i with
    | error p => rw [hin] at h; cases h
    | ok b =>
    rw [hin] at h; simp only [except_bind_ok] at h ⊢
    cases b with
    | false =>
      simp only [Bool.not_false, if_true] at h
      split at h
      · next hk =>
        injection h with h; injection h with h; subst h
        rw [if_pos hk]; rfl
      · cases h
    | true =>
      simp only [Bool.not_true, if_false, Bool.false_eq_true] at h
      have hl : (if x.key = k then (do return !true) else pure false : R Bool) = .ok false := by
        split <;> rfl
      rw [hl]; simp only [except_bind_ok, if_false, Bool.false_eq_true]
      split at h
      · next hs =>
        rw [if_pos hs]
        cases hc : t.getChild x.prefixLen i k with
        | error p => rw [hc] at h; cases h
        | ok c => rw [hc] at h; simp only [except_bind_ok] at h ⊢; exact insertLoop_found t k v fuel _ h
      · cases h

theorem Critbit.overwrite (t : Critbit V N M) {k : BitVec 128} {w : V} (hg : t.get k = .ok (some w)) (hl : t.len < M)
    (v : V) : ∃ t' i j, t.insert k v = .ok (t', some i) ∧ t.Like (fun _ _ => True) t' ∧ t.getAddr k = .ok i ∧
      t.getMut k = .ok (some j) ∧ t.getLeaf j = .ok w ∧ t'.getLeaf j = .ok v ∧
      ∀ l, l ≠ j → t'.getLeaf l = t.getLeaf l := by
  unfold Critbit.get at hg
  split at hg
  · cases hg
  next he =>
  cases hf : t.findLoop k (N + 1) t.root with
  | error p => rw [hf] at hg; cases hg
  | ok r =>
    rw [hf] at hg; simp only [except_bind_ok] at hg
    cases r with
    | none => cases hg
    | some n =>
      have hr : t.root ≠ SENTINEL := by
        intro hc
        rw [hc] at hf
        simp only [findLoop, getNode, NodeAllocator.getValue, NodeAllocator.get] at hf
        rw [dif_neg (by simp [SENTINEL])] at hf
        cases hf
      simp only at hg
      cases hj : t.getLeafIndex n with
      | error p => rw [hj] at hg; cases hg
      | ok j =>
        rw [hj] at hg; simp only [except_bind_ok] at hg
        cases hx : t.getLeaf j with
        | error p => rw [hx] at hg; cases hg
        | ok x =>
          rw [hx, except_bind_ok] at hg
          injection hg with hg; injection hg with hg; subst hg
          obtain ⟨a', e, hv, hl', ho⟩ := NodeAllocator.like_setValue_self (P := fun _ _ : V => True)
            (fun _ => trivial) (w := v) hx trivial
          refine ⟨{ t with leaves := a' }, n, j, ?_, ⟨rfl, rfl, hl'⟩, by unfold Critbit.getAddr; rw [hf]; rfl, ?_, hx, hv, ho⟩
          rotate_left
          · unfold Critbit.getMut
            rw [if_neg he, hf]
            simp only [except_bind_ok, hj, hx]; rfl
          unfold Critbit.insert
          rw [if_neg hr, if_neg (show ¬ t.len ≥ t.capacity from Nat.not_le.2 hl), insertLoop_found t k v _ _ hf]
          simp only [hj, except_bind_ok, replaceLeaf, e]; rfl

end
end Sokoban
