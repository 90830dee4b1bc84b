import Verif.Proof.AVLShapes

/-
Full trees: one key more changes the heights of a whole path, and so does its removal.
-/
namespace Sokoban.Textbook.Tree

/-- the full tree of height `h`, with the keys from `a` on -/
def full : Nat → Nat → Tree Nat
  | 0, _ => leaf
  | h + 1, a => node (full h a) (a + (2 ^ h - 1)) (full h (a + 2 ^ h))

/-- the same with the key `k` on the right -/
def more (k : Nat) : Nat → Nat → Tree Nat
  | 0, _ => node leaf k leaf
  | h + 1, a => node (full h a) (a + (2 ^ h - 1)) (more k h (a + 2 ^ h))

/-- the path on the right -/
def spine : Nat → Nat → List Nat
  | 0, _ => []
  | h + 1, a => (a + (2 ^ h - 1)) :: spine h (a + 2 ^ h)

theorem full_ok : ∀ h a, (full h a).Balanced ∧ (full h a).height = h ∧ (full h a).size + 1 = 2 ^ h ∧
    (full h a).keys = List.range' a (2 ^ h - 1)
  | 0, a => ⟨trivial, rfl, rfl, rfl⟩
  | h + 1, a => by
    obtain ⟨b1, h1, s1, k1⟩ := full_ok h a
    obtain ⟨b2, h2, s2, k2⟩ := full_ok h (a + 2 ^ h)
    have e : 2 ^ (h + 1) = 2 ^ h + 2 ^ h := by rw [Nat.pow_succ]; omega
    have p : 0 < 2 ^ h := Nat.pow_pos (by decide)
    refine ⟨⟨by omega, by omega, b1, b2⟩, by simp only [full, height_node]; omega, by simp only [full, size]; omega, ?_⟩
    simp only [full, keys]
    rw [k1, k2, show a + 2 ^ h = a + (2 ^ h - 1) + 1 by omega, ← List.range'_succ, show 2 ^ h - 1 + 1 = 2 ^ h by omega]
    have := List.range'_append_1 (s := a) (m := 2 ^ h - 1) (n := 2 ^ h)
    rw [this]
    congr 1
    omega

theorem more_height (k : Nat) : ∀ h a, (more k h a).height = h + 1
  | 0, _ => rfl
  | h + 1, a => by
    simp only [more, height_node, more_height k h]
    rw [(full_ok h a).2.1]; omega

theorem full_insert {k : Nat} : ∀ h a, a + 2 ^ h ≤ k + 1 →
    (full h a).insert (order k) k = more k h a ∧ (full h a).has (order k) = false ∧ (more k h a).remove (order k) = full h a
  | 0, a, _ => by
    refine ⟨rfl, rfl, ?_⟩
    have : order k k = .eq := by simp [order, PartialGt.gt]
    simp only [more, full, remove, this]
    rfl
  | h + 1, a, hk => by
    have e : 2 ^ (h + 1) = 2 ^ h + 2 ^ h := by rw [Nat.pow_succ]; omega
    have p : 0 < 2 ^ h := Nat.pow_pos (by decide)
    obtain ⟨i1, i2, i3⟩ := full_insert (k := k) h (a + 2 ^ h) (by omega)
    have hx : a + (2 ^ h - 1) < k := by omega
    have ho : order k (a + (2 ^ h - 1)) = .gt := order_gt hx
    have q1 := (full_ok h a).2.1
    have q2 := (full_ok h (a + 2 ^ h)).2.1
    have q3 := more_height k h (a + 2 ^ h)
    simp only [full, more, insert, has, remove, ho, i1, i2, i3, true_and]
    exact ⟨balance_id (by omega) (by omega), balance_id (by omega) (by omega)⟩

theorem spine_length : ∀ h a, (spine h a).length = h
  | 0, _ => rfl
  | h + 1, a => by simp [spine, spine_length h]

theorem spine_ge : ∀ h a, ∀ x ∈ spine h a, a ≤ x
  | 0, _, x, hx => by simp [spine] at hx
  | h + 1, a, x, hx => by
    simp only [spine, List.mem_cons] at hx
    rcases hx with hx | hx
    · omega
    · exact Nat.le_trans (Nat.le_add_right _ _) (spine_ge h _ x hx)

theorem spine_nodup : ∀ h a, (spine h a).Nodup
  | 0, _ => List.nodup_nil
  | h + 1, a => by
    simp only [spine, List.nodup_cons]
    refine ⟨fun hx => ?_, spine_nodup h _⟩
    have := spine_ge h _ _ hx
    have p : 0 < 2 ^ h := Nat.pow_pos (by decide)
    omega

theorem spine_tags (k : Nat) : ∀ h a, ∀ x ∈ spine h a, ∃ c c', (x, c) ∈ (full h a).tags ∧ (x, c') ∈ (more k h a).tags ∧ c ≠ c'
  | 0, _, x, hx => by simp [spine] at hx
  | h + 1, a, x, hx => by
    simp only [spine, List.mem_cons] at hx
    rcases hx with rfl | hx
    · refine ⟨max (full h a).height (full h (a + 2 ^ h)).height, max (full h a).height (more k h (a + 2 ^ h)).height,
        by simp [full, tags], by simp [more, tags], ?_⟩
      rw [(full_ok h a).2.1, (full_ok h _).2.1, more_height]
      omega
    · obtain ⟨c, c', h1, h2, h3⟩ := spine_tags k h _ x hx
      exact ⟨c, c', by simp [full, tags, h1], by simp [more, tags, h2], h3⟩

end Sokoban.Textbook.Tree

namespace Sokoban.AVLTree
open MapSpec Textbook AVLSpec BT
variable {K V : Type} {M : Nat}

theorem Inv.high [LinearOrder K] {s : AVLTree K V M} {E : Ents K V} (h : Inv s E) {T : Tree K} (hT : HeldT T s E) {k : K} {c : Nat}
    (hk : (k, c) ∈ T.tags) : High s k c := by
  obtain ⟨t, hz, hg, hs, hE, _⟩ := h.tree
  have e : t.sk = T := (HeldT.is ⟨t, hz, hg, rfl⟩ : AVLIs s s.root t.sk ∧ _).1.unique hT.is.1
  subst e
  have hk1 : k ∈ t.sk.tags.map Prod.fst := List.mem_map_of_mem (f := Prod.fst) hk
  have hnd : (t.sk.tags.map Prod.fst).Nodup := by
    rw [avl_tags_keys, keys_sk, hE]
    have hs' : (E.map fun e => e.2.1).Pairwise (· < ·) := by rw [List.pairwise_map]; exact hs
    exact hs'.imp (fun h => ne_of_lt h)
  rw [avl_tags_keys, keys_sk] at hk1
  obtain ⟨⟨i, k', v⟩, hm, rfl⟩ := List.mem_map.1 hk1
  obtain ⟨b, q1, q2⟩ := tag_of hz.shape (fun i hi => hz.rng (Or.inl hi)) hg hm
  have hf := List.inj_on_of_nodup_map hnd hk q1 rfl
  injection hf with _ hf
  have hi : i ≠ SENTINEL := by
    have := (hz.rng (i := i) (Or.inl (by rw [BT.ids]; exact List.mem_map_of_mem (f := Prod.fst) hm))).1
    show i ≠ 0
    omega
  rw [hE] at hm
  exact ⟨i, (h.getAddr_iff hi).2 ⟨v, hm⟩, hi, by rw [hf]; exact q2⟩

theorem full_again (hM : M + 1 < 2 ^ 32) (hM0 : 0 < M) {h : Nat} (hh : 2 ^ h ≤ M) (v : V) : ∀ (m : Nat) {s : AVLTree Nat V M}
    {E : Ents Nat V} {fm : FMap Nat V}, Inv s E → HeldT (Tree.full h 0) s E → fm.Lists (E.map Prod.snd) →
    Rewritings s (List.replicate m [Op.insert (2 ^ h) v, .remove (2 ^ h)]).flatten (2 * h * m)
  | 0, s, E, fm, _, _, _ => .done s
  | m + 1, s, E, fm, hi, hT, hm => by
    obtain ⟨f1, f2, f3⟩ := Tree.full_insert (k := 2 ^ h) h 0 (by omega)
    have hsz := (Tree.full_ok h 0).2.2.1
    obtain ⟨s1, o1, E1, e1, hT1, _⟩ := hT.call hM hM0 (.insert (2 ^ h) v)
    obtain ⟨s1', o1', E1', m1, e1', h1, hm1, _⟩ := call_spec hM hM0 s E fm (.insert (2 ^ h) v) hi hm
    rw [e1] at e1'; cases e1'
    obtain ⟨T1, hT1', _⟩ := h1.heights
    have q1 : T1 = Tree.more (2 ^ h) h 0 := by
      rw [hT1'.is.1.unique hT1.is.1, Tree.step, if_neg (by omega), f1]
    subst q1
    obtain ⟨s2, o2, E2, e2, hT2, _⟩ := hT1'.call hM hM0 (.remove (2 ^ h) : Op Nat V)
    obtain ⟨s2', o2', E2', m2, e2', h2, hm2, _⟩ := call_spec hM hM0 s1 E1' m1 (.remove (2 ^ h)) h1 hm1
    rw [e2] at e2'; cases e2'
    obtain ⟨T2, hT2', _⟩ := h2.heights
    have q2 : T2 = Tree.full h 0 := by
      rw [hT2'.is.1.unique hT2.is.1, Tree.step, f3]
    subst q2
    have ih := full_again hM hM0 hh v m h2 hT2' hm2
    have r1 : Rewritten s s1 (Tree.spine h 0) := ⟨Tree.spine_nodup h 0, fun k hk => by
      obtain ⟨c, c', a1, a2, a3⟩ := Tree.spine_tags (2 ^ h) h 0 k hk
      exact ⟨c, c', hi.high hT a1, h1.high hT1' a2, a3⟩⟩
    have r2 : Rewritten s1 s2 (Tree.spine h 0) := ⟨Tree.spine_nodup h 0, fun k hk => by
      obtain ⟨c, c', a1, a2, a3⟩ := Tree.spine_tags (2 ^ h) h 0 k hk
      exact ⟨c', c, h1.high hT1' a2, h2.high hT2' a1, a3.symm⟩⟩
    have := Rewritings.call e1 r1 (Rewritings.call e2 r2 ih)
    rw [Tree.spine_length] at this
    have en : 2 * h * (m + 1) = h + (h + 2 * h * m) := by rw [Nat.mul_succ]; omega
    rw [en]
    exact this

end Sokoban.AVLTree
