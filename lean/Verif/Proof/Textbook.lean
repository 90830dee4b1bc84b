import Verif.Proof.AVLAny
import Verif.Proof.RBAny

/-
Histories of calls as computations on algebraic trees.
-/
namespace Sokoban
open MapSpec Textbook Ents

namespace Api
variable {S K V T : Type}

theorem Walks.restrict {A : Api S K V} {M : Nat} {Rep Rep' : S → Ents K V → Prop} {It : S → A.Iter → List A.Ref → Prop}
    (H : Walks A M Rep It) (h : ∀ {s E}, Rep' s E → Rep s E)
    (w : ∀ {s L1 i k v L2}, Rep' s (L1 ++ (i, k, v) :: L2) → ∀ w, ∃ s', A.write s i w = .ok s' ∧
      Rep' s' (L1 ++ (i, k, w) :: L2) ∧ ∀ it l, It s it l → It s' it l) : Walks A M Rep' It where
  slots := fun r => H.slots (h r)
  range := fun r => H.range (h r)
  le := fun r => H.le (h r)
  len := fun r => H.len (h r)
  empty := H.empty
  contains := H.contains
  index := H.index
  readVal := fun r => H.readVal (h r)
  read := fun r => H.read (h r)
  write := w
  it := fun r => H.it (h r)
  nextMut := fun r => H.nextMut (h r)
  nextBackMut := fun r => H.nextBackMut (h r)
  next := H.next
  nextBack := H.nextBack

/-- the calls compute with trees -/
structure Shaped (A : Api S K V) (M : Nat) (Rep : T → S → Ents K V → Prop) (It : S → A.Iter → List A.Ref → Prop)
    (has : T → K → Bool) (ins rem : T → K → T) : Prop where
  walks : ∀ t, Walks A M (Rep t) It
  find : ∀ {t s E}, Rep t s E → ∀ k,
    (A.getMut s k = .ok none ∧ A.remove s k = .ok (s, none) ∧ (has t k = false ∧ rem t k = t) ∧
      ∀ v, (E.length = M ∧ A.insert s k v = .ok (s, none)) ∨
        (E.length < M ∧ ∃ s' j E', A.insert s k v = .ok (s', some j) ∧ Rep (ins t k) s' E')) ∨
    ∃ L1 i k' w L2, E = L1 ++ (i, k', w) :: L2 ∧ A.getMut s k = .ok (some i) ∧
      (∃ s', A.remove s k = .ok (s', some w) ∧ Rep (rem t k) s' (L1 ++ L2)) ∧ (has t k = true ∧ ins t k = t) ∧
      ∀ v, ∃ s' j E', A.insert s k v = .ok (s', some j) ∧ Rep t s' E'

variable {A : Api S K V} {M : Nat} {Rep : T → S → Ents K V → Prop} {It : S → A.Iter → List A.Ref → Prop}
    {has : T → K → Bool} {ins rem : T → K → T}

theorem Shaped.call (H : Shaped A M Rep It has ins rem) {t : T} {s : S} {E : Ents K V} (h : Rep t s E) (op : Op K V) :
    ∃ s' o E', A.call s op = .ok (s', o) ∧ Rep (match op with
      | .insert k _ => if E.length = M ∧ has t k = false then t else ins t k
      | .remove k => rem t k
      | .getMut _ _ => t
      | .iterMut _ => t) s' E' ∧ Returns (has t) (decide (E.length = M)) op o := by
  cases op with
  | insert k v =>
    rcases H.find h k with ⟨_, _, ⟨h1, _⟩, hi⟩ | ⟨L1, i, k', w, L2, rfl, _, _, ⟨h1, h2⟩, hi⟩
    · rcases hi v with ⟨hf, e⟩ | ⟨hf, s', j, E', e, h'⟩
      · exact ⟨s, _, E, by simp only [Api.call, e]; rfl, by simpa [hf, h1] using h, by simp [Returns, h1, hf]⟩
      · exact ⟨s', _, _, by simp only [Api.call, e]; rfl, by simpa [show ¬ E.length = M by omega] using h',
          by simp [Returns, show ¬ E.length = M by omega]⟩
    · obtain ⟨s', j, E', e, h'⟩ := hi v
      exact ⟨s', _, _, by simp only [Api.call, e]; rfl, by simpa [h1, h2] using h', by simp [Returns, h1]⟩
  | remove k =>
    rcases H.find h k with ⟨_, e, ⟨h1, h2⟩, _⟩ | ⟨L1, i, k', w, L2, rfl, _, ⟨s', e, h'⟩, ⟨h1, _⟩, _⟩
    · exact ⟨s, _, E, by simp only [Api.call, e]; rfl, by simpa [h2] using h, _, rfl, by simp [h1]⟩
    · exact ⟨s', _, _, by simp only [Api.call, e]; rfl, h', _, rfl, by simp [h1]⟩
  | getMut k f =>
    rcases H.find h k with ⟨e, _, ⟨h1, _⟩, _⟩ | ⟨L1, i, k', w, L2, rfl, e, _, ⟨h1, _⟩, _⟩
    · exact ⟨s, _, E, by simp only [Api.call, getMutWrite, e]; rfl, h, _, rfl, by simp [h1]⟩
    · obtain ⟨s', ew, h', _⟩ := (H.walks t).write h (f w)
      refine ⟨s', .got (some w), _, ?_, h', _, rfl, by simp [h1]⟩
      simp only [Api.call, getMutWrite, e, except_bind_ok, (H.walks t).readVal h (i := i) (k := k') (v := w) (by simp), ew]
      rfl
  | iterMut es =>
    obtain ⟨s', it', e, h'⟩ := (H.walks t).iterMut h es
    exact ⟨s', _, _, by simp only [Api.call, e]; rfl, h', _, rfl⟩

end Api

/-- histories -/
theorem run_shaped {S Op Out K V T : Type} {stp : T → Op → T} {call : S → Op → R (S × Out)} {Rep : T → S → Ents K V → Prop}
    (hcall : ∀ {t s E} op, Rep t s E → ∃ s' o E', call s op = .ok (s', o) ∧ Rep (stp t op) s' E') :
    ∀ (ops : List Op) {t : T} {s : S} {E : Ents K V}, Rep t s E →
      ∃ s' os E', run call s ops = .ok (s', os) ∧ Rep (ops.foldl stp t) s' E'
  | [], _, s, E, h => ⟨s, [], E, rfl, h⟩
  | op :: ops, t, s, E, h => by
    obtain ⟨s1, o, E1, e1, h1⟩ := hcall op h
    obtain ⟨s2, os, E2, e2, h2⟩ := run_shaped hcall ops h1
    exact ⟨s2, o :: os, E2, by simp [run, e1, e2], h2⟩

variable {K V : Type} {M : Nat}

namespace AVLTree
open AVLSpec
variable {s : AVLTree K V M} {E : Ents K V} {T : Tree K}

theorem avlIs_shape : ∀ {t : BT K V}, AShape s.rg t → (∀ i ∈ t.ids, 1 ≤ i ∧ i ≤ M) →
    (∀ e ∈ t.ents, s.getNode e.1 = .ok ⟨e.2.1, e.2.2⟩) → AVL t → AVLIs s t.root t.sk
  | .nil, _, _, _, _ => rfl
  | .node l x r, ⟨k1, k2, k3, k4, k5⟩, hr, hn, ⟨g1, g2, g3, g4, g5⟩ => by
    have hx := hr x.idx (by simp)
    refine ⟨by simp only [SENTINEL, BT.root_node]; omega, ⟨_, hn x.ent (by simp), rfl⟩, ?_, ⟨l.root, ?_, ?_⟩, ⟨r.root, ?_, ?_⟩⟩
    · rw [BT.root_node, HEIGHT, getField_ok hx.2 (by decide), k3, g1, BT.height_sk, BT.height_sk]
    · rw [BT.root_node, LEFT, getField_ok hx.2 (by decide), k1]
    · exact avlIs_shape k4 (fun i hi => hr i (by simp [hi])) (fun e he => hn e (by simp [he])) g4
    · rw [BT.root_node, RIGHT, getField_ok hx.2 (by decide), k2]
    · exact avlIs_shape k5 (fun i hi => hr i (by simp [hi])) (fun e he => hn e (by simp [he])) g5

theorem HeldT.is (h : HeldT T s E) : AVLIs s s.root T ∧ T.size = E.length ∧ T.keys = E.map fun e => e.2.1 := by
  obtain ⟨t, hz, hg, hE, hroot, _, _, _, hT⟩ := h.tree
  subst hT
  refine ⟨?_, by simp [hE], ?_⟩
  · rw [hroot]
    refine avlIs_shape hz.shape (fun i hi => hz.rng (Or.inl hi)) (fun e he => ?_) hg
    exact getNode_ok hz.base (by rw [← hE, List.nil_append]; exact he)
  · rw [← hE, BT.keys_sk]

theorem HeldT.new (z : AVLNode K V) : HeldT .leaf (new z : AVLTree K V M) [] :=
  ⟨.nil, ⟨trivial, rfl, rfl, Base.new z⟩, trivial, rfl⟩

variable [LT K] [DecidableLT K] [PartialGt K]

theorem shaped (hM : M + 1 < 2 ^ 32) (hM0 : 0 < M) :
    (api : Api (AVLTree K V M) K V).Shaped M HeldT It (fun t k => t.has (order k)) (fun t k => t.insert (order k) k)
      (fun t k => t.remove (order k)) where
  walks t := (loose hM hM0).toWalks.restrict HeldT.held (by
    intro s L1 i k v L2 h w
    obtain ⟨s', e, h', hrg⟩ := h.setVal w
    exact ⟨s', e, h', fun it l hi => It.congr hrg hi⟩)
  find {t s E} h k := by
    rcases h.find hM hM0 k with ⟨e1, e2, h3, hi⟩ | ⟨L1, i, k', w, L2, rfl, hs, e1, h2, h3, hi⟩
    · refine Or.inl ⟨?_, e2, h3, fun v => ?_⟩
      · show AVLTree.getMut _ _ = _
        rw [getMut_eq, e1, except_bind_ok]; rfl
      · rcases hi v with h1 | ⟨h1, s', i, L1, L2, _, g1, g2⟩
        · exact Or.inl h1
        · exact Or.inr ⟨h1, s', i, _, g1, g2⟩
    · have hm : (i, k', w) ∈ L1 ++ (i, k', w) :: L2 := by simp
      have hr := h.held.base.range (i := i) (List.mem_map_of_mem (f := Prod.fst) hm)
      refine Or.inr ⟨L1, i, k', w, L2, rfl, ?_, h2, h3, fun v => ?_⟩
      · show AVLTree.getMut _ _ = _
        rw [getMut_eq, e1, except_bind_ok, if_neg (show ¬ i = SENTINEL by simp [SENTINEL]; omega),
          getNode_ok h.held.base hm]
        rfl
      · obtain ⟨s', e, h'⟩ := hi v
        exact ⟨s', i, _, e, h'⟩

theorem HeldT.call (hM : M + 1 < 2 ^ 32) (hM0 : 0 < M) (h : HeldT T s E) (op : Op K V) :
    ∃ s' o E', call s op = .ok (s', o) ∧ HeldT (T.step order M op) s' E' ∧
      Returns (fun k => T.has (order k)) (decide (T.size = M)) op o := by
  obtain ⟨s', o, E', e, h', ho⟩ := (shaped hM hM0).call h op
  rw [← h.is.2.1] at h' ho
  refine ⟨s', o, E', e, ?_, ho⟩
  cases op <;> exact h'

theorem run_textbook (hM : M + 1 < 2 ^ 32) (hM0 : 0 < M) (z : AVLNode K V) (ops : List (Op K V)) :
    ∃ s os E, run call (AVLTree.new z : AVLTree K V M) ops = .ok (s, os) ∧
      HeldT (ops.foldl (Tree.step order M) .leaf) s E :=
  run_shaped (fun op h => by
    obtain ⟨s', o, E', e, h', _⟩ := h.call hM hM0 op
    exact ⟨s', o, E', e, h'⟩) ops (HeldT.new z)

end AVLTree

namespace RedBlackTree
open RedBlackSpec
variable {s : RedBlackTree K V M} {E : Ents K V} {T : RBTree K}

theorem rbIs_shape : ∀ {t : BT K V} {p n : Nat}, RBShape s.rg p t → (∀ i ∈ t.ids, 1 ≤ i ∧ i ≤ M) →
    (∀ e ∈ t.ents, s.getNode e.1 = .ok ⟨e.2.1, e.2.2⟩) → RB t n → RBIs s p t.root t.rsk
  | .nil, _, _, _, _, _, _ => rfl
  | .node l x r, p, n, ⟨k1, k2, k3, k4, k5, k6⟩, hr, hn, hb => by
    have hx := hr x.idx (by simp)
    have hrec : (x.tag = 0 ∨ x.tag = 1) ∧ (∃ m, RB l m) ∧ ∃ m, RB r m := by
      rcases hb with ⟨h, _, _, h1, h2⟩ | ⟨h, m, _, h1, h2⟩
      · exact ⟨Or.inr h, ⟨_, h1⟩, _, h2⟩
      · exact ⟨Or.inl h, ⟨_, h1⟩, _, h2⟩
    obtain ⟨ht, ⟨m1, h1⟩, m2, h2⟩ := hrec
    refine ⟨by simp only [SENTINEL, BT.root_node]; omega, ⟨_, hn x.ent (by simp), rfl⟩, ?_, ?_, ⟨l.root, ?_, ?_⟩,
      ⟨r.root, ?_, ?_⟩⟩
    · rw [BT.root_node, getColor_ok hx.2, k4]
      rcases ht with h | h <;> simp [h, RED, BLACK]
    · rw [BT.root_node, getParent_ok hx.2, k3]
    · rw [BT.root_node, getLeft_ok hx.2, k1]
    · exact rbIs_shape k5 (fun i hi => hr i (by simp [hi])) (fun e he => hn e (by simp [he])) h1
    · rw [BT.root_node, getRight_ok hx.2, k2]
    · exact rbIs_shape k6 (fun i hi => hr i (by simp [hi])) (fun e he => hn e (by simp [he])) h2

theorem HeldT.is (h : HeldT T s E) : RBIs s SENTINEL s.root T ∧ T.size = E.length ∧ T.keys = E.map fun e => e.2.1 := by
  obtain ⟨t, hz, ⟨n, hg, _⟩, hE, hroot, _, _, _, hT⟩ := h.tree
  subst hT
  refine ⟨?_, by simp [hE], ?_⟩
  · rw [hroot]
    refine rbIs_shape hz.shape (fun i hi => hz.rng (Or.inl hi)) (fun e he => ?_) hg
    exact getNode_ok hz.base (by rw [← hE, List.nil_append]; exact he)
  · rw [← hE, BT.keys_rsk]

theorem HeldT.new (z : RBNode K V) : HeldT .leaf (new z : RedBlackTree K V M) [] :=
  ⟨.nil, ⟨trivial, rfl, rfl, Base.new z⟩, ⟨0, rfl, trivial, by simp [Ctx.ctag], by simp⟩, rfl⟩

variable [Ord K]

theorem shaped (hM : M + 1 < 2 ^ 32) (hM0 : 0 < M) :
    (api : Api (RedBlackTree K V M) K V).Shaped M HeldT It (fun t k => t.has (compare k))
      (fun t k => t.insert (compare k) k) (fun t k => t.remove (compare k)) where
  walks t := (loose hM hM0).toWalks.restrict HeldT.held (by
    intro s L1 i k v L2 h w
    obtain ⟨s', e, h', hrg⟩ := h.setVal w
    exact ⟨s', e, h', fun it l hi => It.congr hrg hi⟩)
  find {t s E} h k := by
    rcases h.find hM hM0 k with ⟨e1, e2, h3, hi⟩ | ⟨L1, i, k', w, L2, rfl, hs, e1, h2, h3, hi⟩
    · refine Or.inl ⟨?_, e2, h3, fun v => ?_⟩
      · show RedBlackTree.getMut _ _ = _
        unfold RedBlackTree.getMut
        rw [e1, except_bind_ok]; rfl
      · rcases hi v with h1 | ⟨h1, s', i, L1, L2, _, g1, g2⟩
        · exact Or.inl h1
        · exact Or.inr ⟨h1, s', i, _, g1, g2⟩
    · have hm : (i, k', w) ∈ L1 ++ (i, k', w) :: L2 := by simp
      have hr := h.held.base.range (i := i) (List.mem_map_of_mem (f := Prod.fst) hm)
      refine Or.inr ⟨L1, i, k', w, L2, rfl, ?_, h2, h3, fun v => ?_⟩
      · show RedBlackTree.getMut _ _ = _
        unfold RedBlackTree.getMut
        rw [e1, except_bind_ok, if_neg (show ¬ i = SENTINEL by simp [SENTINEL]; omega),
          getNode_ok h.held.base hm]
        rfl
      · obtain ⟨s', e, h'⟩ := hi v
        exact ⟨s', i, _, e, h'⟩

theorem HeldT.call (hM : M + 1 < 2 ^ 32) (hM0 : 0 < M) (h : HeldT T s E) (op : TOp K V) :
    ∃ s' o E', call s op = .ok (s', o) ∧ HeldT (T.step compare M op) s' E' ∧ (match op with
      | .map op => ∃ o', o = .map o' ∧ Returns (fun k => T.has (compare k)) (decide (T.size = M)) op o'
      | .removeRoot => o = .root none ∧ T = .leaf ∨
          ∃ c l k v r, o = .root (some (k, v)) ∧ T = .node c l k r) := by
  cases op with
  | map op =>
    obtain ⟨s', o, E', e, h', ho⟩ := (shaped hM hM0).call h op
    rw [← h.is.2.1] at h' ho
    refine ⟨s', .map o, E', by simp only [RedBlackSpec.call, e]; rfl, ?_, o, rfl, ho⟩
    cases op <;> exact h'
  | removeRoot =>
    obtain ⟨t, hz, hg, hE, hroot, hnil, hr0, hh, hT⟩ := h.tree
    subst hT
    by_cases hne : E = []
    · subst hne
      have htn := hnil.2 rfl
      subst htn
      refine ⟨s, .root none, [], ?_, h, Or.inl ⟨rfl, rfl⟩⟩
      have e : s.removeRoot = .ok (s, none) := by
        unfold RedBlackTree.removeRoot
        rw [if_pos (show s.root = SENTINEL from hr0.2 rfl)]; rfl
      simp only [RedBlackSpec.call, e]; rfl
    · cases t with
      | nil => exact absurd (hnil.1 rfl) hne
      | node l x r =>
        obtain ⟨s', t', e, hz', hg', hk'⟩ := removeTreeNode_spec (lim := M + 2) hz hg (by have := hz.lim_ok; omega)
        have e' : s.removeRoot = .ok (s', some ⟨x.key, x.val⟩) := by
          unfold RedBlackTree.removeRoot
          rw [if_neg (show ¬ s.root = SENTINEL from fun hc => hne (hr0.1 hc)), hroot, BT.root_node, hz.getNode,
            except_bind_ok, e]; rfl
        exact ⟨s', .root (some (x.key, x.val)), l.ents ++ r.ents, by simp only [RedBlackSpec.call, e']; rfl,
          ⟨t', by simpa [Ctx.lft, Ctx.rgt] using hz', hg', hk'⟩, Or.inr ⟨_, _, _, _, _, rfl, rfl⟩⟩

theorem run_textbook (hM : M + 1 < 2 ^ 32) (hM0 : 0 < M) (z : RBNode K V) (ops : List (TOp K V)) :
    ∃ s os E, run call (RedBlackTree.new z : RedBlackTree K V M) ops = .ok (s, os) ∧
      HeldT (ops.foldl (RBTree.step compare M) .leaf) s E :=
  run_shaped (fun op h => by
    obtain ⟨s', o, E', e, h', _⟩ := h.call hM hM0 op
    exact ⟨s', o, E', e, h'⟩) ops (HeldT.new z)

end RedBlackTree

/-! ### a memory holds one tree -/

theorem Textbook.AVLIs.unique {t : AVLTree K V M} : ∀ {T T' : Tree K} {i : Nat}, AVLIs t i T → AVLIs t i T' → T = T'
  | .leaf, .leaf, _, _, _ => rfl
  | .leaf, .node _ _ _, _, h, h' => absurd h h'.1
  | .node _ _ _, .leaf, _, h, h' => absurd h' h.1
  | .node _ _ _, .node _ _ _, _, ⟨_, ⟨n, e, h1⟩, _, ⟨a, ea, ha⟩, b, eb, hb⟩, ⟨_, ⟨n', e', h1'⟩, _, ⟨a', ea', ha'⟩, b', eb', hb'⟩ => by
    rw [e] at e'; rw [ea] at ea'; rw [eb] at eb'
    cases e'; cases ea'; cases eb'
    rw [ha.unique ha', hb.unique hb', ← h1, ← h1']

theorem Textbook.RBIs.unique {t : RedBlackTree K V M} : ∀ {T T' : RBTree K} {p i : Nat}, RBIs t p i T → RBIs t p i T' → T = T'
  | .leaf, .leaf, _, _, _, _ => rfl
  | .leaf, .node _ _ _ _, _, _, h, h' => absurd h h'.1
  | .node _ _ _ _, .leaf, _, _, h, h' => absurd h' h.1
  | .node c _ _ _, .node c' _ _ _, _, _, ⟨_, ⟨n, e, h1⟩, ec, _, ⟨a, ea, ha⟩, b, eb, hb⟩,
      ⟨_, ⟨n', e', h1'⟩, ec', _, ⟨a', ea', ha'⟩, b', eb', hb'⟩ => by
    rw [e] at e'; rw [ea] at ea'; rw [eb] at eb'; rw [ec] at ec'
    cases e'; cases ea'; cases eb'
    have hc : c = c' := by cases c <;> cases c' <;> first | rfl | (exfalso; revert ec'; simp [RedBlackTree.RED, RedBlackTree.BLACK])
    rw [ha.unique ha', hb.unique hb', ← h1, ← h1', hc]

end Sokoban
