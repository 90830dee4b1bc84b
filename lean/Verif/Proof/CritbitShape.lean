import Verif.Proof.CritbitLaws
import Verif.Spec.CritbitShape

/-
The shape of a critbit tree is the trie of its keys.
-/
namespace Sokoban.Critbit
open CT CritbitSpec
variable {V : Type} {N M : Nat} {s : Critbit V N M} {t l r : CT V}

/-- shape of a ghost tree -/
def shapeOf : CT V → Shape
  | .leaf _ _ k _ => .leaf k
  | .inner _ p _ l r => .inner p (shapeOf l) (shapeOf r)

/-- keys of a ghost tree -/
def keysOf (t : CT V) : List (BitVec 128) := t.ents.map fun e => e.2.1

theorem trie_nil (n : Nat) : trie n [] = none := by
  induction n with
  | zero => rfl
  | succ n ih => simp [trie, ih]

/-- all keys have the bit: nothing branches -/
theorem trie_step {n : Nat} {ks : List (BitVec 128)} (b : Bool) (h : ∀ k ∈ ks, k.getMsbD (127 - n) = b) :
    trie (n + 1) ks = trie n ks := by
  cases b with
  | false =>
    have h1 : (ks.filter fun k => !k.getMsbD (127 - n)) = ks := by
      rw [List.filter_eq_self]; intro k hk; simp [h k hk]
    have h2 : (ks.filter fun k => k.getMsbD (127 - n)) = [] := by
      rw [List.filter_eq_nil_iff]; intro k hk; simp [h k hk]
    rw [trie, h1, h2, trie_nil]
    cases trie n ks <;> rfl
  | true =>
    have h1 : (ks.filter fun k => !k.getMsbD (127 - n)) = [] := by
      rw [List.filter_eq_nil_iff]; intro k hk; simp [h k hk]
    have h2 : (ks.filter fun k => k.getMsbD (127 - n)) = ks := by
      rw [List.filter_eq_self]; intro k hk; simp [h k hk]
    rw [trie, h1, h2, trie_nil]

/-- no branching on bits on which all keys agree -/
theorem trie_skip {ks : List (BitVec 128)} {n : Nat} {c : BitVec 128}
    (h : ∀ a ∈ ks, ∀ j < 128 - n, a.getMsbD j = c.getMsbD j) :
    ∀ d, n + d ≤ 128 → trie (n + d) ks = trie n ks
  | 0, _ => rfl
  | d + 1, hd => by
    rw [← Nat.add_assoc, trie_step (c.getMsbD (127 - (n + d))) (fun k hk => h k hk _ (by omega))]
    exact trie_skip h d (by omega)

theorem trie_same {ks : List (BitVec 128)} {n m : Nat} (c : BitVec 128) (h : ∀ a ∈ ks, a >>> n = c >>> n) (hnm : n ≤ m)
    (hm : m ≤ 128) : trie m ks = trie n ks := by
  obtain ⟨d, rfl⟩ := Nat.exists_eq_add_of_le hnm
  have hb : ∀ a ∈ ks, ∀ j < 128 - n, a.getMsbD j = c.getMsbD j := by
    intro a ha j hj
    have := congrArg (fun x : BitVec 128 => x.getLsbD (127 - j - n)) (h a ha)
    simp only [BitVec.getLsbD_ushiftRight] at this
    rw [BitVec.getMsbD_eq_getLsbD, BitVec.getMsbD_eq_getLsbD]
    rw [show n + (127 - j - n) = 128 - 1 - j by omega] at this
    rw [this]
  exact trie_skip hb d hm

theorem mem_keysOf {k : BitVec 128} : k ∈ keysOf t ↔ ∃ e ∈ t.ents, e.2.1 = k := by simp [keysOf]

theorem keysOf_inner {i p : Nat} {k : BitVec 128} : keysOf (.inner i p k l r) = keysOf l ++ keysOf r := by
  simp [keysOf]

theorem trie_eq : ∀ (n : Nat) (t : CT V) (ks : List (BitVec 128)), n ≤ 128 → Rad t → (∀ k, k ∈ ks ↔ k ∈ keysOf t) →
    (∀ a ∈ ks, ∀ b ∈ ks, Agree (128 - n) a b) → trie n ks = some (shapeOf t) := by
  intro n
  induction n with
  | zero =>
    intro t ks _ hr hk ha
    have heq : ∀ a ∈ ks, ∀ b ∈ ks, a = b := fun a h b h' => (ha a h b h').eq
    cases t with
    | leaf i j k v =>
      have hmem : k ∈ ks := (hk k).2 (by simp [keysOf])
      cases ks with
      | nil => simp at hmem
      | cons a ks => simp [trie, shapeOf, heq a (by simp) k hmem]
    | inner i p k l r =>
      obtain ⟨a, ha'⟩ := List.exists_mem_of_ne_nil _ l.ents_ne
      obtain ⟨b, hb'⟩ := List.exists_mem_of_ne_nil _ r.ents_ne
      have := heq a.2.1 ((hk _).2 (by rw [keysOf_inner]; exact List.mem_append.2 (Or.inl (mem_keysOf.2 ⟨a, ha', rfl⟩))))
        b.2.1 ((hk _).2 (by rw [keysOf_inner]; exact List.mem_append.2 (Or.inr (mem_keysOf.2 ⟨b, hb', rfl⟩))))
      have h1 := (hr.2.1 a ha').2
      rw [this, (hr.2.2.1 b hb').2] at h1
      cases h1
  | succ n ih =>
    intro t ks hn hr hk ha
    have hbit : ∀ b : Bool, (∀ k ∈ ks, k.getMsbD (127 - n) = b) → trie (n + 1) ks = some (shapeOf t) := by
      intro b hb
      rw [trie_step b hb]
      refine ih t ks (by omega) hr hk (fun x hx y hy j hj => ?_)
      by_cases hj' : j = 127 - n
      · subst hj'; rw [hb x hx, hb y hy]
      · exact ha x hx y hy j (by omega)
    cases t with
    | leaf i j k v =>
      refine hbit (k.getMsbD (127 - n)) fun x hx => ?_
      have : x = k := by simpa [keysOf] using (hk x).1 hx
      rw [this]
    | inner i p k l r =>
      obtain ⟨h1, h2, h3, h4, h5⟩ := id hr
      have memL : ∀ x ∈ keysOf l, Agree p k x ∧ x.getMsbD p = false := by
        intro x hx; obtain ⟨e, he, rfl⟩ := mem_keysOf.1 hx; exact h2 e he
      have memR : ∀ x ∈ keysOf r, Agree p k x ∧ x.getMsbD p = true := by
        intro x hx; obtain ⟨e, he, rfl⟩ := mem_keysOf.1 hx; exact h3 e he
      have hagree : ∀ x ∈ ks, Agree p k x := by
        intro x hx
        have := (hk x).1 hx
        rw [keysOf_inner, List.mem_append] at this
        rcases this with h | h
        · exact (memL x h).1
        · exact (memR x h).1
      obtain ⟨a, ha'⟩ := List.exists_mem_of_ne_nil _ l.ents_ne
      obtain ⟨b, hb'⟩ := List.exists_mem_of_ne_nil _ r.ents_ne
      have hal : a.2.1 ∈ ks := (hk _).2 (by rw [keysOf_inner]; exact List.mem_append.2 (Or.inl (mem_keysOf.2 ⟨a, ha', rfl⟩)))
      have hbr : b.2.1 ∈ ks := (hk _).2 (by rw [keysOf_inner]; exact List.mem_append.2 (Or.inr (mem_keysOf.2 ⟨b, hb', rfl⟩)))
      have hpge : 127 - n ≤ p := by
        refine Classical.byContradiction fun hc => ?_
        have := ha _ hal _ hbr p (by omega)
        rw [(h2 a ha').2, (h3 b hb').2] at this
        cases this
      by_cases hp : p = 127 - n
      · have hL : ∀ x, x ∈ (ks.filter fun k => !k.getMsbD (127 - n)) ↔ x ∈ keysOf l := by
          intro x
          rw [List.mem_filter, hk x, keysOf_inner, List.mem_append, ← hp]
          constructor
          · rintro ⟨h | h, hx⟩
            · exact h
            · rw [(memR x h).2] at hx; cases hx
          · intro h; exact ⟨Or.inl h, by rw [(memL x h).2]; rfl⟩
        have hR : ∀ x, x ∈ (ks.filter fun k => k.getMsbD (127 - n)) ↔ x ∈ keysOf r := by
          intro x
          rw [List.mem_filter, hk x, keysOf_inner, List.mem_append, ← hp]
          constructor
          · rintro ⟨h | h, hx⟩
            · rw [(memL x h).2] at hx; cases hx
            · exact h
          · intro h; exact ⟨Or.inr h, (memR x h).2⟩
        have e1 := ih l _ (by omega) h4 hL (by
          intro x hx y hy j hj
          rw [hL] at hx hy
          by_cases hj' : j = p
          · subst hj'; rw [(memL x hx).2, (memL y hy).2]
          · exact ((memL x hx).1.symm.trans (memL y hy).1) j (by omega))
        have e2 := ih r _ (by omega) h5 hR (by
          intro x hx y hy j hj
          rw [hR] at hx hy
          by_cases hj' : j = p
          · subst hj'; rw [(memR x hx).2, (memR y hy).2]
          · exact ((memR x hx).1.symm.trans (memR y hy).1) j (by omega))
        rw [trie, e1, e2, shapeOf, hp]
      · exact hbit (k.getMsbD (127 - n)) fun x hx => (hagree x hx (127 - n) (by omega)).symm

theorem shaped : ∀ {t : CT V} {p : Nat}, Sh s p t → Shaped s t.root (shapeOf t) := by
  intro t
  induction t with
  | leaf i j k v =>
    intro p h
    have hr := h.range (i := i) (by simp)
    have hs := h.2.2.2.2.2
    have hj := s.leaves.val?_range hs
    refine ⟨?_, ?_⟩
    · show s.isInnerNode i = _
      unfold isInnerNode
      rw [s.nodeAllocator.getRegister_ok hr.2 (by simp [VALUE])]
      show Except.ok (decide (s.nodeAllocator.reg i 3 = 0)) = _
      rw [h.2.2.2.1]
      simp; omega
    · show s.getKey i = _
      unfold getKey
      rw [s.nodeAllocator.getValue_ok h.2.2.2.2.1]; rfl
  | inner i q k l r ihl ihr =>
    intro p h
    have hr := h.range (i := i) (by simp)
    obtain ⟨h1, h2, h3, h4, h5, h6, h7⟩ := h
    refine ⟨?_, ⟨_, s.nodeAllocator.getValue_ok h5, rfl⟩, ⟨l.root, ?_, ihl h6⟩, r.root, ?_, ihr h7⟩
    · show s.isInnerNode i = _
      unfold isInnerNode
      rw [s.nodeAllocator.getRegister_ok hr.2 (by simp [VALUE])]
      show Except.ok (decide (s.nodeAllocator.reg i 3 = 0)) = _
      rw [h4]; rfl
    · rw [← h1]; exact s.nodeAllocator.getRegister_ok hr.2 (by simp [LEFT])
    · rw [← h2]; exact s.nodeAllocator.getRegister_ok hr.2 (by simp [RIGHT])

theorem Shaped.unique : ∀ {a b : Shape} {i : Nat}, Shaped s i a → Shaped s i b → a = b := by
  intro a
  induction a with
  | leaf k =>
    intro b i ha hb
    cases b with
    | leaf k' =>
      have := ha.2.symm.trans hb.2
      cases this; rfl
    | inner p l r => have := ha.1.symm.trans hb.1; cases this
  | inner p l r ihl ihr =>
    intro b i ha hb
    cases b with
    | leaf k' => have := ha.1.symm.trans hb.1; cases this
    | inner p' l' r' =>
      obtain ⟨_, ⟨n, n1, rfl⟩, ⟨x, x1, x2⟩, y, y1, y2⟩ := ha
      obtain ⟨_, ⟨n', n1', rfl⟩, ⟨x', x1', x2'⟩, y', y1', y2'⟩ := hb
      cases n1.symm.trans n1'
      cases x1.symm.trans x1'
      cases y1.symm.trans y1'
      rw [ihl x2 x2', ihr y2 y2']

/-- the whole tree -/
theorem Holds.shape (h : Holds s t) {ks : List (BitVec 128)} (hk : ∀ k, k ∈ ks ↔ k ∈ keysOf t) :
    trie 128 ks = some (shapeOf t) ∧ Shaped s s.root (shapeOf t) := by
  refine ⟨trie_eq 128 t ks (by omega) h.rad hk (fun a _ b _ j hj => by omega), ?_⟩
  have := shaped h.sh
  rwa [← h.root] at this

/-- the keys are those contained -/
theorem Inv.contains_iff {E : Ents (BitVec 128) V} (h : Inv s E) (k : BitVec 128) :
    s.contains k = .ok true ↔ k ∈ E.map fun e => e.2.1 := by
  unfold contains
  rcases Ents.cases E k with ha | ⟨L1, i, v, L2, hE⟩
  · rw [h.get_none ha]
    constructor
    · intro hc; cases hc
    · intro hc
      obtain ⟨e, he, rfl⟩ := List.mem_map.1 hc
      exact absurd rfl (ha e he)
  · have hi : (i, k, v) ∈ E := by rw [hE]; simp
    rw [h.get_some hi]
    exact ⟨fun _ => List.mem_map.2 ⟨_, hi, rfl⟩, fun _ => rfl⟩

/-- keys 0 and all powers of two below `2 ^ n`: the leftmost leaf is below `n` branchings -/
theorem trie_deep : ∀ (n : Nat) (ks : List (BitVec 128)), n ≤ 128 → 0#128 ∈ ks →
    (∀ i < n, BitVec.twoPow 128 i ∈ ks) → ∃ sh, trie n ks = some sh ∧ n + 1 ≤ sh.leftDepth := by
  intro n
  induction n with
  | zero =>
    intro ks _ h0 _
    cases ks with
    | nil => simp at h0
    | cons a ks => exact ⟨.leaf a, rfl, by simp [Shape.leftDepth]⟩
  | succ n ih =>
    intro ks hn h0 hp
    have hbit : ∀ i, i < 128 → (BitVec.twoPow 128 i).getMsbD (127 - n) = decide (i = n) := by
      intro i hi
      rw [BitVec.getMsbD_eq_getLsbD, BitVec.getLsbD_twoPow]
      have : 128 - 1 - (127 - n) = n := by omega
      rw [this]
      simp [hi]
      omega
    obtain ⟨l, hl, hd⟩ := ih (ks.filter fun k => !k.getMsbD (127 - n)) (by omega)
      (List.mem_filter.2 ⟨h0, by simp⟩)
      (fun i hi => List.mem_filter.2 ⟨hp i (by omega), by
        rw [hbit i (by omega)]; simp; omega⟩)
    have hr : ∀ ks : List (BitVec 128), ks ≠ [] → ∃ sh, trie n ks = some sh := by
      clear ih hl hd
      intro ks hne
      clear hbit hp h0 hn
      induction n generalizing ks with
      | zero =>
        cases ks with
        | nil => exact absurd rfl hne
        | cons a ks => exact ⟨_, rfl⟩
      | succ n ih =>
        rw [trie]
        by_cases h1 : (ks.filter fun k => k.getMsbD (127 - n)) = []
        · have h2 : (ks.filter fun k => !k.getMsbD (127 - n)) ≠ [] := by
            intro hc
            rw [List.filter_eq_nil_iff] at h1 hc
            obtain ⟨a, ha⟩ := List.exists_mem_of_ne_nil _ hne
            have := h1 a ha
            have := hc a ha
            simp_all
          obtain ⟨a, ha⟩ := ih _ h2
          rw [ha]
          cases trie n (ks.filter fun k => k.getMsbD (127 - n)) <;> exact ⟨_, rfl⟩
        · obtain ⟨b, hb⟩ := ih _ h1
          rw [hb]
          cases trie n (ks.filter fun k => !k.getMsbD (127 - n)) <;> exact ⟨_, rfl⟩
    obtain ⟨r, hr⟩ := hr (ks.filter fun k => k.getMsbD (127 - n)) (by
      intro hc
      rw [List.filter_eq_nil_iff] at hc
      exact hc _ (hp n (by omega)) (by rw [hbit n (by omega)]; simp))
    refine ⟨.inner (127 - n) l r, by rw [trie, hl, hr], ?_⟩
    simp only [Shape.leftDepth]; omega

/-- the search for key 0 visits all nodes down to the leftmost leaf -/
theorem findLoop_deep : ∀ {t : CT V} {p fuel : Nat}, Sh s p t → Rad t → 0#128 ∈ keysOf t →
    fuel < (shapeOf t).leftDepth → s.findLoop 0#128 fuel t.root = .error .diverge := by
  intro t
  induction t with
  | leaf i j k v =>
    intro p fuel _ _ _ hf
    simp only [shapeOf, Shape.leftDepth] at hf
    obtain rfl : fuel = 0 := by omega
    rfl
  | inner i q k l r ihl ihr =>
    intro p fuel h hr h0 hf
    cases fuel with
    | zero => rfl
    | succ fuel =>
      obtain ⟨r1, r2, r3, r4, r5⟩ := hr
      obtain ⟨h1, h2, h3, h4, h5, h6⟩ := h.inner r1
      have h0l : 0#128 ∈ keysOf l := by
        rw [keysOf_inner, List.mem_append] at h0
        rcases h0 with h0 | h0
        · exact h0
        · obtain ⟨e, he, h0⟩ := mem_keysOf.1 h0
          have := (r3 e he).2
          rw [h0] at this
          simp at this
      obtain ⟨e, he, hz⟩ := mem_keysOf.1 h0l
      have ha := (r2 e he).1
      rw [hz] at ha
      simp only [shapeOf, Shape.leftDepth] at hf
      simp only [root_inner, findLoop, h1, h2, h6, except_bind_ok]
      simp only [Bool.not_true, Bool.false_eq_true, if_false, ge_iff_le]
      rw [if_pos ((le_leadingZeros (by omega)).2 ha)]
      simp only [BitVec.getMsbD_zero, Bool.false_eq_true, if_false]
      exact ihl h.2.2.2.2.2.1 r4 h0l (by omega)

/-- as many keys as there is room for can be inserted -/
theorem run_inserts (hN : N + 1 < 2 ^ 32) (hNM : 2 * M ≤ N) (hM0 : 0 < M) (v : V) :
    ∀ (ks : List (BitVec 128)) (s : Critbit V N M) (E : Ents (BitVec 128) V), Inv s E → E.length + ks.length ≤ M →
    ∃ s' outs E', run CritbitSpec.call s (ks.map fun k => .insert k v) = .ok (s', outs) ∧ Inv s' E' ∧
      (∀ k ∈ ks, s'.contains k = .ok true) ∧ (∀ k, s.contains k = .ok true → s'.contains k = .ok true) := by
  intro ks
  induction ks with
  | nil => intro s E h _; exact ⟨s, [], E, rfl, h, by simp, fun _ h => h⟩
  | cons k ks ih =>
    intro s E h hl
    simp only [List.length_cons] at hl
    rcases h.insert hN hNM hM0 k v with ⟨hc, _⟩ | ⟨_, s1, n, j, t', e, h1, hm, hi, _⟩
    · omega
    · have hI : Inv s1 t'.ents := Or.inr ⟨t', h1, rfl⟩
      have hlen : t'.ents.length ≤ E.length + 1 := by
        rcases hi with ⟨L1, v0, L2, rfl, h2⟩ | ⟨_, _, L1, L2, rfl, h2⟩ <;> (rw [h2]; simp; try omega)
      obtain ⟨s2, outs, E2, e2, h2, h3, h4⟩ := ih s1 t'.ents hI (by omega)
      have hck : s1.contains k = .ok true :=
        (hI.contains_iff k).2 (List.mem_map.2 ⟨_, (CT.mem_nents hm).1, rfl⟩)
      refine ⟨s2, MapSpec.Out.inserted true :: outs, E2, ?_, h2, ?_, ?_⟩
      · simp only [List.map_cons, run]
        have : CritbitSpec.call s (.insert k v) = .ok (s1, .inserted true) := by
          show (do let (s, r) ← s.insert k v; return (s, MapSpec.Out.inserted r.isSome)) = _
          rw [e]; rfl
        rw [this]
        simp only [except_bind_ok, e2]; rfl
      · intro k' hk'
        rcases List.mem_cons.1 hk' with rfl | hk'
        · exact h4 _ hck
        · exact h3 _ hk'
      · intro k' hk'
        refine h4 _ ((hI.contains_iff k').2 ?_)
        have := (h.contains_iff k').1 hk'
        rcases hi with ⟨L1, v0, L2, rfl, h2⟩ | ⟨_, _, L1, L2, rfl, h2⟩
        · rw [h2]; simpa using this
        · rw [h2]
          simp only [List.map_append, List.map_cons, List.mem_append, List.mem_cons] at this ⊢
          rcases this with h | h
          · exact Or.inl h
          · exact Or.inr (Or.inr h)

end Sokoban.Critbit
