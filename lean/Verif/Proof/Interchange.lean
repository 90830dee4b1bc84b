import Verif.Spec.Interchange
import Verif.Proof.RBLaws
import Verif.Proof.AVLLaws
import Verif.Proof.CritbitLaws
import Verif.Proof.HashTableHist

/-
What the rules of the maps have in common determines the results of a history.
-/
namespace Sokoban.MapSpec
variable {K V : Type}

theorem sorted_unique [LinearOrder K] {m : FMap K V} {L L' : List (K × V)} (h : m.Lists L) (h' : m.Lists L')
    (hs : L.Pairwise (fun a b => a.1 < b.1)) (hs' : L'.Pairwise (fun a b => a.1 < b.1)) : L = L' := by
  have hp := h.of_perm_perm h'
  clear h h'
  induction L generalizing L' with
  | nil => exact (List.nil_perm.1 hp).symm
  | cons x L ih =>
    cases L' with
    | nil => exact absurd (List.perm_nil.1 hp) (by simp)
    | cons y L' =>
      rw [List.pairwise_cons] at hs hs'
      have hxy : x = y := by
        rcases List.mem_cons.1 (hp.mem_iff.1 (List.mem_cons_self (a := x) (l := L))) with h | h
        · exact h
        · rcases List.mem_cons.1 (hp.mem_iff.2 (List.mem_cons_self (a := y) (l := L'))) with h2 | h2
          · exact h2.symm
          · exact absurd (hs'.1 x h) (not_lt_of_ge (le_of_lt (hs.1 y h2)))
      subst hxy
      rw [ih hs.2 hs'.2 (List.Perm.cons_inv hp)]

theorem steps_agree [DecidableEq K] {R R' : Rules K V} {P : FMap K V → List (Op K V) → Prop}
    (hstep : ∀ m op ops o m1 o' m2, P m (op :: ops) → Step R m op o m1 → Step R' m op o' m2 →
      o = o' ∧ m1 = m2 ∧ P m1 ops) : ∀ (ops : List (Op K V)) {m outs m1 outs' m2}, P m ops →
    Steps R m ops outs m1 → Steps R' m ops outs' m2 → outs = outs' ∧ m1 = m2
  | [], m, outs, m1, outs', m2, _, h, h' => by
    cases outs <;> cases outs' <;> simp only [Trace] at h h'
    exact ⟨rfl, by rw [h, h']⟩
  | op :: ops, m, outs, m1, outs', m2, hP, h, h' => by
    cases outs with
    | nil => exact absurd h id
    | cons o os =>
      cases outs' with
      | nil => exact absurd h' id
      | cons o' os' =>
        obtain ⟨n, hs, ht⟩ := h
        obtain ⟨n', hs', ht'⟩ := h'
        obtain ⟨rfl, rfl, hP'⟩ := hstep _ _ _ _ _ _ _ hP hs hs'
        obtain ⟨rfl, rfl⟩ := steps_agree hstep ops hP' ht ht'
        exact ⟨rfl, rfl⟩

theorem step_agree [DecidableEq K] {R R' : Rules K V} {m m1 m2 : FMap K V} {op : Op K V} {o o' : Out K V}
    (href : ∀ k v, op = .insert k v → (R.refuses m k ↔ R'.refuses m k))
    (hit : ∀ es, op = .iterMut es → ∀ L L', m.Lists L → m.Lists L' → R.ordered L → R'.ordered L' →
      R.visit L (script es) = R'.visit L' (script es))
    (h : Step R m op o m1) (h' : Step R' m op o' m2) : o = o' ∧ m1 = m2 := by
  cases op with
  | insert k v =>
    have := href k v rfl
    rcases h with ⟨h1, rfl, rfl⟩ | ⟨h1, rfl, rfl⟩ <;> rcases h' with ⟨h2, rfl, rfl⟩ | ⟨h2, rfl, rfl⟩
    · exact ⟨rfl, rfl⟩
    · exact absurd (this.1 h1) h2
    · exact absurd (this.2 h2) h1
    · exact ⟨rfl, rfl⟩
  | remove k =>
    obtain ⟨rfl, rfl⟩ := h
    obtain ⟨rfl, rfl⟩ := h'
    exact ⟨rfl, rfl⟩
  | getMut k f =>
    obtain ⟨rfl, rfl⟩ := h
    obtain ⟨rfl, rfl⟩ := h'
    exact ⟨rfl, rfl⟩
  | iterMut es =>
    obtain ⟨L, hL, ho, rfl, hm1⟩ := h
    obtain ⟨L', hL', ho', rfl, hm2⟩ := h'
    have := hit es rfl L L' hL hL' ho ho'
    rw [← this] at hm2
    rw [this]
    exact ⟨rfl, hm1.unique hm2⟩

/-- two trees -/
theorem tree_tree [LinearOrder K] {M : Nat} {ops : List (Op K V)} {m m1 m2 : FMap K V} {outs outs' : List (Out K V)}
    (h : Steps (treeRules K V M) m ops outs m1) (h' : Steps (treeRules K V M) m ops outs' m2) :
    outs = outs' ∧ m1 = m2 := by
  refine steps_agree (P := fun _ _ => True) ?_ ops trivial h h'
  intro m op ops o m1 o' m2 _ hs hs'
  obtain ⟨h1, h2⟩ := step_agree (fun _ _ _ => Iff.rfl) (fun es _ L L' hL hL' ho ho' => by
    rw [sorted_unique hL hL' ho ho']) hs hs'
  exact ⟨h1, h2, trivial⟩

/-- a tree and a hash table -/
theorem tree_hash [LinearOrder K] {M : Nat} {ops : List (Op K V)} (hops : NoIterMut ops) {m m1 m2 : FMap K V}
    {outs outs' : List (Out K V)}
    (h : Steps (treeRules K V M) m ops outs m1) (h' : Steps (hashRules K V M) m ops outs' m2) :
    outs = outs' ∧ m1 = m2 := by
  refine steps_agree (P := fun _ => NoIterMut) ?_ ops hops h h'
  intro m op ops o m1 o' m2 hP hs hs'
  obtain ⟨h1, h2⟩ := step_agree (R := treeRules K V M) (R' := hashRules K V M) (fun _ _ _ => Iff.rfl) (fun es he => absurd (by rw [he]; simp) (hP es)) hs hs'
  exact ⟨h1, h2, fun es hc => hP es (List.mem_cons_of_mem _ hc)⟩

/-- `S` is the set of keys of `m` -/
def Dom (m : FMap K V) (S : Finset K) : Prop := (∀ k, k ∈ S ↔ m.get k ≠ none) ∧ m.len = S.card

theorem Dom.insert [DecidableEq K] {m : FMap K V} {S : Finset K} (h : Dom m S) (k : K) (v : V) :
    Dom (m.insert k v) (Insert.insert k S) := by
  refine ⟨fun k' => ?_, ?_⟩
  · by_cases hk : k' = k
    · simp [FMap.insert, hk]
    · simp [FMap.insert, hk, h.1]
  · simp only [FMap.insert]
    by_cases hk : k ∈ S
    · rw [Finset.insert_eq_of_mem hk, if_pos (by rw [Option.isSome_iff_ne_none]; exact (h.1 k).1 hk), h.2]
    · rw [Finset.card_insert_of_notMem hk, if_neg (by rw [Option.isSome_iff_ne_none]; exact fun hc => hk ((h.1 k).2 hc)), h.2]

theorem Dom.erase [DecidableEq K] {m : FMap K V} {S : Finset K} (h : Dom m S) (k : K) :
    Dom (m.erase k) (S.erase k) := by
  refine ⟨fun k' => ?_, ?_⟩
  · by_cases hk : k' = k
    · simp [FMap.erase, hk]
    · simp [FMap.erase, hk, h.1]
  · simp only [FMap.erase]
    by_cases hk : k ∈ S
    · rw [Finset.card_erase_of_mem hk, if_pos (by rw [Option.isSome_iff_ne_none]; exact (h.1 k).1 hk), h.2]
    · rw [Finset.erase_eq_of_notMem hk, if_neg (by rw [Option.isSome_iff_ne_none]; exact fun hc => hk ((h.1 k).2 hc)), h.2]

theorem Dom.modify [DecidableEq K] {m : FMap K V} {S : Finset K} (h : Dom m S) (k : K) (f : V → V) :
    Dom (m.modify k f) S := by
  refine ⟨fun k' => ?_, h.2⟩
  by_cases hk : k' = k
  · subst hk; simp [FMap.modify, h.1]
  · simp [FMap.modify, hk, h.1]

theorem Dom.lists {m m' : FMap K V} {S : Finset K} {L L' : List (K × V)} (h : Dom m S) (hL : m.Lists L)
    (hL' : m'.Lists L') (he : L'.map Prod.fst = L.map Prod.fst) : Dom m' S := by
  refine ⟨fun k => ?_, ?_⟩
  · rw [h.1, Ne, Ne, hL.get_none', hL'.get_none', he]
  · rw [← h.2, hL.len, hL'.len]
    simpa using congrArg List.length he

/-- a tree and a critbit tree -/
theorem tree_critbit [LinearOrder K] {M : Nat} {ops : List (Op K V)} {m m1 m2 : FMap K V} {outs outs' : List (Out K V)}
    {S : Finset K} (hS : Dom m S) (hb : Below M S ops)
    (h : Steps (treeRules K V M) m ops outs m1) (h' : Steps (critbitRules K V M) m ops outs' m2) :
    outs = outs' ∧ m1 = m2 := by
  refine steps_agree (P := fun m ops => ∃ S, Dom m S ∧ Below M S ops) ?_ ops ⟨S, hS, hb⟩ h h'
  rintro m op ops o m1 o' m2 ⟨S, hS, hb⟩ hs hs'
  obtain ⟨h1, h2⟩ := step_agree (fun k v he => by
      subst he
      have h1 := hb.1
      have h2 := hS.2
      simp only [treeRules, critbitRules]
      constructor
      · rintro ⟨_, h3⟩; exact h3
      · intro h3; omega) (fun es _ L L' hL hL' ho ho' => by
    rw [sorted_unique hL hL' ho ho']; rfl) hs hs'
  refine ⟨h1, h2, ?_⟩
  cases op with
  | insert k v =>
    rcases hs with ⟨hr, _⟩ | ⟨_, _, rfl⟩
    · have h1 := hb.1
      have h2 := hS.2
      have h3 := hr.2
      omega
    · exact ⟨_, hS.insert k v, hb.2⟩
  | remove k =>
    obtain ⟨_, rfl⟩ := hs
    exact ⟨_, hS.erase k, hb⟩
  | getMut k f =>
    obtain ⟨_, rfl⟩ := hs
    exact ⟨_, hS.modify k f, hb⟩
  | iterMut es =>
    obtain ⟨L, hL, ho, _, hm1⟩ := hs
    refine ⟨S, hS.lists hL hm1 ?_, hb⟩
    refine consumeMut_snd_map Prod.fst (script es) L ?_
    intro e he x
    obtain ⟨y, _, rfl⟩ := List.mem_map.1 he
    rfl

/-- histories of map calls on a red-black tree -/
theorem tsteps_map [LinearOrder K] {M : Nat} : ∀ {ops : List (Op K V)} {m m' : FMap K V} {os : List (RedBlackSpec.TOut K V)},
    RedBlackSpec.TSteps M m (ops.map .map) os m' →
    ∃ os' : List (Out K V), os = os'.map .map ∧ Steps (treeRules K V M) m ops os' m'
  | [], m, m', os, h => by
    cases os with
    | nil => exact ⟨[], rfl, h⟩
    | cons _ _ => exact absurd h id
  | op :: ops, m, m', os, h => by
    cases os with
    | nil => exact absurd h id
    | cons o os =>
      obtain ⟨m1, hs, ht⟩ := h
      cases o with
      | root e => exact absurd hs id
      | map o =>
        obtain ⟨os', rfl, ht'⟩ := tsteps_map (ops := ops) ht
        exact ⟨o :: os', rfl, m1, hs, ht'⟩

end Sokoban.MapSpec
