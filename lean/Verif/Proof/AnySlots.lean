import Verif.Spec.AnySlots
import Mathlib.Data.Set.Finite.Basic
import Mathlib.Data.Set.Finite.Lemmas
import Mathlib.Data.Fintype.EquivFin

/-
Fill all slots with other keys, exchange one after the other, and take the rest out.
-/
namespace Sokoban.Slots
open MapSpec
variable {K V : Type} [DecidableEq K] {cap : Nat}

/-- the fillers with their slots -/
def fillers (g : Nat → K) : Nat → List (K × Nat)
  | 0 => []
  | n + 1 => (g (n + 1), n + 1) :: fillers g n

omit [DecidableEq K] in
theorem mem_fillers {g : Nat → K} {e : K × Nat} : ∀ {n}, e ∈ fillers g n ↔ 1 ≤ e.2 ∧ e.2 ≤ n ∧ e.1 = g e.2
  | 0 => by simp [fillers]; omega
  | n + 1 => by
    simp only [fillers, List.mem_cons, mem_fillers (n := n)]
    constructor
    · rintro (rfl | ⟨h1, h2, h3⟩)
      · exact ⟨by simp, by simp, rfl⟩
      · exact ⟨h1, by omega, h3⟩
    · rintro ⟨h1, h2, h3⟩
      by_cases h : e.2 = n + 1
      · left; rw [← h, ← h3]
      · right; exact ⟨h1, by omega, h3⟩

omit [DecidableEq K] in
theorem length_fillers (g : Nat → K) : ∀ n, (fillers g n).length = n
  | 0 => rfl
  | n + 1 => by simp [fillers, length_fillers g n]

theorem find_absent {σ : Slots K} {k : K} (h : ∀ e ∈ σ.used, e.1 ≠ k) : σ.find k = none := by
  unfold find
  rw [List.find?_eq_none.2 (fun e he => by simpa using h e he)]
  rfl

theorem find_present {U : List (K × Nat)} {F : List Nat} {k : K} {i : Nat} (hU : ∀ e ∈ U, e.1 = k → e.2 = i) (h : (k, i) ∈ U) :
    (⟨U, F⟩ : Slots K).find k = some i := by
  unfold find
  cases hf : U.find? fun e => e.1 = k with
  | none =>
    rw [List.find?_eq_none] at hf
    exact absurd (hf _ h) (by simp)
  | some x =>
    have h1 := List.mem_of_find?_eq_some hf
    have h2 := List.find?_some hf
    rw [Option.map_some, hU x h1 (by simpa using h2)]

/-- all slots up to `n` -/
theorem fill {g : Nat → K} : ∀ n, n ≤ cap → (∀ i j, 1 ≤ i → i ≤ n → 1 ≤ j → j ≤ n → g i = g j → i = j) →
    ((List.range n).map fun i => Act.put (g (i + 1))).foldl (step cap) empty = ⟨fillers g n, []⟩
  | 0, _, _ => rfl
  | n + 1, hn, hg => by
    rw [List.range_succ, List.map_append, List.foldl_append,
      fill n (by omega) fun i j a b c d => hg i j a (by omega) c (by omega)]
    simp only [List.map_cons, List.map_nil, List.foldl_cons, List.foldl_nil, step]
    have hf : (⟨fillers g n, []⟩ : Slots K).find (g (n + 1)) = none := by
      refine find_absent fun e he q => ?_
      obtain ⟨h1, h2, h3⟩ := mem_fillers.1 he
      have := hg e.2 (n + 1) h1 (by omega) (by omega) (by omega) (by rw [← h3, q])
      omega
    rw [if_neg (by rw [hf, length_fillers]; simp; omega)]
    simp [fresh, length_fillers, fillers]

/-- the calls that exchange -/
def swaps (g : Nat → K) (A : List (K × Nat)) : List (Act K) := A.flatMap fun e => [.drop (g e.2), .put e.1]

/-- what is there after them -/
def mixed (g : Nat → K) (n : Nat) (A : List (K × Nat)) : List (K × Nat) :=
  A.reverse ++ (fillers g n).filter fun e => e.2 ∉ A.map Prod.snd

theorem exchange {g : Nat → K} {n : Nat} (hn : n ≤ cap) (hg : ∀ i j, 1 ≤ i → i ≤ n → 1 ≤ j → j ≤ n → g i = g j → i = j)
    (A : List (K × Nat)) : Wish A n → (∀ e ∈ A, ∀ i, 1 ≤ i → i ≤ n → e.1 ≠ g i) →
    (swaps g A).foldl (step cap) ⟨fillers g n, []⟩ = ⟨mixed g n A, []⟩ ∧ (mixed g n A).length ≤ n := by
  induction A using List.reverseRecOn with
  | nil =>
    intro _ _
    have : mixed g n [] = fillers g n := by
      simp [mixed]
    rw [this]
    exact ⟨rfl, (length_fillers g n).le⟩
  | append_singleton A e ih =>
    intro hw ha
    obtain ⟨w1, w2, w3⟩ := hw
    rw [List.map_append, List.map_singleton, List.nodup_append] at w1 w2
    obtain ⟨ih1, ih2⟩ := ih ⟨w1.1, w2.1, fun x hx => w3 x (by simp [hx])⟩ (fun x hx => ha x (by simp [hx]))
    have he := w3 e (by simp)
    have hek : e.1 ∉ A.map Prod.fst := fun q => w1.2.2 _ q _ (by simp) rfl
    have hes : e.2 ∉ A.map Prod.snd := fun q => w2.2.2 _ q _ (by simp) rfl
    have hmem : (g e.2, e.2) ∈ mixed g n A := by
      refine List.mem_append_right _ (List.mem_filter.2 ⟨mem_fillers.2 ⟨he.1, he.2, rfl⟩, by simpa using hes⟩)
    have huniq : ∀ x ∈ mixed g n A, x.1 = g e.2 → x.2 = e.2 := by
      intro x hx q
      rcases List.mem_append.1 hx with hx | hx
      · exact absurd q (ha x (by simp at hx; simp [hx]) _ he.1 he.2)
      · obtain ⟨h1, h2, h3⟩ := mem_fillers.1 (List.mem_filter.1 hx).1
        exact hg _ _ h1 h2 he.1 he.2 (by rw [← h3, q])
    have hfilter : (mixed g n A).filter (fun x => x.1 ≠ g e.2) = A.reverse ++ (fillers g n).filter fun x => x.2 ∉ (A ++ [e]).map Prod.snd := by
      unfold mixed
      rw [List.filter_append, List.filter_filter]
      congr 1
      · exact List.filter_eq_self.2 fun x hx => by
          have := ha x (by simp at hx; simp [hx]) _ he.1 he.2
          simpa using this
      · refine List.filter_congr fun x hx => ?_
        obtain ⟨h1, h2, h3⟩ := mem_fillers.1 hx
        have : x.1 = g e.2 ↔ x.2 = e.2 :=
          ⟨fun q => hg _ _ h1 h2 he.1 he.2 (by rw [← h3, q]), fun q => by rw [h3, q]⟩
        have q1 : (decide (x.1 ≠ g e.2)) = decide (x.2 ≠ e.2) := by
          by_cases h : x.2 = e.2 <;> simp [h, this]
        rw [q1]
        by_cases h : x.2 = e.2 <;> by_cases h' : x.2 ∈ A.map Prod.snd <;> simp [h]
    have hlen : ((mixed g n A).filter (fun x => x.1 ≠ g e.2)).length < (mixed g n A).length :=
      List.length_filter_lt_length_iff_exists.2 ⟨_, hmem, by simp⟩
    rw [hfilter] at hlen
    have hnew : mixed g n (A ++ [e]) = e :: (A.reverse ++ (fillers g n).filter fun x => x.2 ∉ (A ++ [e]).map Prod.snd) := by
      unfold mixed
      rw [List.reverse_append]; rfl
    have h1 : step cap ⟨mixed g n A, []⟩ (.drop (g e.2)) =
        ⟨A.reverse ++ (fillers g n).filter fun x => x.2 ∉ (A ++ [e]).map Prod.snd, [e.2]⟩ := by
      simp only [step]
      rw [find_present huniq hmem]
      simp only [hfilter]
    have h2 : (⟨A.reverse ++ (fillers g n).filter fun x => x.2 ∉ (A ++ [e]).map Prod.snd, [e.2]⟩ : Slots K).find e.1 = none := by
      refine find_absent fun x hx q => ?_
      rcases List.mem_append.1 hx with hx | hx
      · exact hek (q ▸ List.mem_map_of_mem (f := Prod.fst) (List.mem_reverse.1 hx))
      · obtain ⟨k1, k2, k3⟩ := mem_fillers.1 (List.mem_filter.1 hx).1
        exact ha e (by simp) _ k1 k2 (by rw [← q, k3])
    constructor
    · unfold swaps at ih1 ⊢
      rw [List.flatMap_append, List.foldl_append, ih1]
      simp only [List.flatMap_cons, List.flatMap_nil, List.append_nil, List.foldl_cons, List.foldl_nil]
      rw [h1]
      simp only [step]
      rw [h2, if_neg (by simp only [Option.isSome_none, Bool.false_eq_true, false_or]; omega), hnew]
      rfl
    · rw [hnew, List.length_cons]; omega

theorem drops (ks : List K) : ∀ σ : Slots K, ((ks.map Act.drop).foldl (step cap) σ).used = σ.used.filter fun e => e.1 ∉ ks := by
  induction ks with
  | nil => intro σ; simp
  | cons k ks ih =>
    intro σ
    simp only [List.map_cons, List.foldl_cons]
    rw [ih]
    have : (step cap σ (.drop k)).used = σ.used.filter fun e => e.1 ≠ k := by
      simp only [step]
      cases hf : σ.find k with
      | none =>
        refine (List.filter_eq_self.2 fun e he => ?_).symm
        unfold find at hf
        rw [Option.map_eq_none_iff, List.find?_eq_none] at hf
        simpa using hf e he
      | some i => rfl
    rw [this, List.filter_filter]
    refine List.filter_congr fun e _ => ?_
    by_cases h : e.1 = k <;> by_cases h' : e.1 ∈ ks <;> simp [h]

/-- all calls together -/
def arrange (g : Nat → K) (n : Nat) (A : List (K × Nat)) : List (Act K) :=
  ((List.range n).map fun i => Act.put (g (i + 1))) ++ (swaps g A ++ ((List.range n).map fun i => g (i + 1)).map Act.drop)

theorem arranged {g : Nat → K} {n : Nat} (hn : n ≤ cap) (hg : ∀ i j, 1 ≤ i → i ≤ n → 1 ≤ j → j ≤ n → g i = g j → i = j)
    {A : List (K × Nat)} (hw : Wish A n) (ha : ∀ e ∈ A, ∀ i, 1 ≤ i → i ≤ n → e.1 ≠ g i) (k : K) :
    ((after cap (arrange g n A)).find k).getD 0 = wished A k := by
  have hused : (after cap (arrange g n A)).used = A.reverse := by
    unfold after arrange
    rw [List.foldl_append, fill n hn hg, List.foldl_append, (exchange hn hg A hw ha).1, drops]
    unfold mixed
    rw [List.filter_append, List.filter_eq_self.2, List.filter_eq_nil_iff.2, List.append_nil]
    · intro e he
      obtain ⟨h1, h2, h3⟩ := mem_fillers.1 (List.mem_filter.1 he).1
      have : e.1 ∈ (List.range n).map fun i => g (i + 1) :=
        List.mem_map.2 ⟨e.2 - 1, by simp; omega, by rw [h3]; congr 1; omega⟩
      simpa using this
    · intro e he
      have : e.1 ∉ (List.range n).map fun i => g (i + 1) := by
        intro q
        obtain ⟨i, hi, q⟩ := List.mem_map.1 q
        have hi' : i < n := by simpa using hi
        exact ha e (List.mem_reverse.1 he) (i + 1) (by omega) (by omega) q.symm
      simpa using this
  unfold wished find
  rw [hused]
  congr 2
  -- searching from either end
  have key : ∀ (L : List (K × Nat)), (L.map Prod.fst).Nodup → ∀ x ∈ L, x.1 = k → L.find? (fun e => e.1 = k) = some x := by
    intro L hL x hx hk
    cases hf : L.find? fun e => e.1 = k with
    | none =>
      rw [List.find?_eq_none] at hf
      exact absurd (hf x hx) (by simp [hk])
    | some y =>
      have h1 := List.mem_of_find?_eq_some hf
      have h2 : y.1 = k := by simpa using List.find?_some hf
      rw [List.inj_on_of_nodup_map hL h1 hx (by rw [h2, hk])]
  by_cases hk : ∃ x ∈ A, x.1 = k
  · obtain ⟨x, hx, hxk⟩ := hk
    rw [key A hw.1 x hx hxk, key A.reverse (by rw [List.map_reverse, List.nodup_reverse]; exact hw.1) x (List.mem_reverse.2 hx) hxk]
  · have h : ∀ x ∈ A, x.1 ≠ k := fun x hx q => hk ⟨x, hx, q⟩
    rw [List.find?_eq_none.2 (fun x hx => by simpa using h x (List.mem_reverse.1 hx)),
      List.find?_eq_none.2 (fun x hx => by simpa using h x hx)]

omit [DecidableEq K] in
theorem exists_fillers [Infinite K] (n : Nat) (A : List (K × Nat)) : ∃ g : Nat → K,
    (∀ i j, 1 ≤ i → i ≤ n → 1 ≤ j → j ≤ n → g i = g j → i = j) ∧ ∀ e ∈ A, ∀ i, 1 ≤ i → i ≤ n → e.1 ≠ g i := by
  classical
  have hinf : {k : K | k ∉ A.map Prod.fst}.Infinite := by
    have := (A.map Prod.fst).finite_toSet.infinite_compl
    exact this
  let f := hinf.natEmbedding
  refine ⟨fun i => (f i).1, fun i j _ _ _ _ q => f.injective (Subtype.ext q), fun e he i _ _ q => ?_⟩
  have q' : e.1 = (f i).1 := q
  refine (f i).2 ?_
  rw [← q']
  exact List.mem_map_of_mem (f := Prod.fst) he

/-- the calls of a map with these meanings -/
def callsOf (v : V) : List (Act K) → List (Op K V)
  | [] => []
  | .put k :: as => .insert k v :: callsOf v as
  | .drop k :: as => .remove k :: callsOf v as
  | .keep :: as => .iterMut [] :: callsOf v as

omit [DecidableEq K] in
theorem act_callsOf (v : V) : ∀ as : List (Act K), (callsOf v as).map act = as
  | [] => rfl
  | .put k :: as => by simp [callsOf, act, act_callsOf v as]
  | .drop k :: as => by simp [callsOf, act, act_callsOf v as]
  | .keep :: as => by simp [callsOf, act, act_callsOf v as]

theorem exists_calls [Infinite K] {M : Nat} (v : V) {A : List (K × Nat)} (hw : Wish A M) :
    ∃ ops : List (Op K V), ∀ k, ((after M (ops.map act)).find k).getD 0 = wished A k := by
  obtain ⟨g, hg, ha⟩ := exists_fillers M A
  exact ⟨callsOf v (arrange g M A), fun k => by rw [act_callsOf]; exact arranged (Nat.le_refl M) hg hw ha k⟩

end Sokoban.Slots
