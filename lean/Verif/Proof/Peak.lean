import Verif.Proof.KeepInsert
import Verif.Proof.Api
import Verif.Proof.Run
import Verif.Spec.Peak

/-
The bump index of an allocator is one more than the greatest number of live nodes so far, and the slots from the
bump index on still have their first values.
-/
namespace Sokoban
open NodeAllocator AllocSpec MapSpec

namespace NodeAllocator
variable {T : Type} {M r : Nat} {a b : NodeAllocator T M r} {free live : List Nat}

theorem AInv.size_lt (h : AInv a free live) : a.size + 1 ≤ a.bumpIndex := by
  have := h.length_eq
  have := h.size
  have := h.bump_pos
  omega

theorem AInv.live_lt (h : AInv a free live) {i : Nat} (hi : i ∈ live) : i < a.bumpIndex :=
  ((h.mem i).1 (by simp [hi])).2

theorem addNode_peak (h : AInv a free live) (hr : 0 < r) {v : T} {i : Nat} (e : a.addNode v = .ok (b, i)) :
    b.size = a.size + 1 ∧ b.bumpIndex = max a.bumpIndex (b.size + 1) ∧ i < b.bumpIndex := by
  have hle : live.length ≤ usable M := by
    have := h.length_eq
    have := h.bump_le
    omega
  by_cases hlt : live.length < usable M
  · obtain ⟨a', j, e', _, _, _, _, h', _⟩ := addNode_usable h hr hlt v
    rw [e'] at e
    cases e
    have l1 := h.length_eq
    have l2 := h'.length_eq
    have s1 := h.size
    have s2 := h'.size
    have b1 := h.bump_pos
    have b2 := h'.bump_pos
    refine ⟨by simp only [List.length_cons] at s2; omega, ?_, h'.live_lt (by simp)⟩
    cases free with
    | nil => simp only [List.length_cons, List.length_nil, List.tail_nil] at *; omega
    | cons x l => simp only [List.length_cons, List.tail_cons] at *; omega
  · rw [addNode_usable_full h (by omega) v] at e
    cases e

theorem sizes_put {i : Nat} {n : Node T r} (e : a.put i n = .ok b) : b.size = a.size ∧ b.bumpIndex = a.bumpIndex := by
  unfold put at e
  split at e
  · cases e; exact ⟨rfl, rfl⟩
  · cases e

theorem sizes_setValue {i : Nat} {v : T} (e : a.setValue i v = .ok b) :
    b.size = a.size ∧ b.bumpIndex = a.bumpIndex := by
  unfold setValue at e
  cases hg : a.get i with
  | error p => rw [hg] at e; cases e
  | ok n => rw [hg] at e; exact sizes_put e
end NodeAllocator

/-- What a call may do to the numbers of an allocator, but for freeing: nothing, or one allocation. -/
def AllocStep {T : Type} {M r : Nat} (a b : NodeAllocator T M r) : Prop :=
  (b.size = a.size ∧ b.bumpIndex = a.bumpIndex) ∨
  ∃ v c i, a.addNode v = .ok (c, i) ∧ b.size = c.size ∧ b.bumpIndex = c.bumpIndex ∧ ∀ j, b.val? j = c.val? j

theorem AllocStep.peak {T : Type} {M r : Nat} {a b : NodeAllocator T M r} {free live : List Nat} (h : AInv a free live)
    (hr : 0 < r) (g : AllocStep a b) : b.bumpIndex = max a.bumpIndex (b.size + 1) := by
  rcases g with ⟨h1, h2⟩ | ⟨v, c, i, e, h1, h2, _⟩
  · have := h.size_lt
    omega
  · have := addNode_peak h hr e
    omega

/-- If the call returns `(t, _)` then the numbers of `t` arose from those of `a` by at most one allocation. -/
def AllocSteps {T α β : Type} {M r : Nat} (al : α → NodeAllocator T M r) (a : NodeAllocator T M r) (x : R (α × β)) : Prop :=
  ∀ t o, x = .ok (t, o) → AllocStep a (al t)

namespace AllocSteps
variable {T α β : Type} {M r : Nat} {al : α → NodeAllocator T M r} {a : NodeAllocator T M r} {x y : R (α × β)}
theorem mk_error {p : Panic} : AllocSteps al a (.error p : R (α × β)) := by
  intro t r e; cases e
theorem mk_pure {t : α} {o : β} (h : AllocStep a (al t)) : AllocSteps al a (pure (t, o) : R (α × β)) := by
  intro t r e; cases e; exact h
theorem bind {γ : Type} {x : R γ} {k : γ → R (α × β)} (h : ∀ a', x = .ok a' → AllocSteps al a (k a')) :
    AllocSteps al a (x >>= k) := by
  intro t r e
  cases x with
  | error p => cases e
  | ok a => exact h a rfl t r e
theorem bindK {γ : Type} {f : Frame T} [Kept f γ] {x : R γ} {k : γ → R (α × β)} (hx : Keep f x)
    (h : ∀ a', Kept.ok f a' → AllocSteps al a (k a')) : AllocSteps al a (x >>= k) := bind (fun a e => h a (hx a e))
theorem mk_ite {c : Prop} [Decidable c] (h : c → AllocSteps al a x) (h' : ¬ c → AllocSteps al a y) :
    AllocSteps al a (if c then x else y) := by
  split
  · exact h ‹_›
  · exact h' ‹_›
end AllocSteps

/-- an allocation writes no slot beyond the bump index -/
theorem addNode_past {T : Type} {M r : Nat} {a b c : NodeAllocator T M r} {free live : List Nat} (h : AInv a free live)
    (hr : 0 < r) {v : T} {i : Nat} (e : a.addNode v = .ok (c, i)) (hb : b.bumpIndex = c.bumpIndex)
    (hv : ∀ j, b.val? j = c.val? j) {j : Nat} (hj : b.bumpIndex ≤ j) : b.val? j = a.val? j := by
  have := (addNode_peak h hr e).2.2
  rw [hv j, (vals_addNode e).2.2 j, if_neg (by omega)]

theorem allocStep_refl {T : Type} {M r : Nat} (a : NodeAllocator T M r) : AllocStep a a := .inl ⟨rfl, rfl⟩

theorem allocStep_add {T : Type} {M r : Nat} {a b c : NodeAllocator T M r} {v : T} {i : Nat} (e : a.addNode v = .ok (c, i))
    (h : Kept.ok (Frame.like c.size c.bumpIndex c.val?) b) : AllocStep a b := .inr ⟨v, c, i, e, h.1, h.2.1, h.2.2⟩

namespace RedBlackTree
variable {K V : Type} {M : Nat} {t t' : RedBlackTree K V M}

theorem sizes_setNodeValue {i : Nat} {v : V} (e : t.setNodeValue i v = .ok t') :
    t'.allocator.size = t.allocator.size ∧ t'.allocator.bumpIndex = t.allocator.bumpIndex := by
  unfold setNodeValue at e
  cases hn : t.allocator.getValue i with
  | error p => rw [hn] at e; cases e
  | ok n =>
    rw [hn] at e
    simp only [except_bind_ok] at e
    cases hs : t.allocator.setValue i { n with value := v } with
    | error p => rw [hs] at e; cases e
    | ok b => rw [hs] at e; cases e; exact sizes_setValue hs

theorem allocStep_insertLoop [Ord K] {fuel i : Nat} {k : K} {v : V} : AllocSteps allocator t.allocator (t.insertLoop k v fuel i) := by
  induction fuel generalizing i with
  | zero => exact AllocSteps.mk_error
  | succ fuel ih =>
    unfold insertLoop
    refine AllocSteps.bind fun n _ => ?_
    have hd : ∀ target dir : Nat, AllocSteps allocator t.allocator (do
        if target = SENTINEL then do
          if t.len ≥ t.capacity then return (t, none)
          let (a, nodeIndex) ← t.allocator.addNode { key := k, value := v }
          let t := { t with allocator := a }
          let t ← t.colorRed nodeIndex
          let t ← t.connect i nodeIndex dir
          let grandparent ← t.getParent i
          let t ← (if grandparent ≠ SENTINEL then t.fixInsert nodeIndex else pure t)
          return (t, some nodeIndex)
        insertLoop t k v fuel target : R (RedBlackTree K V M × Option Nat)) := by
      intro target dir
      refine AllocSteps.mk_ite (fun _ => ?_) (fun _ => ih)
      refine AllocSteps.mk_ite (fun _ => AllocSteps.mk_pure (allocStep_refl _)) (fun _ => ?_)
      refine AllocSteps.bind fun p e => ?_
      obtain ⟨a, j⟩ := p
      have h1 : Kept.ok (Frame.like a.size a.bumpIndex a.val?) ({ t with allocator := a } : RedBlackTree K V M) := ⟨rfl, rfl, fun _ => rfl⟩
      refine AllocSteps.bindK (keep_colorRed h1) fun t1 h2 => AllocSteps.bindK (keep_connect h2) fun t2 h3 => AllocSteps.bind fun g _ => ?_
      refine AllocSteps.bindK (f := Frame.like a.size a.bumpIndex a.val?) (γ := RedBlackTree K V M) ?_ fun t3 h4 =>
        AllocSteps.mk_pure (allocStep_add e h4)
      exact Keep.mk_ite (fun _ => keep_fixInsert h3) (fun _ => Keep.mk_pure h3)
    dsimp only
    cases compare k n.key with
    | lt => exact AllocSteps.bind fun _ _ => hd _ _
    | gt => exact AllocSteps.bind fun _ _ => hd _ _
    | eq => exact AllocSteps.bind fun _ e => AllocSteps.mk_pure (.inl (sizes_setNodeValue e))

theorem allocStep_insert [Ord K] {k : K} {v : V} : AllocSteps allocator t.allocator (t.insert k v) := by
  unfold insert
  refine AllocSteps.mk_ite (fun _ => AllocSteps.bind fun p e => ?_) (fun _ => allocStep_insertLoop)
  obtain ⟨a, j⟩ := p
  exact AllocSteps.mk_pure (allocStep_add e ⟨rfl, rfl, fun _ => rfl⟩)
end RedBlackTree

namespace AVLTree
variable {K V : Type} {M : Nat} {t t' : AVLTree K V M}

theorem sizes_setNodeValue {i : Nat} {v : V} (e : t.setNodeValue i v = .ok t') :
    t'.allocator.size = t.allocator.size ∧ t'.allocator.bumpIndex = t.allocator.bumpIndex := by
  unfold setNodeValue at e
  cases hn : t.allocator.getValue i with
  | error p => rw [hn] at e; cases e
  | ok n =>
    rw [hn] at e
    simp only [except_bind_ok] at e
    cases hs : t.allocator.setValue i { n with value := v } with
    | error p => rw [hs] at e; cases e
    | ok b => rw [hs] at e; cases e; exact sizes_setValue hs

theorem allocStep_insertLoop [LT K] [DecidableLT K] [PartialGt K] {fuel i : Nat} {k : K} {v : V} {p : List Ancestor} :
    AllocSteps allocator t.allocator (t.insertLoop k v fuel i p) := by
  induction fuel generalizing i p with
  | zero => exact AllocSteps.mk_error
  | succ fuel ih =>
    unfold insertLoop
    refine AllocSteps.bind fun n _ => ?_
    have hd : ∀ r br : Nat, AllocSteps allocator t.allocator (do
        if r = SENTINEL then do
          if t.len ≥ t.capacity then return (t, none)
          let (a, r) ← t.allocator.addNode { key := k, value := v }
          let t := { t with allocator := a }
          let t ← t.setField i br r
          let t ← t.rebalance p
          return (t, some r)
        else insertLoop t k v fuel r ((some i, some br, r) :: p) : R (AVLTree K V M × Option Nat)) := by
      intro target br
      refine AllocSteps.mk_ite (fun _ => ?_) (fun _ => ih)
      refine AllocSteps.mk_ite (fun _ => AllocSteps.mk_pure (allocStep_refl _)) (fun _ => ?_)
      refine AllocSteps.bind fun q e => ?_
      obtain ⟨a, j⟩ := q
      have h1 : Kept.ok (Frame.like a.size a.bumpIndex a.val?) ({ t with allocator := a } : AVLTree K V M) := ⟨rfl, rfl, fun _ => rfl⟩
      exact AllocSteps.bindK (keep_setField h1) fun t1 h2 => AllocSteps.bindK (keep_rebalance h2) fun t2 h3 =>
        AllocSteps.mk_pure (allocStep_add e h3)
    exact AllocSteps.mk_ite (fun _ => AllocSteps.bind fun _ _ => hd _ _) (fun _ => AllocSteps.mk_ite (fun _ => AllocSteps.bind fun _ _ => hd _ _)
      (fun _ => AllocSteps.bind fun _ e => AllocSteps.mk_pure (.inl (sizes_setNodeValue e))))

theorem allocStep_insert [LT K] [DecidableLT K] [PartialGt K] {k : K} {v : V} : AllocSteps allocator t.allocator (t.insert k v) := by
  unfold insert
  refine AllocSteps.mk_ite (fun _ => AllocSteps.bind fun p e => ?_) (fun _ => allocStep_insertLoop)
  obtain ⟨a, j⟩ := p
  exact AllocSteps.mk_pure (allocStep_add e ⟨rfl, rfl, fun _ => rfl⟩)
end AVLTree

namespace HashTable
variable {K V : Type} {B M : Nat} {t t' : HashTable K V B M}

theorem sizes_setNodeValue {i : Nat} {v : V} (e : t.setNodeValue i v = .ok t') :
    t'.allocator.size = t.allocator.size ∧ t'.allocator.bumpIndex = t.allocator.bumpIndex := by
  unfold setNodeValue at e
  cases hn : t.allocator.getValue i with
  | error p => rw [hn] at e; cases e
  | ok n =>
    rw [hn] at e
    simp only [except_bind_ok] at e
    cases hs : t.allocator.setValue i { n with value := v } with
    | error p => rw [hs] at e; cases e
    | ok b => rw [hs] at e; cases e; exact sizes_setValue hs

theorem allocStep_insert [BEq K] {hash : K → Nat} {k : K} {v : V} : AllocSteps allocator t.allocator (t.insert hash k v) := by
  unfold insert
  refine AllocSteps.bind fun b _ => AllocSteps.bind fun hd _ => AllocSteps.bind fun c _ => ?_
  refine AllocSteps.mk_ite (fun _ => AllocSteps.bind fun _ e => AllocSteps.mk_pure (.inl (sizes_setNodeValue e)))
    (fun _ => AllocSteps.mk_ite (fun _ => AllocSteps.mk_pure (allocStep_refl _)) (fun _ => ?_))
  refine AllocSteps.bind fun p e => ?_
  obtain ⟨a, j⟩ := p
  have h1 : Kept.ok (Frame.like a.size a.bumpIndex a.val?) ({ t with allocator := a } : HashTable K V B M) := ⟨rfl, rfl, fun _ => rfl⟩
  refine AllocSteps.bindK (keep_setBucket h1) fun t1 h2 => ?_
  refine AllocSteps.bindK (f := Frame.like a.size a.bumpIndex a.val?) (γ := NodeAllocator (HashNode K V) M 4) ?_
    fun t3 h4 => AllocSteps.mk_pure (allocStep_add e h4)
  exact Keep.mk_ite (fun _ => keep_connect h2) (fun _ => Keep.mk_pure h2)
end HashTable

/-- the slots that a client loop over a mutable iterator does not hand out are not written -/
theorem driveMut_off {S It P V F : Type} {next nextBack : S → It → R (It × Option P)}
    {read : S → P → R V} {write : S → P → V → R S} (val : S → Nat → F) (slot : P → Nat)
    (hw : ∀ s p v s', write s p v = .ok s' → ∀ i, i ≠ slot p → val s' i = val s i) :
    ∀ (es : List (End × (V → V))) (s : S) (it : It) {s' it' items},
      driveMut next nextBack read write s it es = .ok (s', it', items) →
      ∀ i, (∀ p v, some (p, v) ∈ items → slot p ≠ i) → val s' i = val s i := by
  intro es
  induction es with
  | nil => rintro s it s' it' items e; cases e; intros; rfl
  | cons e es ih =>
    obtain ⟨d, g⟩ := e
    intro s it s' it' items h i hi
    suffices aux : ∀ r : R (It × Option P), (do
        let (it, x) ← r
        match x with
        | none => do
          let (s, it, xs) ← driveMut next nextBack read write s it es
          return (s, it, none :: xs)
        | some slot => do
          let v ← read s slot
          let s ← write s slot (g v)
          let (s, it, xs) ← driveMut next nextBack read write s it es
          return (s, it, some (slot, v) :: xs)) = Except.ok (s', it', items) → val s' i = val s i by
      cases d <;> exact aux _ h
    clear h
    intro r h
    match r with
    | .error _ => cases h
    | .ok (it1, none) =>
      simp only [except_bind_ok] at h
      cases h4 : driveMut next nextBack read write s it1 es with
      | error _ => rw [h4] at h; cases h
      | ok p => rw [h4] at h; cases h; exact ih s it1 h4 i (fun p v hp => hi p v (List.mem_cons_of_mem _ hp))
    | .ok (it1, some sl) =>
      simp only [except_bind_ok] at h
      cases h2 : read s sl with
      | error _ => rw [h2] at h; cases h
      | ok v =>
        simp only [h2, except_bind_ok] at h
        cases h3 : write s sl (g v) with
        | error _ => rw [h3] at h; cases h
        | ok s1 =>
          simp only [h3, except_bind_ok] at h
          cases h4 : driveMut next nextBack read write s1 it1 es with
          | error _ => rw [h4] at h; cases h
          | ok p =>
            rw [h4] at h; cases h
            rw [ih s1 it1 h4 i (fun p v hp => hi p v (List.mem_cons_of_mem _ hp))]
            exact hw _ _ _ _ h3 i (fun e => hi sl v (by simp) e.symm)

theorem Api.iterMut_off {S K V F : Type} {A : Api S K V} (val : S → Nat → F)
    (hw : ∀ s p v s', A.write s p v = .ok s' → ∀ i, i ≠ p → val s' i = val s i) (es : List (End × (K → V → V))) (s : S)
    {s' it items} (h : A.iterMut s es = .ok (s', it, items)) (i : Nat) (hi : ∀ e, some (i, e) ∉ items) :
    val s' i = val s i := by
  unfold Api.iterMut at h
  cases h2 : driveMut A.nextMut A.nextBackMut A.read (fun s r e => A.write s (A.slot r) e.2)
      s (A.iter s) (script es) with
  | error _ => rw [h2] at h; cases h
  | ok p =>
    rw [h2] at h; cases h
    refine driveMut_off val A.slot (fun s p v s' e => hw s _ _ s' e) _ _ _ h2 i ?_
    intro p v hp hs
    exact hi v (List.mem_map.2 ⟨_, hp, by simp [hs]⟩)

/-- what a consumer sees is among the elements -/
theorem mem_consumeMut {α : Type} : ∀ {es : List (End × (α → α))} {l : List α} {x : α},
    some x ∈ (consumeMut l es).1 → x ∈ l
  | [], l, x, h => by simp [consumeMut] at h
  | _ :: es, [], x, h => by
    simp only [consumeMut, List.mem_cons, reduceCtorEq, false_or] at h
    exact mem_consumeMut h
  | (.front, f) :: es, y :: l, x, h => by
    simp only [consumeMut, List.mem_cons, Option.some.injEq] at h
    rcases h with rfl | h
    · simp
    · exact List.mem_cons_of_mem _ (mem_consumeMut h)
  | (.back, f) :: es, y :: l, x, h => by
    simp only [consumeMut, List.mem_cons, Option.some.injEq] at h
    rcases h with rfl | h
    · exact List.getLast_mem _
    · exact List.dropLast_subset _ (mem_consumeMut h)

theorem mem_consumeMutFwd {α : Type} : ∀ {es : List (End × (α → α))} {l : List α} {x : α},
    some x ∈ (MapSpec.consumeMutFwd l es).1 → x ∈ l
  | [], l, x, h => by simp [MapSpec.consumeMutFwd] at h
  | (.back, f) :: es, l, x, h => by
    simp only [MapSpec.consumeMutFwd, List.mem_cons, reduceCtorEq, false_or] at h
    exact mem_consumeMutFwd h
  | (.front, f) :: es, [], x, h => by
    simp only [MapSpec.consumeMutFwd, List.mem_cons, reduceCtorEq, false_or] at h
    exact mem_consumeMutFwd h
  | (.front, f) :: es, y :: l, x, h => by
    simp only [MapSpec.consumeMutFwd, List.mem_cons, Option.some.injEq] at h
    rcases h with rfl | h
    · simp
    · exact List.mem_cons_of_mem _ (mem_consumeMutFwd h)

/-- a history: the bump index follows the peak, and the slots from there on keep their values -/
theorem run_peak {S Op Out F : Type} {call : S → Op → R (S × Out)} (Inv : Nat → S → Prop) (bump len : S → Nat)
    (val : S → Nat → F) (hinv : ∀ n s, Inv n s → len s + 1 ≤ bump s)
    (hstep : ∀ n s op s' o, Inv (n + 1) s → call s op = .ok (s', o) → Inv n s' ∧ bump s' = max (bump s) (len s' + 1) ∧
      ∀ i, bump s' ≤ i → val s' i = val s i) :
    ∀ (ops : List Op) (s s' : S) (os : List Out), Inv ops.length s → run call s ops = .ok (s', os) →
      Inv 0 s' ∧ bump s' = max (bump s) (peak len call s ops + 1) ∧ ∀ i, bump s' ≤ i → val s' i = val s i := by
  intro ops
  induction ops with
  | nil =>
    intro s s' os h e
    cases e
    exact ⟨h, by have := hinv _ s h; simp only [peak]; omega, fun _ _ => rfl⟩
  | cons op ops ih =>
    intro s s' os h e
    unfold run at e
    cases h1 : call s op with
    | error _ => rw [h1] at e; cases e
    | ok p =>
      obtain ⟨s1, o⟩ := p
      rw [h1] at e
      simp only [except_bind_ok] at e
      cases h2 : run call s1 ops with
      | error _ => rw [h2] at e; cases e
      | ok q =>
        rw [h2] at e
        cases e
        obtain ⟨i1, b1, v1⟩ := hstep _ s op s1 o h h1
        obtain ⟨i2, b2, v2⟩ := ih s1 _ _ i1 h2
        have := hinv _ s h
        have hp : ∀ l, len s1 ≤ peak len call s1 l := by
          intro l
          cases l with
          | nil => exact Nat.le_refl _
          | cons => exact Nat.le_max_left _ _
        have := hp ops
        refine ⟨i2, ?_, fun i hi => ?_⟩
        · simp only [peak, h1]; omega
        · rw [v2 i hi, v1 i (by omega)]

end Sokoban
