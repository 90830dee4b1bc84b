import Verif.Proof.CapriceBase

/-
Code of the key type that answers as its instances do, or panics.
-/
namespace Sokoban.Caprice
open MapSpec
variable {σ α β : Type}

/-- `m` ends with a panic of the key type and changes nothing, or does what `m'` does -/
def Sub (m m' : C σ α) : Prop := ∀ s, m s = .error .user s ∨ m s = m' s

theorem Sub.refl (m : C σ α) : Sub m m := fun _ => Or.inr rfl

theorem Sub.ask {x y : Option α} (h : x = none ∨ x = y) : Sub (ask x : C σ α) (ask y) := by
  intro s
  rcases h with rfl | rfl
  · exact Or.inl rfl
  · exact Or.inr rfl

theorem Sub.bind {m m' : C σ α} {g g' : α → C σ β} (hr : Reads m') (h : Sub m m') (hg : ∀ x, Sub (g x) (g' x)) :
    Sub (m >>= g) (m' >>= g') := by
  intro s
  rw [bind_at, bind_at]
  rcases h s with h | h <;> rw [h]
  · exact Or.inl rfl
  · rcases hr s with ⟨x, hr⟩ | ⟨p, hr⟩ <;> rw [hr]
    · exact hg x s
    · exact Or.inr rfl

theorem Sub.map {m m' : C σ α} {f : α → β} (h : Sub m m') :
    Sub (m >>= fun x => Pure.pure (f x)) (m' >>= fun x => Pure.pure (f x)) := by
  intro s
  rw [bind_at, bind_at]
  rcases h s with h | h <;> rw [h]
  · exact Or.inl rfl
  · exact Or.inr rfl

theorem Sub.ite {c : Prop} [Decidable c] {m m' n n' : C σ α} (h : Sub m m') (h' : Sub n n') :
    Sub (if c then m else n) (if c then m' else n') := by
  split <;> assumption

/-- the panics of the key type can be left out of a history -/
theorem completed_run {S Op O Out : Type} {call : S → Op → R (S × Out)} {call' : S → Op × O → R (S × Option Out)}
    (P : Op × O → Prop)
    (h : ∀ s c, P c → call' s c = .ok (s, none) ∨ call' s c = (call s c.1 >>= fun p => .ok (p.1, some p.2))) :
    ∀ (cs : List (Op × O)) (s s' : S) (rs : List (Option Out)), (∀ c ∈ cs, P c) → run call' s cs = .ok (s', rs) →
      run call s (completed cs rs) = .ok (s', rs.filterMap id)
  | [], s, s', rs, _, e => by
    cases e
    rfl
  | c :: cs, s, s', rs, hp, e => by
    simp only [run] at e ⊢
    rcases h s c (hp c (by simp)) with h1 | h1
    · rw [h1, except_bind_ok] at e
      cases e2 : run call' s cs with
      | error p => rw [e2] at e; cases e
      | ok x =>
        obtain ⟨s2, os⟩ := x
        rw [e2, except_bind_ok] at e
        cases e
        have ih := completed_run P h cs s _ os (fun c hc => hp c (by simp [hc])) e2
        simpa [completed] using ih
    · rw [h1] at e
      cases e1 : call s c.1 with
      | error p => rw [e1] at e; cases e
      | ok x =>
        obtain ⟨s1, o⟩ := x
        rw [e1, except_bind_ok, except_bind_ok] at e
        cases e2 : run call' s1 cs with
        | error p => rw [e2] at e; cases e
        | ok x =>
          obtain ⟨s2, os⟩ := x
          rw [e2, except_bind_ok] at e
          cases e
          have ih := completed_run P h cs s1 _ os (fun c hc => hp c (by simp [hc])) e2
          have hc : completed (c :: cs) (some o :: os) = c.1 :: completed cs os := by simp [completed]
          rw [hc]
          simp only [run, e1, except_bind_ok, ih]
          rfl

theorem run_length {S Op Out : Type} {call : S → Op → R (S × Out)} : ∀ {ops : List Op} {s s' : S} {os : List Out},
    run call s ops = .ok (s', os) → os.length = ops.length
  | [], _, _, _, e => by cases e; rfl
  | op :: ops, s, s', os, e => by
    simp only [run] at e
    cases e1 : call s op with
    | error p => rw [e1] at e; cases e
    | ok x =>
      rw [e1, except_bind_ok] at e
      cases e2 : run call x.1 ops with
      | error p => rw [e2] at e; cases e
      | ok y =>
        rw [e2, except_bind_ok] at e
        cases e
        simp [run_length e2]

theorem caught_sub {m m' : C σ α} (h : Sub m m') (s : σ) : caught m s = .ok (s, none) ∨ caught m s = caught m' s := by
  unfold caught
  rcases h s with h | h <;> rw [h]
  · exact Or.inl rfl
  · exact Or.inr rfl

section rb
variable {K V : Type} {M : Nat} [Ord K] {o : Cmp K}

theorem rbInsertLoop_true (ho : CmpTrue o) (k : K) (v : V) :
    ∀ fuel n i, Sub (rbInsertLoop o k v fuel n i : C (RedBlackTree K V M) _) (rbInsertLoop (cmpOf K) k v fuel n i)
  | 0, _, _ => .refl _
  | fuel + 1, n, i => by
    unfold rbInsertLoop
    refine .bind (.look _) (.refl _) fun x => .bind (.ask _) (.ask (ho _ _ _)) fun r => ?_
    cases r
    · exact .bind (.look _) (.refl _) fun j => .ite (.refl _) (rbInsertLoop_true ho k v fuel (n + 1) j)
    · exact .refl _
    · exact .bind (.look _) (.refl _) fun j => .ite (.refl _) (rbInsertLoop_true ho k v fuel (n + 1) j)

theorem rbRemoveLoop_true (ho : CmpTrue o) (k : K) :
    ∀ fuel n i, Sub (rbRemoveLoop o k fuel n i : C (RedBlackTree K V M) _) (rbRemoveLoop (cmpOf K) k fuel n i)
  | 0, _, _ => .refl _
  | fuel + 1, n, i => by
    unfold rbRemoveLoop
    refine .bind (.look _) (.refl _) fun x => .bind (.ask _) (.ask (ho _ _ _)) fun r => ?_
    cases r
    · exact .bind (.look _) (.refl _) fun j => .ite (.refl _) (rbRemoveLoop_true ho k fuel (n + 1) j)
    · exact .refl _
    · exact .bind (.look _) (.refl _) fun j => .ite (.refl _) (rbRemoveLoop_true ho k fuel (n + 1) j)

theorem rbSearchLoop_true (ho : CmpTrue o) (k : K) :
    ∀ fuel n i, Sub (rbSearchLoop o k fuel n i : C (RedBlackTree K V M) _) (rbSearchLoop (cmpOf K) k fuel n i)
  | 0, _, _ => .refl _
  | fuel + 1, n, i => by
    unfold rbSearchLoop
    refine .bind (.look _) (.refl _) fun x => .bind (.ask _) (.ask (ho _ _ _)) fun r => ?_
    cases r
    · exact .bind (.look _) (.refl _) fun j => .ite (.refl _) (rbSearchLoop_true ho k fuel (n + 1) j)
    · exact .refl _
    · exact .bind (.look _) (.refl _) fun j => .ite (.refl _) (rbSearchLoop_true ho k fuel (n + 1) j)

theorem rbDo_true (ho : CmpTrue o) (op : RedBlackSpec.TOp K V) :
    Sub (rbDo o op : C (RedBlackTree K V M) _) (rbDo (cmpOf K) op) := by
  match op with
  | .map (.insert k v) =>
    exact .map (.bind .get (.refl _) fun t => .ite (.refl _) (rbInsertLoop_true ho k v _ _ _))
  | .map (.remove k) =>
    exact .map (.bind .get (.refl _) fun t => .ite (.refl _) (rbRemoveLoop_true ho k _ _ _))
  | .map (.getMut k f) =>
    exact .map (.bind (.bind .get fun t => .ite (.pure _) (rbSearchLoop_reads _ k _ _ _))
      (.bind .get (.refl _) fun t => .ite (.refl _) (rbSearchLoop_true ho k _ _ _)) fun i => .refl _)
  | .map (.iterMut es) => exact .refl _
  | .removeRoot => exact .refl _

theorem rbCall_true (t : RedBlackTree K V M) (c : RedBlackSpec.TOp K V × Cmp K) (ho : CmpTrue c.2) :
    rbCall t c = .ok (t, none) ∨ rbCall t c = (RedBlackSpec.call t c.1 >>= fun p => .ok (p.1, some p.2)) := by
  rw [← rbCall_honest]
  exact caught_sub (rbDo_true ho c.1) t

end rb

section avl
variable {K V : Type} {M : Nat} [LT K] [DecidableLT K] [PartialGt K] {o : Less K}

theorem avlInsertLoop_true (ho : LessTrue o) (k : K) (v : V) : ∀ fuel n i p,
    Sub (avlInsertLoop o.lt o.gt k v fuel n i p : C (AVLTree K V M) _)
      (avlInsertLoop (lessOf K).lt (lessOf K).gt k v fuel n i p)
  | 0, _, _, _ => .refl _
  | fuel + 1, n, i, p => by
    unfold avlInsertLoop
    refine .bind (.look _) (.refl _) fun x => .bind (.ask _) (.ask (ho.1 _ _ _)) fun r => .ite ?_ ?_
    · exact .bind (.look _) (.refl _) fun j => .ite (.refl _) (avlInsertLoop_true ho k v fuel _ _ _)
    · refine .bind (.ask _) (.ask (ho.2 _ _ _)) fun r => .ite ?_ (.refl _)
      exact .bind (.look _) (.refl _) fun j => .ite (.refl _) (avlInsertLoop_true ho k v fuel _ _ _)

theorem avlRemovePath_true (ho : LessTrue o) (k : K) : ∀ fuel n i p,
    Sub (avlRemovePath o.lt o.gt k fuel n i p : C (AVLTree K V M) _)
      (avlRemovePath (lessOf K).lt (lessOf K).gt k fuel n i p)
  | 0, _, _, _ => .refl _
  | fuel + 1, n, i, p => by
    unfold avlRemovePath
    refine .ite (.refl _) (.bind (.look _) (.refl _) fun x => .bind (.ask _) (.ask (ho.1 _ _ _)) fun r => .ite ?_ ?_)
    · exact .bind (.look _) (.refl _) fun j => avlRemovePath_true ho k fuel _ _ _
    · refine .bind (.ask _) (.ask (ho.2 _ _ _)) fun r => .ite ?_ (.refl _)
      exact .bind (.look _) (.refl _) fun j => avlRemovePath_true ho k fuel _ _ _

theorem avlSearchLoop_true (ho : LessTrue o) (k : K) : ∀ fuel n i,
    Sub (avlSearchLoop o.lt o.gt k fuel n i : C (AVLTree K V M) _)
      (avlSearchLoop (lessOf K).lt (lessOf K).gt k fuel n i)
  | 0, _, _ => .refl _
  | fuel + 1, n, i => by
    unfold avlSearchLoop
    refine .bind (.look _) (.refl _) fun x => .bind (.ask _) (.ask (ho.1 _ _ _)) fun r => .ite ?_ ?_
    · exact .bind (.look _) (.refl _) fun j => .ite (.refl _) (avlSearchLoop_true ho k fuel _ _)
    · refine .bind (.ask _) (.ask (ho.2 _ _ _)) fun r => .ite ?_ (.refl _)
      exact .bind (.look _) (.refl _) fun j => .ite (.refl _) (avlSearchLoop_true ho k fuel _ _)

theorem avlDo_true (ho : LessTrue o) (op : Op K V) : Sub (avlDo o op : C (AVLTree K V M) _) (avlDo (lessOf K) op) := by
  match op with
  | .insert k v =>
    exact .map (.bind .get (.refl _) fun t => .ite (.refl _) (avlInsertLoop_true ho k v _ _ _ _))
  | .remove k =>
    exact .map (.bind .get (.refl _) fun t => .ite (.refl _)
      (.bind (avlRemovePath_reads _ _ k _ _ _ _) (avlRemovePath_true ho k _ _ _ _) fun p => .refl _))
  | .getMut k f =>
    exact .map (.bind .get (.refl _) fun t => .ite (.refl _)
      (.bind (avlSearchLoop_reads _ _ k _ _ _) (avlSearchLoop_true ho k _ _ _) fun i => .refl _))
  | .iterMut es => exact .refl _

theorem avlCall_true (t : AVLTree K V M) (c : Op K V × Less K) (ho : LessTrue c.2) :
    avlCall t c = .ok (t, none) ∨ avlCall t c = (AVLSpec.call t c.1 >>= fun p => .ok (p.1, some p.2)) := by
  rw [← avlCall_honest]
  exact caught_sub (avlDo_true ho c.1) t

end avl

section hash
variable {K V : Type} {B M : Nat} [BEq K]

theorem hashFindLoop_true {eq : Nat → K → K → Option Bool} (ho : ∀ n a b, eq n a b = none ∨ eq n a b = some (a == b))
    (k : K) : ∀ fuel n i, Sub (hashFindLoop eq k fuel n i : C (HashTable K V B M) _)
      (hashFindLoop (fun _ a b => some (a == b)) k fuel n i)
  | 0, _, _ => .refl _
  | fuel + 1, n, i => by
    unfold hashFindLoop
    refine .ite (.refl _) (.bind (.look _) (.refl _) fun x => .bind (.ask _) (.ask (ho _ _ _)) fun r => .ite (.refl _) ?_)
    exact .bind (.look _) (.refl _) fun j => hashFindLoop_true ho k fuel _ _

theorem hashFind_true {x y : Option Nat} (hx : x = none ∨ x = y) {eq : Nat → K → K → Option Bool}
    (ho : ∀ n a b, eq n a b = none ∨ eq n a b = some (a == b)) (k : K) :
    Sub (hashFind x eq k : C (HashTable K V B M) _) (hashFind y (fun _ a b => some (a == b)) k) :=
  .bind (.ask _) (.ask hx) fun _ => .bind (.look _) (.refl _) fun _ => .bind (.look _) (.refl _) fun _ =>
    .bind (hashFindLoop_reads _ _ _ _ _) (hashFindLoop_true ho k _ _ _) fun _ => .refl _

theorem hashDo_true (hash : K → Nat) (c : Op K V × Eqs K) (ho : EqsTrue hash c) :
    Sub (hashDo c.2 c.1 : C (HashTable K V B M) _) (hashDo (eqsOf hash c.1) c.1) := by
  obtain ⟨op, e⟩ := c
  obtain ⟨h1, h2⟩ := ho
  match op with
  | .insert k v => exact .map (.bind (hashFind_reads _ _ k) (hashFind_true (h1 k rfl) h2 k) fun p => .refl _)
  | .remove k => exact .map (.bind (hashFind_reads _ _ k) (hashFind_true (h1 k rfl) h2 k) fun p => .refl _)
  | .getMut k f => exact .map (.bind (hashFind_reads _ _ k) (hashFind_true (h1 k rfl) h2 k) fun p => .refl _)
  | .iterMut es => exact .refl _

theorem hashCall_true (hash : K → Nat) (h : HashTable K V B M) (c : Op K V × Eqs K) (ho : EqsTrue hash c) :
    hashCall h c = .ok (h, none) ∨ hashCall h c = (HashTableSpec.call hash h c.1 >>= fun p => .ok (p.1, some p.2)) := by
  rw [← hashCall_honest]
  exact caught_sub (hashDo_true hash c ho) h

end hash

end Sokoban.Caprice
