import Verif.Spec.Caprice
import Verif.Proof.Alloc

/-
Calls into code of the key type: the rules of the monad, panics before the first write, and the oracle that answers
as the instances do.
-/
namespace Sokoban.Caprice
variable {σ α β : Type}

theorem look_bind (f : σ → R α) (g : α → C σ β) (s : σ) :
    (look f >>= g) s = match f s with | .ok x => g x s | .error p => .error (.crate p) s := by
  show EStateM.bind (look f) g s = _
  unfold EStateM.bind look
  cases f s <;> rfl

theorem look_bind_ok {f : σ → R α} {g : α → C σ β} {s : σ} {x : α} (h : f s = .ok x) : (look f >>= g) s = g x s := by
  rw [look_bind, h]

theorem ask_bind (x : Option α) (g : α → C σ β) (s : σ) :
    (ask x >>= g) s = match x with | some x => g x s | none => .error .user s := by
  show EStateM.bind (ask x) g s = _
  unfold EStateM.bind ask
  cases x <;> rfl

theorem ran_ok {f : σ → R (σ × α)} {s s' : σ} {x : α} (h : f s = .ok (s', x)) : step f s = .ok x s' := by
  unfold step; rw [h]

theorem get_bind (g : σ → C σ β) (s : σ) : ((get : C σ σ) >>= g) s = g s s := rfl

theorem pure_at (x : α) (s : σ) : (pure x : C σ α) s = .ok x s := rfl

theorem bind_at (m : C σ α) (g : α → C σ β) (s : σ) :
    (m >>= g) s = match m s with | .ok x s' => g x s' | .error e s' => .error e s' := by
  show EStateM.bind m g s = _
  unfold EStateM.bind
  cases m s <;> rfl

/-- reads and asks only -/
def Reads (m : C σ α) : Prop := ∀ s, (∃ x, m s = .ok x s) ∨ ∃ e, m s = .error e s

/-- a panic of code of the key type leaves the memory as it was -/
def Clean (m : C σ α) : Prop := ∀ s s', m s = .error .user s' → s' = s

theorem Reads.clean {m : C σ α} (h : Reads m) : Clean m := by
  intro s s' e
  rcases h s with ⟨x, h⟩ | ⟨p, h⟩ <;> rw [h] at e
  · cases e
  · cases e; rfl

theorem Reads.look (f : σ → R α) : Reads (look f) := by
  intro s
  unfold Caprice.look
  cases f s with
  | ok x => exact Or.inl ⟨x, rfl⟩
  | error p => exact Or.inr ⟨_, rfl⟩

theorem Reads.ask (x : Option α) : Reads (ask x : C σ α) := by
  intro s
  cases x with
  | some x => exact Or.inl ⟨x, rfl⟩
  | none => exact Or.inr ⟨_, rfl⟩

theorem Reads.pure (x : α) : Reads (pure x : C σ α) := fun _ => Or.inl ⟨x, rfl⟩

theorem Reads.get : Reads (MonadState.get : C σ σ) := fun s => Or.inl ⟨s, rfl⟩

theorem Reads.throw (e : Stop) : Reads (throw e : C σ α) := fun _ => Or.inr ⟨e, rfl⟩

theorem Reads.bind {m : C σ α} {g : α → C σ β} (h : Reads m) (hg : ∀ x, Reads (g x)) : Reads (m >>= g) := by
  intro s
  rw [bind_at]
  rcases h s with ⟨x, h⟩ | ⟨p, h⟩ <;> rw [h]
  · exact hg x s
  · exact Or.inr ⟨p, rfl⟩

theorem Reads.ite {c : Prop} [Decidable c] {m n : C σ α} (h : Reads m) (h' : Reads n) : Reads (if c then m else n) := by
  split <;> assumption

theorem Clean.step (f : σ → R (σ × α)) : Clean (step f) := by
  intro s s' e
  unfold Caprice.step at e
  cases h : f s with
  | ok x => rw [h] at e; cases e
  | error p => rw [h] at e; cases e

theorem Clean.bind {m : C σ α} {g : α → C σ β} (h : Reads m) (hg : ∀ x, Clean (g x)) : Clean (m >>= g) := by
  intro s s' e
  rw [bind_at] at e
  rcases h s with ⟨x, h⟩ | ⟨p, h⟩ <;> rw [h] at e
  · exact hg x _ _ e
  · cases e; rfl

theorem Clean.map {m : C σ α} {f : α → β} (h : Clean m) : Clean (m >>= fun x => Pure.pure (f x)) := by
  intro s s' e
  rw [bind_at] at e
  cases hm : m s with
  | ok x s1 => rw [hm] at e; cases e
  | error p s1 => rw [hm] at e; cases e; exact h _ _ hm

theorem Clean.ite {c : Prop} [Decidable c] {m n : C σ α} (h : Clean m) (h' : Clean n) : Clean (if c then m else n) := by
  split <;> assumption

theorem step_at (f : σ → R (σ × α)) (s : σ) :
    step f s = match f s with | .ok (s', x) => .ok x s' | .error p => .error (.crate p) s := rfl

theorem look_at (f : σ → R α) (s : σ) :
    look f s = match f s with | .ok x => .ok x s | .error p => .error (.crate p) s := rfl

theorem caught_step (f : σ → R (σ × α)) (s : σ) : caught (step f) s = (f s >>= fun p => .ok (p.1, some p.2)) := by
  unfold caught step
  cases f s <;> rfl

theorem step_map (f : σ → R (σ × α)) (g : α → β) :
    (step f >>= fun x => Pure.pure (g x)) = step fun s => f s >>= fun p => .ok (p.1, g p.2) := by
  funext s
  rw [bind_at, step_at, step_at]
  cases f s <;> rfl

section rb
variable {K V : Type} {M : Nat}

theorem rbInsertLoop_clean (o : Cmp K) (k : K) (v : V) :
    ∀ fuel n i, Clean (rbInsertLoop o k v fuel n i : C (RedBlackTree K V M) _)
  | 0, _, _ => (Reads.throw _).clean
  | fuel + 1, n, i => by
    unfold rbInsertLoop
    refine Clean.bind (Reads.look _) fun x => Clean.bind (Reads.ask _) fun r => ?_
    cases r
    · exact Clean.bind (Reads.look _) fun j => Clean.ite (Clean.step _) (rbInsertLoop_clean o k v fuel (n + 1) j)
    · exact Clean.step _
    · exact Clean.bind (Reads.look _) fun j => Clean.ite (Clean.step _) (rbInsertLoop_clean o k v fuel (n + 1) j)

theorem rbRemoveLoop_clean (o : Cmp K) (k : K) :
    ∀ fuel n i, Clean (rbRemoveLoop o k fuel n i : C (RedBlackTree K V M) _)
  | 0, _, _ => (Reads.throw _).clean
  | fuel + 1, n, i => by
    unfold rbRemoveLoop
    refine Clean.bind (Reads.look _) fun x => Clean.bind (Reads.ask _) fun r => ?_
    cases r
    · exact Clean.bind (Reads.look _) fun j => Clean.ite (Reads.pure _).clean (rbRemoveLoop_clean o k fuel (n + 1) j)
    · exact Clean.step _
    · exact Clean.bind (Reads.look _) fun j => Clean.ite (Reads.pure _).clean (rbRemoveLoop_clean o k fuel (n + 1) j)

theorem rbSearchLoop_reads (o : Cmp K) (k : K) :
    ∀ fuel n i, Reads (rbSearchLoop o k fuel n i : C (RedBlackTree K V M) _)
  | 0, _, _ => Reads.throw _
  | fuel + 1, n, i => by
    unfold rbSearchLoop
    refine Reads.bind (Reads.look _) fun x => Reads.bind (Reads.ask _) fun r => ?_
    cases r
    · exact Reads.bind (Reads.look _) fun j => Reads.ite (Reads.pure _) (rbSearchLoop_reads o k fuel (n + 1) j)
    · exact Reads.pure _
    · exact Reads.bind (Reads.look _) fun j => Reads.ite (Reads.pure _) (rbSearchLoop_reads o k fuel (n + 1) j)

theorem rbDo_clean (o : Cmp K) (op : RedBlackSpec.TOp K V) : Clean (rbDo o op : C (RedBlackTree K V M) _) := by
  match op with
  | .map (.insert k v) =>
    exact Clean.map (Clean.bind Reads.get fun t => Clean.ite (Clean.step _) (rbInsertLoop_clean o k v _ _ _))
  | .map (.remove k) =>
    exact Clean.map (Clean.bind Reads.get fun t => Clean.ite (Reads.pure _).clean (rbRemoveLoop_clean o k _ _ _))
  | .map (.getMut k f) =>
    exact Clean.map (Clean.bind (Reads.bind Reads.get fun t => Reads.ite (Reads.pure _) (rbSearchLoop_reads o k _ _ _))
      fun i => Clean.ite (Reads.pure _).clean (Clean.step _))
  | .map (.iterMut es) => exact Clean.step _
  | .removeRoot => exact Clean.step _

end rb

section avl
variable {K V : Type} {M : Nat}

theorem avlInsertLoop_clean (lt gt : Nat → K → K → Option Bool) (k : K) (v : V) :
    ∀ fuel n i p, Clean (avlInsertLoop lt gt k v fuel n i p : C (AVLTree K V M) _)
  | 0, _, _, _ => (Reads.throw _).clean
  | fuel + 1, n, i, p => by
    unfold avlInsertLoop
    refine Clean.bind (Reads.look _) fun x => Clean.bind (Reads.ask _) fun r => Clean.ite ?_ ?_
    · exact Clean.bind (Reads.look _) fun j => Clean.ite (Clean.step _) (avlInsertLoop_clean lt gt k v fuel _ _ _)
    · refine Clean.bind (Reads.ask _) fun r => Clean.ite ?_ (Clean.step _)
      exact Clean.bind (Reads.look _) fun j => Clean.ite (Clean.step _) (avlInsertLoop_clean lt gt k v fuel _ _ _)

theorem avlRemovePath_reads (lt gt : Nat → K → K → Option Bool) (k : K) :
    ∀ fuel n i p, Reads (avlRemovePath lt gt k fuel n i p : C (AVLTree K V M) _)
  | 0, _, _, _ => Reads.throw _
  | fuel + 1, n, i, p => by
    unfold avlRemovePath
    refine Reads.ite (Reads.pure _) (Reads.bind (Reads.look _) fun x => Reads.bind (Reads.ask _) fun r => Reads.ite ?_ ?_)
    · exact Reads.bind (Reads.look _) fun j => avlRemovePath_reads lt gt k fuel _ _ _
    · refine Reads.bind (Reads.ask _) fun r => Reads.ite ?_ (Reads.pure _)
      exact Reads.bind (Reads.look _) fun j => avlRemovePath_reads lt gt k fuel _ _ _

theorem avlSearchLoop_reads (lt gt : Nat → K → K → Option Bool) (k : K) :
    ∀ fuel n i, Reads (avlSearchLoop lt gt k fuel n i : C (AVLTree K V M) _)
  | 0, _, _ => Reads.throw _
  | fuel + 1, n, i => by
    unfold avlSearchLoop
    refine Reads.bind (Reads.look _) fun x => Reads.bind (Reads.ask _) fun r => Reads.ite ?_ ?_
    · exact Reads.bind (Reads.look _) fun j => Reads.ite (Reads.pure _) (avlSearchLoop_reads lt gt k fuel _ _)
    · refine Reads.bind (Reads.ask _) fun r => Reads.ite ?_ (Reads.pure _)
      exact Reads.bind (Reads.look _) fun j => Reads.ite (Reads.pure _) (avlSearchLoop_reads lt gt k fuel _ _)

theorem avlDo_clean (o : Less K) (op : MapSpec.Op K V) : Clean (avlDo o op : C (AVLTree K V M) _) := by
  match op with
  | .insert k v =>
    exact Clean.map (Clean.bind Reads.get fun t => Clean.ite (Clean.step _) (avlInsertLoop_clean _ _ k v _ _ _ _))
  | .remove k =>
    exact Clean.map (Clean.bind Reads.get fun t => Clean.ite (Reads.pure _).clean
      (Clean.bind (avlRemovePath_reads _ _ k _ _ _ _) fun p => Clean.ite (Reads.pure _).clean (Clean.step _)))
  | .getMut k f =>
    exact Clean.map (Clean.bind Reads.get fun t => Clean.ite (Reads.pure _).clean
      (Clean.bind (avlSearchLoop_reads _ _ k _ _ _) fun i => Clean.ite (Reads.pure _).clean (Clean.step _)))
  | .iterMut es => exact Clean.step _

end avl

section hash
variable {K V : Type} {B M : Nat}

theorem hashFindLoop_reads (eq : Nat → K → K → Option Bool) (k : K) :
    ∀ fuel n i, Reads (hashFindLoop eq k fuel n i : C (HashTable K V B M) _)
  | 0, _, _ => Reads.throw _
  | fuel + 1, n, i => by
    unfold hashFindLoop
    refine Reads.ite (Reads.pure _) (Reads.bind (Reads.look _) fun x => Reads.bind (Reads.ask _) fun r =>
      Reads.ite (Reads.pure _) ?_)
    exact Reads.bind (Reads.look _) fun j => hashFindLoop_reads eq k fuel _ _

theorem hashFind_reads (hash : Option Nat) (eq : Nat → K → K → Option Bool) (k : K) :
    Reads (hashFind hash eq k : C (HashTable K V B M) _) :=
  Reads.bind (Reads.ask _) fun _ => Reads.bind (Reads.look _) fun _ => Reads.bind (Reads.look _) fun _ =>
    Reads.bind (hashFindLoop_reads _ _ _ _ _) fun _ => Reads.pure _

theorem hashDo_clean (o : Eqs K) (op : MapSpec.Op K V) : Clean (hashDo o op : C (HashTable K V B M) _) := by
  match op with
  | .insert k v => exact Clean.map (Clean.bind (hashFind_reads _ _ k) fun p => Clean.step _)
  | .remove k => exact Clean.map (Clean.bind (hashFind_reads _ _ k) fun p => Clean.step _)
  | .getMut k f => exact Clean.map (Clean.bind (hashFind_reads _ _ k) fun p => Clean.step _)
  | .iterMut es => exact Clean.step _

end hash
section honest
open MapSpec
variable {K V : Type} {M B : Nat}

section
variable [Ord K]

theorem rbInsertLoop_honest (k : K) (v : V) : ∀ fuel n i, (rbInsertLoop (cmpOf K) k v fuel n i : C (RedBlackTree K V M) _) =
    step fun t => t.insertLoop k v fuel i
  | 0, _, _ => rfl
  | fuel + 1, n, i => by
    funext t
    unfold rbInsertLoop RedBlackTree.insertLoop
    rw [look_bind]
    rw [step_at]
    cases t.getNode i with
    | error p => rfl
    | ok x =>
      simp only [ask_bind, cmpOf, except_bind_ok]
      cases compare k x.key with
      | lt =>
        simp only [look_bind]
        cases t.getLeft i with
        | error p => rfl
        | ok j =>
          simp only [except_bind_ok]
          split
          · rfl
          · exact congrFun (rbInsertLoop_honest k v fuel (n + 1) j) t
      | eq => rfl
      | gt =>
        simp only [look_bind]
        cases t.getRight i with
        | error p => rfl
        | ok j =>
          simp only [except_bind_ok]
          split
          · rfl
          · exact congrFun (rbInsertLoop_honest k v fuel (n + 1) j) t

theorem rbRemoveLoop_honest (k : K) : ∀ fuel n i, (rbRemoveLoop (cmpOf K) k fuel n i : C (RedBlackTree K V M) _) =
    step fun t => t.removeLoop k fuel i
  | 0, _, _ => rfl
  | fuel + 1, n, i => by
    funext t
    unfold rbRemoveLoop RedBlackTree.removeLoop
    rw [look_bind]
    rw [step_at]
    cases t.getNode i with
    | error p => rfl
    | ok x =>
      simp only [ask_bind, cmpOf, except_bind_ok]
      cases compare k x.key with
      | lt =>
        simp only [look_bind]
        cases t.getLeft i with
        | error p => rfl
        | ok j =>
          simp only [except_bind_ok]
          split
          · rfl
          · exact congrFun (rbRemoveLoop_honest k fuel (n + 1) j) t
      | eq => rfl
      | gt =>
        simp only [look_bind]
        cases t.getRight i with
        | error p => rfl
        | ok j =>
          simp only [except_bind_ok]
          split
          · rfl
          · exact congrFun (rbRemoveLoop_honest k fuel (n + 1) j) t

theorem rbSearchLoop_honest (k : K) : ∀ fuel n i, (rbSearchLoop (cmpOf K) k fuel n i : C (RedBlackTree K V M) _) =
    look fun t => t.getAddrLoop k fuel i
  | 0, _, _ => rfl
  | fuel + 1, n, i => by
    funext t
    unfold rbSearchLoop RedBlackTree.getAddrLoop
    rw [look_bind]
    rw [look_at]
    cases t.getNode i with
    | error p => rfl
    | ok x =>
      simp only [ask_bind, cmpOf, except_bind_ok]
      cases compare k x.key with
      | lt =>
        show (look _ >>= _) t = _
        rw [look_bind]
        cases t.getLeft i with
        | error p => rfl
        | ok j =>
          simp only [except_bind_ok]
          split
          · rfl
          · exact congrFun (rbSearchLoop_honest k fuel (n + 1) j) t
      | eq => rfl
      | gt =>
        show (look _ >>= _) t = _
        rw [look_bind]
        cases t.getRight i with
        | error p => rfl
        | ok j =>
          simp only [except_bind_ok]
          split
          · rfl
          · exact congrFun (rbSearchLoop_honest k fuel (n + 1) j) t

theorem rbInsert_honest (k : K) (v : V) : (rbInsert (cmpOf K) k v : C (RedBlackTree K V M) _) =
    step fun t => t.insert k v := by
  funext t
  unfold rbInsert RedBlackTree.insert
  rw [get_bind]
  rw [step_at]
  split
  · rfl
  · rw [rbInsertLoop_honest]; rfl

theorem rbRemove_honest (k : K) : (rbRemove (cmpOf K) k : C (RedBlackTree K V M) _) = step fun t => t.remove k := by
  funext t
  unfold rbRemove RedBlackTree.remove
  rw [get_bind]
  rw [step_at]
  split
  · rfl
  · rw [rbRemoveLoop_honest]; rfl

theorem rbGetAddr_honest (k : K) : (rbGetAddr (cmpOf K) k : C (RedBlackTree K V M) _) = look fun t => t.getAddr k := by
  funext t
  unfold rbGetAddr RedBlackTree.getAddr
  rw [get_bind]
  rw [look_at]
  split
  · rfl
  · rw [rbSearchLoop_honest]; rfl

theorem rbGetMut_honest (k : K) (f : V → V) : (rbGetMut (cmpOf K) k f : C (RedBlackTree K V M) _) =
    step fun t => RedBlackSpec.api.getMutWrite t k f := by
  funext t
  unfold rbGetMut Api.getMutWrite
  rw [rbGetAddr_honest, look_bind]
  rw [step_at]
  simp only [RedBlackSpec.api, RedBlackTree.getMut]
  cases t.getAddr k with
  | error p => rfl
  | ok i =>
    simp only [except_bind_ok]
    split
    · rfl
    · rw [step_at]
      cases hn : t.getNode i with
      | error p => rfl
      | ok n =>
        simp only [hn, except_bind_ok, except_pure]

theorem rbCall_honest (t : RedBlackTree K V M) (op : RedBlackSpec.TOp K V) :
    rbCall t (op, cmpOf K) = (RedBlackSpec.call t op >>= fun p => .ok (p.1, some p.2)) := by
  unfold rbCall
  match op with
  | .map (.insert k v) =>
    simp only [rbDo, rbInsert_honest, step_map, caught_step]
    simp only [RedBlackSpec.call, Api.call, RedBlackSpec.api]
    cases t.insert k v <;> rfl
  | .map (.remove k) =>
    simp only [rbDo, rbRemove_honest, step_map, caught_step]
    simp only [RedBlackSpec.call, Api.call, RedBlackSpec.api]
    cases t.remove k <;> rfl
  | .map (.getMut k f) =>
    simp only [rbDo, rbGetMut_honest, step_map, caught_step]
    simp only [RedBlackSpec.call, Api.call]
    cases RedBlackSpec.api.getMutWrite t k f <;> rfl
  | .map (.iterMut es) => exact caught_step _ _
  | .removeRoot => exact caught_step _ _

end

section
variable [LT K] [DecidableLT K] [PartialGt K]

theorem avlInsertLoop_honest (k : K) (v : V) : ∀ fuel n i p,
    (avlInsertLoop (lessOf K).lt (lessOf K).gt k v fuel n i p : C (AVLTree K V M) _) =
    step fun t => t.insertLoop k v fuel i p
  | 0, _, _, _ => rfl
  | fuel + 1, n, i, p => by
    funext t
    unfold avlInsertLoop AVLTree.insertLoop
    rw [look_bind]
    rw [step_at]
    cases t.getNode i with
    | error p => rfl
    | ok x =>
      simp only [ask_bind, lessOf, except_bind_ok]
      by_cases h1 : k < x.key
      · simp only [h1, decide_true, if_true, look_bind]
        cases t.getField i AVLTree.LEFT with
        | error p => rfl
        | ok j =>
          simp only [except_bind_ok]
          split
          · rfl
          · exact congrFun (avlInsertLoop_honest k v fuel (n + 1) j _) t
      · simp only [h1, decide_false, Bool.false_eq_true, if_false, ask_bind]
        by_cases h2 : PartialGt.gt k x.key
        · simp only [h2, decide_true, if_true, look_bind]
          cases t.getField i AVLTree.RIGHT with
          | error p => rfl
          | ok j =>
            simp only [except_bind_ok]
            split
            · rfl
            · exact congrFun (avlInsertLoop_honest k v fuel (n + 1) j _) t
        · simp only [h2, decide_false, Bool.false_eq_true, if_false]; rfl

theorem avlRemovePath_honest (k : K) : ∀ fuel n i p,
    (avlRemovePath (lessOf K).lt (lessOf K).gt k fuel n i p : C (AVLTree K V M) _) =
    look fun t => t.removePath k fuel i p
  | 0, _, _, _ => rfl
  | fuel + 1, n, i, p => by
    funext t
    unfold avlRemovePath AVLTree.removePath
    by_cases h0 : i = SENTINEL
    · simp only [h0, if_true]; rfl
    · simp only [h0, if_false]
      rw [look_bind]
      rw [look_at]
      cases t.getNode i with
      | error p => rfl
      | ok x =>
        simp only [ask_bind, lessOf, except_bind_ok]
        by_cases h1 : k < x.key
        · simp only [h1, decide_true, if_true]
          show (look _ >>= _) t = _
          rw [look_bind]
          cases t.getField i AVLTree.LEFT with
          | error p => rfl
          | ok j => exact congrFun (avlRemovePath_honest k fuel (n + 1) j _) t
        · simp only [h1, decide_false, Bool.false_eq_true, if_false, ask_bind]
          by_cases h2 : PartialGt.gt k x.key
          · simp only [h2, decide_true, if_true]
            show (look _ >>= _) t = _
            rw [look_bind]
            cases t.getField i AVLTree.RIGHT with
            | error p => rfl
            | ok j => exact congrFun (avlRemovePath_honest k fuel (n + 1) j _) t
          · simp only [h2, decide_false, Bool.false_eq_true, if_false]; rfl

theorem avlSearchLoop_honest (k : K) : ∀ fuel n i,
    (avlSearchLoop (lessOf K).lt (lessOf K).gt k fuel n i : C (AVLTree K V M) _) =
    look fun t => t.searchLoop k fuel i
  | 0, _, _ => rfl
  | fuel + 1, n, i => by
    funext t
    unfold avlSearchLoop AVLTree.searchLoop
    rw [look_bind]
    rw [look_at]
    cases t.getNode i with
    | error p => rfl
    | ok x =>
      simp only [ask_bind, lessOf, except_bind_ok]
      by_cases h1 : k < x.key
      · simp only [h1, decide_true, if_true]
        show (look _ >>= _) t = _
        rw [look_bind]
        cases t.getField i AVLTree.LEFT with
        | error p => rfl
        | ok j =>
          simp only [except_bind_ok]
          split
          · rfl
          · exact congrFun (avlSearchLoop_honest k fuel (n + 1) j) t
      · simp only [h1, decide_false, Bool.false_eq_true, if_false, ask_bind]
        by_cases h2 : PartialGt.gt k x.key
        · simp only [h2, decide_true, if_true]
          show (look _ >>= _) t = _
          rw [look_bind]
          cases t.getField i AVLTree.RIGHT with
          | error p => rfl
          | ok j =>
            simp only [except_bind_ok]
            split
            · rfl
            · exact congrFun (avlSearchLoop_honest k fuel (n + 1) j) t
        · simp only [h2, decide_false, Bool.false_eq_true, if_false]; rfl

theorem avlInsert_honest (k : K) (v : V) : (avlInsert (lessOf K).lt (lessOf K).gt k v : C (AVLTree K V M) _) =
    step fun t => t.insert k v := by
  funext t
  unfold avlInsert AVLTree.insert
  rw [get_bind]
  rw [step_at]
  split
  · rfl
  · rw [avlInsertLoop_honest]; rfl

theorem avlRemove_honest (k : K) : (avlRemove (lessOf K).lt (lessOf K).gt k : C (AVLTree K V M) _) =
    step fun t => t.remove k := by
  funext t
  unfold avlRemove AVLTree.remove
  rw [get_bind]
  split
  · rw [step_at]
    rw [if_pos (by assumption)]; rfl
  · rw [avlRemovePath_honest, look_bind]
    rw [step_at]
    rw [if_neg (by assumption)]
    cases t.removePath k (M + 2) t.root [(none, none, t.root)] with
    | error p => rfl
    | ok p =>
      obtain ⟨i, p⟩ := p
      simp only [except_bind_ok]
      split <;> rfl

theorem avlGetMut_honest (k : K) (f : V → V) : (avlGetMut (lessOf K).lt (lessOf K).gt k f : C (AVLTree K V M) _) =
    step fun t => AVLSpec.api.getMutWrite t k f := by
  funext t
  unfold avlGetMut Api.getMutWrite
  rw [get_bind]
  unfold AVLSpec.api AVLTree.getMut
  split
  · rw [step_at]
    simp only [if_pos (by assumption : t.root = SENTINEL)]; rfl
  · rw [avlSearchLoop_honest, look_bind]
    rw [step_at]
    simp only [if_neg (by assumption : ¬ t.root = SENTINEL)]
    cases t.searchLoop k (M + 1) t.root with
    | error p => rfl
    | ok i =>
      simp only [except_bind_ok]
      split
      · rfl
      · rw [step_at]
        cases hn : t.getNode i with
        | error p => rfl
        | ok n =>
          simp only [hn, except_bind_ok, except_pure]

theorem avlCall_honest (t : AVLTree K V M) (op : Op K V) :
    avlCall t (op, lessOf K) = (AVLSpec.call t op >>= fun p => .ok (p.1, some p.2)) := by
  unfold avlCall
  match op with
  | .insert k v =>
    simp only [avlDo, avlInsert_honest, step_map, caught_step]
    simp only [AVLSpec.call, Api.call, AVLSpec.api]
    cases t.insert k v <;> rfl
  | .remove k =>
    simp only [avlDo, avlRemove_honest, step_map, caught_step]
    simp only [AVLSpec.call, Api.call, AVLSpec.api]
    cases t.remove k <;> rfl
  | .getMut k f =>
    simp only [avlDo, avlGetMut_honest, step_map, caught_step]
    simp only [AVLSpec.call, Api.call]
    cases AVLSpec.api.getMutWrite t k f <;> rfl
  | .iterMut es => exact caught_step _ _

end

section
variable [BEq K]

theorem hashFindLoop_honest (k : K) : ∀ fuel n i,
    (hashFindLoop (fun _ a b => some (a == b)) k fuel n i : C (HashTable K V B M) _) = look fun h => h.findLoop k fuel i
  | 0, _, _ => rfl
  | fuel + 1, n, i => by
    funext h
    unfold hashFindLoop HashTable.findLoop
    by_cases h0 : i = SENTINEL
    · simp only [h0, if_true]; rfl
    · simp only [h0, if_false]
      rw [look_bind]
      rw [look_at]
      cases h.getNode i with
      | error p => rfl
      | ok x =>
        simp only [ask_bind, except_bind_ok]
        by_cases h1 : (x.key == k) = true
        · simp only [h1, if_true]; rfl
        · simp only [h1]
          show (look _ >>= _) h = _
          rw [look_bind]
          cases h.getNext i with
          | error p => rfl
          | ok j => exact congrFun (hashFindLoop_honest k fuel (n + 1) j) h

/-- what the functions of a hash table begin with -/
def findOf (hash : K → Nat) (k : K) (h : HashTable K V B M) : R (Nat × Nat × Nat) := do
  let b ← HashTable.bucketIndex B hash k
  let head ← h.bucket b
  let curr ← h.findLoop k (M + 1) head
  return (b, head, curr)

theorem hashFind_honest (hash : K → Nat) (k : K) :
    (hashFind (some (hash k)) (fun _ a b => some (a == b)) k : C (HashTable K V B M) _) = look (findOf hash k) := by
  funext h
  unfold hashFind
  rw [ask_bind]
  simp only [look_bind, hashFindLoop_honest]
  rw [look_at]
  unfold findOf
  rw [show HashTable.bucketIndex B (fun _ => hash k) k = HashTable.bucketIndex B hash k from rfl]
  cases HashTable.bucketIndex B hash k with
  | error p => rfl
  | ok b =>
    simp only [except_bind_ok]
    cases h.bucket b with
    | error p => rfl
    | ok head =>
      simp only [except_bind_ok]
      cases h.findLoop k (M + 1) head <;> rfl

theorem find_then {α : Type} (hash : K → Nat) (k : K) (g : Nat × Nat × Nat → HashTable K V B M → R (HashTable K V B M × α)) :
    (look (findOf hash k) >>= fun p => step (g p)) = step fun h => findOf hash k h >>= fun p => g p h := by
  funext h
  rw [look_bind]
  rw [step_at]
  cases findOf hash k h <;> rfl

theorem find_unfold {α : Type} (hash : K → Nat) (k : K) (h : HashTable K V B M) (g : Nat × Nat × Nat → R α) :
    (findOf hash k h >>= g) = (do
      let b ← HashTable.bucketIndex B hash k
      let head ← h.bucket b
      let curr ← h.findLoop k (M + 1) head
      g (b, head, curr)) := by
  unfold findOf
  cases HashTable.bucketIndex B hash k with
  | error p => rfl
  | ok b =>
    simp only [except_bind_ok]
    cases h.bucket b with
    | error p => rfl
    | ok head =>
      simp only [except_bind_ok]
      cases h.findLoop k (M + 1) head <;> rfl

theorem hashCall_honest (hash : K → Nat) (h : HashTable K V B M) (op : Op K V) :
    hashCall h (op, eqsOf hash op) = (HashTableSpec.call hash h op >>= fun p => .ok (p.1, some p.2)) := by
  unfold hashCall
  match op with
  | .insert k v =>
    simp only [hashDo, eqsOf, keyOf, Option.map_some, hashInsert, hashFind_honest, find_then, step_map, caught_step]
    have : (findOf hash k h >>= fun p => hashInsertAt k v p.1 p.2.1 p.2.2 h) = h.insert hash k v := by
      rw [find_unfold]; rfl
    rw [this]
    simp only [HashTableSpec.call]
    cases h.insert hash k v <;> rfl
  | .remove k =>
    simp only [hashDo, eqsOf, keyOf, Option.map_some, hashRemove, hashFind_honest, find_then, step_map, caught_step]
    have : (findOf hash k h >>= fun p => hashRemoveAt p.1 p.2.1 p.2.2 h) = h.remove hash k := by
      rw [find_unfold]; rfl
    rw [this]
    simp only [HashTableSpec.call]
    cases h.remove hash k <;> rfl
  | .getMut k f =>
    simp only [hashDo, eqsOf, keyOf, Option.map_some, hashGetMut, hashFind_honest, find_then, step_map, caught_step]
    have : ∀ g : HashTable K V B M × Option Nat → R (HashTable K V B M × Option V),
        (findOf hash k h >>= fun p => hashGetMutAt p.1 p.2.1 p.2.2 h >>= g) = (h.getMut hash k >>= g) := by
      intro g
      have e : (findOf hash k h >>= fun p => hashGetMutAt p.1 p.2.1 p.2.2 h) = h.getMut hash k := by
        rw [find_unfold]; rfl
      rw [← e]
      cases findOf hash k h <;> rfl
    rw [this]
    simp only [HashTableSpec.call, HashTableSpec.getMutWrite]
    cases h.getMut hash k with
    | error p => rfl
    | ok p =>
      obtain ⟨h', s⟩ := p
      simp only [except_bind_ok]
      cases s with
      | none => rfl
      | some i =>
        cases h'.getNode i with
        | error p => rfl
        | ok n =>
          simp only
          cases h'.setNodeValue i (f n.value) <;> rfl
  | .iterMut es => exact caught_step _ _

end
end honest
end Sokoban.Caprice
