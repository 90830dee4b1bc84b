import Verif.Spec.Counter
import Verif.Proof.InPlace

/-
A call on the deque is the call without counting, followed by the counting.
-/
namespace Sokoban.Counter
open DequeSpec InPlace InPlace.Deq Deque
variable {T : Type} {M : Nat} {α β : Type}

/-- the deque with another `sequence_number` -/
def withSeq (d : Deque T M) (n : Nat) : Deque T M := { d with sequenceNumber := n }

/-- the result with another `sequence_number` -/
def resSeq (n : Nat) : EStateM.Result Panic (Deque T M) α → EStateM.Result Panic (Deque T M) α
  | .ok x d => .ok x (withSeq d n)
  | .error p d => .error p (withSeq d n)

/-- the method neither reads nor writes `sequence_number` -/
def Blind (m : U (Deque T M) α) : Prop := ∀ d n, m (withSeq d n) = resSeq n (m d)

theorem Blind.bind {m : U (Deque T M) α} {k : α → U (Deque T M) β} (h : Blind m) (hk : ∀ x, Blind (k x)) :
    Blind (m >>= k) := by
  intro d n
  rw [run_bind, run_bind, h]
  cases e : m d with
  | ok x d' => exact hk x d' n
  | error p d' => rfl

theorem Blind.pure (x : α) : Blind (pure x : U (Deque T M) α) := fun _ _ => rfl

theorem Blind.get_bind {k : Deque T M → U (Deque T M) β} (h : ∀ d n, k (withSeq d n) = k d) (hk : ∀ d, Blind (k d)) :
    Blind (get >>= k) := by
  intro d n
  rw [run_bind, run_bind, run_get, run_get]
  show k (withSeq d n) (withSeq d n) = _
  rw [h]; exact hk d d n

theorem Blind.ite {c : Prop} [Decidable c] {u v : U (Deque T M) α} (hu : Blind u) (hv : Blind v) :
    Blind (if c then u else v) := by split <;> assumption

theorem Blind.look {f : Deque T M → R α} (h : ∀ d n, f (withSeq d n) = f d) : Blind (look f) := by
  intro d n
  unfold InPlace.look
  rw [h]; cases f d <;> rfl

theorem Blind.modify {f : Deque T M → Deque T M} (h : ∀ d n, f (withSeq d n) = withSeq (f d) n) :
    Blind (modify f) := by
  intro d n
  rw [run_modify, run_modify, h]; rfl

theorem Blind.onAlloc (m : U (NodeAllocator T M 2) α) : Blind (onAlloc m) := by
  intro d n
  unfold Deq.onAlloc onField
  rw [show (withSeq d n).allocator = d.allocator from rfl]
  cases m d.allocator <;> rfl

theorem blind_pushBack (v : T) : Blind (pushBackBy (pure ()) v : U (Deque T M) Unit) := by
  unfold pushBackBy
  refine (Blind.onAlloc _).bind fun i => Blind.get_bind (fun _ _ => rfl) fun d => ?_
  have h2 : Blind (do
      let d ← get
      if d.tail ≠ SENTINEL then Deq.onAlloc (Alloc.connect i d.tail Deque.PREV Deque.NEXT)
      modify fun d => { d with tail := i }
      pure () : U (Deque T M) Unit) := by
    refine Blind.get_bind (fun _ _ => rfl) fun d => ?_
    dsimp only
    split
    · exact (Blind.onAlloc _).bind fun _ => (Blind.modify fun _ _ => rfl).bind fun _ => Blind.pure _
    · exact (Blind.modify fun _ _ => rfl).bind fun _ => Blind.pure _
  dsimp only
  split
  · exact (Blind.modify fun _ _ => rfl).bind fun _ => h2
  · exact h2

theorem blind_pushFront (v : T) : Blind (pushFrontBy (pure ()) v : U (Deque T M) Unit) := by
  unfold pushFrontBy
  refine (Blind.onAlloc _).bind fun i => Blind.get_bind (fun _ _ => rfl) fun d => ?_
  have h2 : Blind (do
      let d ← get
      if d.head ≠ SENTINEL then Deq.onAlloc (Alloc.connect i d.head Deque.NEXT Deque.PREV)
      modify fun d => { d with head := i }
      pure () : U (Deque T M) Unit) := by
    refine Blind.get_bind (fun _ _ => rfl) fun d => ?_
    dsimp only
    split
    · exact (Blind.onAlloc _).bind fun _ => (Blind.modify fun _ _ => rfl).bind fun _ => Blind.pure _
    · exact (Blind.modify fun _ _ => rfl).bind fun _ => Blind.pure _
  dsimp only
  split
  · exact (Blind.modify fun _ _ => rfl).bind fun _ => h2
  · exact h2

theorem blind_remove (i : Nat) : Blind (removeBy (pure ()) i : U (Deque T M) (Option T)) := by
  unfold removeBy
  refine (Blind.look fun _ _ => rfl).bind fun v => (Blind.look fun _ _ => rfl).bind fun l =>
    (Blind.look fun _ _ => rfl).bind fun r => (Blind.onAlloc _).bind fun _ => (Blind.onAlloc _).bind fun _ => ?_
  have h3 : Blind (do
      let _ ← Deq.onAlloc (Alloc.removeNode i)
      pure ()
      return some v : U (Deque T M) (Option T)) :=
    (Blind.onAlloc _).bind fun _ => (Blind.pure _).bind fun _ => Blind.pure _
  have h2 : Blind (do
      let d ← get
      if i = d.tail then
        modify fun d => { d with tail := l }
        Deq.onAlloc (Alloc.clearRegister l Deque.NEXT)
      let _ ← Deq.onAlloc (Alloc.removeNode i)
      pure ()
      return some v : U (Deque T M) (Option T)) := by
    refine Blind.get_bind (fun _ _ => rfl) fun d => ?_
    dsimp only
    split
    · exact (Blind.modify fun _ _ => rfl).bind fun _ => (Blind.onAlloc _).bind fun _ => h3
    · exact h3
  have h1 : Blind (do
      let d ← get
      if i = d.head then
        modify fun d => { d with head := r }
        Deq.onAlloc (Alloc.clearRegister r Deque.PREV)
      let d ← get
      if i = d.tail then
        modify fun d => { d with tail := l }
        Deq.onAlloc (Alloc.clearRegister l Deque.NEXT)
      let _ ← Deq.onAlloc (Alloc.removeNode i)
      pure ()
      return some v : U (Deque T M) (Option T)) := by
    refine Blind.get_bind (fun _ _ => rfl) fun d => ?_
    dsimp only
    split
    · exact (Blind.modify fun _ _ => rfl).bind fun _ => (Blind.onAlloc _).bind fun _ => h2
    · exact h2
  dsimp only
  split
  · exact (Blind.onAlloc _).bind fun _ => h1
  · exact h1

theorem blind_popFront : Blind (popFrontBy (pure ()) : U (Deque T M) (Option T)) :=
  Blind.get_bind (fun _ _ => rfl) fun _ => Blind.ite (Blind.pure _) (blind_remove _)

theorem blind_popBack : Blind (popBackBy (pure ()) : U (Deque T M) (Option T)) :=
  Blind.get_bind (fun _ _ => rfl) fun _ => Blind.ite (Blind.pure _) (blind_remove _)

theorem ite_bindU {σ : Type} (c : Prop) [Decidable c] (u v : U σ α) (k : α → U σ β) :
    ((if c then u else v) >>= k) = if c then u >>= k else v >>= k := by split <;> rfl

theorem pushBack_split (bump : U (Deque T M) Unit) (v : T) :
    pushBackBy bump v = (do pushBackBy (pure ()) v; bump) := by
  unfold pushBackBy
  simp only [bind_assoc, pure_bind, ite_bindU]

theorem pushFront_split (bump : U (Deque T M) Unit) (v : T) :
    pushFrontBy bump v = (do pushFrontBy (pure ()) v; bump) := by
  unfold pushFrontBy
  simp only [bind_assoc, pure_bind, ite_bindU]

theorem remove_split (bump : U (Deque T M) Unit) (i : Nat) :
    removeBy bump i = (do let x ← removeBy (pure ()) i; bump; return x) := by
  unfold removeBy
  simp only [bind_assoc, pure_bind, ite_bindU]

/-- a result counted -/
def counted (bump : U (Deque T M) Unit) (op : Op T) : EStateM.Result Panic (Deque T M) (Out T) →
    EStateM.Result Panic (Deque T M) (Out T)
  | .error p d => .error p d
  | .ok o d => if changed op o = 0 then .ok o d else
    match bump d with
    | .ok _ d => .ok o d
    | .error p d => .error p d

/-- what the method returns is `some` -/
def Somes (m : U (Deque T M) (Option α)) : Prop := ∀ d d' o, m d = .ok o d' → ∃ v, o = some v

theorem Somes.bind {m : U (Deque T M) β} {k : β → U (Deque T M) (Option α)} (hk : ∀ x, Somes (k x)) : Somes (m >>= k) := by
  intro d d' o e
  rw [run_bind] at e
  cases e1 : m d with
  | ok x d1 => rw [e1] at e; exact hk x d1 d' o e
  | error p d1 => rw [e1] at e; cases e

theorem Somes.pure (x : α) : Somes (pure (some x) : U (Deque T M) (Option α)) := by
  intro d d' o e; cases e; exact ⟨x, rfl⟩

theorem remove_some (i : Nat) : Somes (removeBy (pure ()) i : U (Deque T M) (Option T)) := by
  unfold removeBy
  simp only [pure_bind]
  repeat' first | exact Somes.pure _ | (refine Somes.bind fun _ => ?_) | split

theorem call_split (bump : U (Deque T M) Unit) (op : Op T) (d : Deque T M) :
    callBy bump op d = counted bump op (callBy (pure ()) op d) := by
  cases op with
  | pushBack v =>
    simp only [callBy]
    rw [pushBack_split bump, run_bind, run_bind, run_bind]
    cases pushBackBy (pure ()) v d with
    | error p d' => rfl
    | ok x d' =>
      simp only [counted, run_pure, changed]
      cases bump d' <;> rfl
  | pushFront v =>
    simp only [callBy]
    rw [pushFront_split bump, run_bind, run_bind, run_bind]
    cases pushFrontBy (pure ()) v d with
    | error p d' => rfl
    | ok x d' =>
      simp only [counted, run_pure, changed]
      cases bump d' <;> rfl
  | popBack =>
    simp only [callBy, popBackBy]
    rw [run_bind, run_bind, run_bind, run_bind, run_get]
    dsimp only
    by_cases hh : d.tail = SENTINEL
    · simp only [hh, if_true]; rfl
    · simp only [if_neg hh]
      rw [remove_split bump, run_bind]
      cases e : removeBy (pure ()) d.tail d with
      | error p d' => rfl
      | ok x d' =>
        obtain ⟨v, rfl⟩ := remove_some _ _ _ _ e
        simp only [run_bind, counted, run_pure, changed]
        cases bump d' <;> rfl
  | popFront =>
    simp only [callBy, popFrontBy]
    rw [run_bind, run_bind, run_bind, run_bind, run_get]
    dsimp only
    by_cases hh : d.head = SENTINEL
    · simp only [hh, if_true]; rfl
    · simp only [if_neg hh]
      rw [remove_split bump, run_bind]
      cases e : removeBy (pure ()) d.head d with
      | error p d' => rfl
      | ok x d' =>
        obtain ⟨v, rfl⟩ := remove_some _ _ _ _ e
        simp only [run_bind, counted, run_pure, changed]
        cases bump d' <;> rfl
  | iterMut es =>
    show callBy (pure ()) (.iterMut es) d = _
    cases e : callBy (pure ()) (.iterMut es) d with
    | error p d' => rfl
    | ok o d' =>
      have : changed (.iterMut es) o = 0 := by
        simp only [callBy, run_bind, run_get] at e
        split at e
        · cases e; rfl
        · cases e
      simp only [counted, this, if_true]

theorem Blind.store {f : Deque T M → R (Deque T M)} (h : ∀ d n, f (withSeq d n) = (f d).map (withSeq · n)) :
    Blind (store f) := by
  intro d n
  unfold InPlace.store
  rw [h]; cases f d <;> rfl

theorem writeSlot_withSeq (i : Nat) (v : T) (d : Deque T M) (n : Nat) :
    Deque.writeSlot (withSeq d n) i v = (Deque.writeSlot d i v).map (withSeq · n) := by
  unfold Deque.writeSlot
  rw [show (withSeq d n).allocator = d.allocator from rfl]
  cases d.allocator.setValue i v <;> rfl

theorem blind_driveMut : ∀ (es : List (End × (T → T))) (it : Deque.Iter),
    Blind (InPlace.driveMut (S := Deque T M) Deque.Iter.nextMut Deque.Iter.nextBackMut Deque.getNode Deque.writeSlot it es)
  | [], it => Blind.pure _
  | (e, f) :: es, it => by
    rw [InPlace.driveMut]
    refine (Blind.look fun d n => by cases e <;> rfl).bind fun x => ?_
    obtain ⟨it, _ | i⟩ := x
    · exact (blind_driveMut es it).bind fun _ => Blind.pure _
    · exact (Blind.look fun _ _ => rfl).bind fun v => (Blind.store fun d n => writeSlot_withSeq _ _ _ _).bind fun _ =>
        (blind_driveMut es it).bind fun _ => Blind.pure _

theorem blind_call (op : Op T) : Blind (callBy (pure ()) op : U (Deque T M) (Out T)) := by
  cases op with
  | pushBack v => exact (blind_pushBack v).bind fun _ => Blind.pure _
  | pushFront v => exact (blind_pushFront v).bind fun _ => Blind.pure _
  | popBack => exact blind_popBack.bind fun _ => Blind.pure _
  | popFront => exact blind_popFront.bind fun _ => Blind.pure _
  | iterMut es =>
    exact Blind.get_bind (fun _ _ => rfl) fun _ => (blind_driveMut es _).bind fun _ => Blind.pure _

theorem DRep.withSeq {d : Deque T M} {l : List (Nat × T)} (h : DRep d l) (n : Nat) : DRep (withSeq d n) l :=
  ⟨h.inv, h.clean, h.seg, h.vals, h.head, h.tail⟩

theorem bumpSeq_cases (d : Deque T M) :
    Deq.bumpSeq d = if d.sequenceNumber + 1 < 2 ^ 64 then .ok () (withSeq d (d.sequenceNumber + 1)) else .error .overflow d := by
  unfold Deq.bumpSeq InPlace.store Deque.bumpSeq
  by_cases h : d.sequenceNumber + 1 < 2 ^ 64
  · rw [if_neg (by omega), if_pos h]; rfl
  · rw [if_pos (by omega), if_neg h]

theorem bumpSeqWrap_eq (d : Deque T M) : bumpSeqWrap d = .ok () (withSeq d ((d.sequenceNumber + 1) % 2 ^ 64)) := rfl

/-- the call without counting -/
theorem plain {d : Deque T M} {l : List (Nat × T)} (h : DRep d l) (hM : M + 1 < 2 ^ 32) (op : Op T) :
    (∀ l' o, DequeSpec.step M (vals l) op = some (l', o) →
      ∃ d' l2, callBy (pure ()) op d = .ok o d' ∧ DRep d' l2 ∧ vals l2 = l' ∧ d'.sequenceNumber = d.sequenceNumber) ∧
    (DequeSpec.step M (vals l) op = none → callBy (pure ()) op d = .error .bufferFull d) := by
  have hb := blind_call op (withSeq d 0) d.sequenceNumber
  rw [show withSeq (withSeq d 0) d.sequenceNumber = d from rfl] at hb
  obtain ⟨c1, c2⟩ := call_caught (DRep.withSeq h 0) hM (by show 0 + 1 < _; omega) op
  refine ⟨fun l' o he => ?_, fun he => ?_⟩
  · obtain ⟨d1, l2, e, hr, hv, _⟩ := c1 l' o he
    unfold Deq.call at e
    rw [call_split] at e
    cases e0 : callBy (pure ()) op (withSeq d 0) with
    | error p d2 => rw [e0] at e; cases e
    | ok o' d2 =>
      rw [e0] at e hb
      have : o' = o ∧ DRep d2 l2 := by
        simp only [counted, bumpSeq_cases] at e
        split at e
        · cases e; exact ⟨rfl, hr⟩
        · split at e
          · rename_i hq
            split at hq
            · cases hq; cases e; exact ⟨rfl, DRep.withSeq hr d2.sequenceNumber⟩
            · cases hq
          · cases e
      obtain ⟨rfl, hr2⟩ := this
      exact ⟨_, l2, hb, DRep.withSeq hr2 _, hv, rfl⟩
  · have e := c2 he
    unfold Deq.call at e
    rw [call_split] at e
    cases e0 : callBy (pure ()) op (withSeq d 0) with
    | error p d2 => rw [e0] at e hb; cases e; rw [hb]; rfl
    | ok o' d2 =>
      rw [e0] at e
      simp only [counted, bumpSeq_cases] at e
      split at e
      · cases e
      · split at e
        · cases e
        · rename_i hq
          split at hq
          · cases hq
          · cases hq; cases e

/-- With overflow checks. -/
theorem run_checked (hM : M + 1 < 2 ^ 32) : ∀ (ops : List (Act T)) {d : Deque T M} {l : List (Nat × T)}, DRep d l →
    d.sequenceNumber < 2 ^ 64 →
    ∃ l2, DRep (runCaught (act bumpSeq) d ops).1 l2 ∧
      specCaught (checked M) (vals l, d.sequenceNumber) ops =
        ((vals l2, (runCaught (act bumpSeq) d ops).1.sequenceNumber), (runCaught (act bumpSeq) d ops).2) ∧
      (runCaught (act bumpSeq) d ops).1.sequenceNumber < 2 ^ 64
  | [], d, l, h, hs => ⟨l, h, rfl, hs⟩
  | .setSeq n :: ops, d, l, h, hs => by
    obtain ⟨l2, h2, e2, hs2⟩ := run_checked hM ops (DRep.withSeq h n.toNat) n.toNat_lt
    exact ⟨l2, h2, by
      have : specCaught (checked M) (vals l, (withSeq d n.toNat).sequenceNumber) ops = _ := e2
      simp only [specCaught, checked]
      rw [show n.toNat = (withSeq d n.toNat).sequenceNumber from rfl, this]; rfl, hs2⟩
  | .call op :: ops, d, l, h, hs => by
    obtain ⟨c1, c2⟩ := plain h hM op
    have hsp := call_split bumpSeq op d
    cases hst : DequeSpec.step M (vals l) op with
    | none =>
      rw [c2 hst] at hsp
      have hsp : callBy bumpSeq op d = .error .bufferFull d := hsp
      obtain ⟨l2, h2, e2, hs2⟩ := run_checked hM ops h hs
      simp only [runCaught, specCaught, checked, hst, act, hsp, e2]
      exact ⟨l2, h2, rfl, hs2⟩
    | some r =>
      obtain ⟨l', o⟩ := r
      obtain ⟨d', l2, e, hr, hv, hq⟩ := c1 l' o hst
      rw [e] at hsp
      simp only [counted, bumpSeq_cases, hq] at hsp
      have hc := changed_le op o
      by_cases h0 : changed op o = 0
      · rw [if_pos h0] at hsp
        obtain ⟨l3, h3, e3, hs3⟩ := run_checked hM ops hr (by omega)
        simp only [runCaught, specCaught, checked, hst, act, hsp, h0, Nat.add_zero, hs, if_true]
        rw [← hq, ← hv, e3]
        exact ⟨l3, h3, rfl, hs3⟩
      · have h1 : changed op o = 1 := by omega
        rw [if_neg h0] at hsp
        by_cases hlt : d.sequenceNumber + 1 < 2 ^ 64
        · rw [if_pos hlt] at hsp
          obtain ⟨l3, h3, e3, hs3⟩ := run_checked hM ops (DRep.withSeq hr (d.sequenceNumber + 1)) hlt
          simp only [runCaught, specCaught, checked, hst, act, hsp, h1, hlt, if_true]
          have : specCaught (checked M) (vals l2, d.sequenceNumber + 1) ops = _ := e3
          rw [← hv, this]
          exact ⟨l3, h3, rfl, hs3⟩
        · rw [if_neg hlt] at hsp
          obtain ⟨l3, h3, e3, hs3⟩ := run_checked hM ops hr (by omega)
          simp only [runCaught, specCaught, checked, hst, act, hsp, h1, hlt, if_false]
          rw [← hq, ← hv, e3]
          exact ⟨l3, h3, rfl, hs3⟩

/-- Without. -/
theorem run_wrapping (hM : M + 1 < 2 ^ 32) : ∀ (ops : List (Act T)) {d : Deque T M} {l : List (Nat × T)}, DRep d l →
    d.sequenceNumber < 2 ^ 64 →
    ∃ l2, DRep (runCaught (act bumpSeqWrap) d ops).1 l2 ∧
      specCaught (wrapping M) (vals l, d.sequenceNumber) ops =
        ((vals l2, (runCaught (act bumpSeqWrap) d ops).1.sequenceNumber), (runCaught (act bumpSeqWrap) d ops).2) ∧
      (runCaught (act bumpSeqWrap) d ops).1.sequenceNumber < 2 ^ 64
  | [], d, l, h, hs => ⟨l, h, rfl, hs⟩
  | .setSeq n :: ops, d, l, h, hs => by
    obtain ⟨l2, h2, e2, hs2⟩ := run_wrapping hM ops (DRep.withSeq h n.toNat) n.toNat_lt
    exact ⟨l2, h2, by
      have : specCaught (wrapping M) (vals l, (withSeq d n.toNat).sequenceNumber) ops = _ := e2
      simp only [specCaught, wrapping]
      rw [show n.toNat = (withSeq d n.toNat).sequenceNumber from rfl, this]; rfl, hs2⟩
  | .call op :: ops, d, l, h, hs => by
    obtain ⟨c1, c2⟩ := plain h hM op
    have hsp := call_split bumpSeqWrap op d
    cases hst : DequeSpec.step M (vals l) op with
    | none =>
      rw [c2 hst] at hsp
      have hsp : callBy bumpSeqWrap op d = .error .bufferFull d := hsp
      obtain ⟨l2, h2, e2, hs2⟩ := run_wrapping hM ops h hs
      simp only [runCaught, specCaught, wrapping, hst, act, hsp, e2]
      exact ⟨l2, h2, rfl, hs2⟩
    | some r =>
      obtain ⟨l', o⟩ := r
      obtain ⟨d', l2, e, hr, hv, hq⟩ := c1 l' o hst
      rw [e] at hsp
      simp only [counted, bumpSeqWrap_eq, hq] at hsp
      have hc := changed_le op o
      by_cases h0 : changed op o = 0
      · rw [if_pos h0] at hsp
        obtain ⟨l3, h3, e3, hs3⟩ := run_wrapping hM ops hr (by omega)
        simp only [runCaught, specCaught, wrapping, hst, act, hsp, h0, Nat.add_zero, Nat.mod_eq_of_lt hs]
        rw [← hq, ← hv, e3]
        exact ⟨l3, h3, rfl, hs3⟩
      · have h1 : changed op o = 1 := by omega
        rw [if_neg h0] at hsp
        obtain ⟨l3, h3, e3, hs3⟩ := run_wrapping hM ops (DRep.withSeq hr ((d.sequenceNumber + 1) % 2 ^ 64))
          (Nat.mod_lt _ (by omega))
        simp only [runCaught, specCaught, wrapping, hst, act, hsp, h1]
        have : specCaught (wrapping M) (vals l2, (d.sequenceNumber + 1) % 2 ^ 64) ops = _ := e3
        rw [← hv, this]
        exact ⟨l3, h3, rfl, hs3⟩

/-- The two builds do the same as long as there is no overflow. -/
theorem same_run (hM : M + 1 < 2 ^ 32) : ∀ (ops : List (Act T)) {d : Deque T M} {l : List (Nat × T)}, DRep d l →
    d.sequenceNumber < 2 ^ 64 → .error .overflow ∉ (runCaught (act Deq.bumpSeq) d ops).2 →
    runCaught (act bumpSeqWrap) d ops = runCaught (act Deq.bumpSeq) d ops
  | [], _, _, _, _, _ => rfl
  | .setSeq n :: ops, d, l, h, hs, hno => by
    have := same_run hM ops (DRep.withSeq h n.toNat) n.toNat_lt (fun hc => hno (List.mem_cons_of_mem _ hc))
    show (_, _) = (_, _)
    rw [show runCaught (act bumpSeqWrap) { d with sequenceNumber := n.toNat } ops = _ from this]; rfl
  | .call op :: ops, d, l, h, hs, hno => by
    obtain ⟨c1, c2⟩ := plain h hM op
    have hsp := call_split Deq.bumpSeq op d
    have hsw := call_split bumpSeqWrap op d
    cases hst : DequeSpec.step M (vals l) op with
    | none =>
      rw [c2 hst] at hsp hsw
      have hsp : callBy Deq.bumpSeq op d = .error .bufferFull d := hsp
      have hsw : callBy bumpSeqWrap op d = .error .bufferFull d := hsw
      simp only [runCaught, act, hsp] at hno
      have := same_run hM ops h hs (fun hc => hno (List.mem_cons_of_mem _ hc))
      simp only [runCaught, act, hsp, hsw, this]
    | some r =>
      obtain ⟨l', o⟩ := r
      obtain ⟨d', l2, e, hr, hv, hq⟩ := c1 l' o hst
      rw [e] at hsp hsw
      simp only [counted, bumpSeq_cases, bumpSeqWrap_eq, hq] at hsp hsw
      by_cases h0 : changed op o = 0
      · rw [if_pos h0] at hsp hsw
        simp only [runCaught, act, hsp] at hno
        have := same_run hM ops hr (by omega) (fun hc => hno (List.mem_cons_of_mem _ hc))
        simp only [runCaught, act, hsp, hsw, this]
      · rw [if_neg h0] at hsp hsw
        by_cases hlt : d.sequenceNumber + 1 < 2 ^ 64
        · rw [if_pos hlt] at hsp
          rw [Nat.mod_eq_of_lt hlt] at hsw
          simp only [runCaught, act, hsp] at hno
          have := same_run hM ops (DRep.withSeq hr (d.sequenceNumber + 1)) hlt (fun hc => hno (List.mem_cons_of_mem _ hc))
          simp only [runCaught, act, hsp, hsw, this]
        · rw [if_neg hlt] at hsp
          simp only [runCaught, act, hsp] at hno
          exact absurd (List.mem_cons_self) hno

end Sokoban.Counter
