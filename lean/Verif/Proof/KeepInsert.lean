import Verif.Proof.Keep

/-
Insertion writes at most the slot that it returns; built on Proof/Keep.lean.
-/
namespace Sokoban

/-- If the call returns `(t, r)` then the slots of `t` have the values `f`, but for the slot `r`, which has a
value related to its old one by `P`. -/
def Off {T α : Type} (P : Option T → T → Prop) (f : Nat → Option T) [∀ g : Nat → Option T, Kept (Frame.vals g) α]
    (x : R (α × Option Nat)) : Prop :=
  ∀ t r, x = .ok (t, r) → ∃ g : Nat → Option T, Kept.ok (Frame.vals g) t ∧ (∀ i, r ≠ some i → g i = f i) ∧
    ∀ i, r = some i → ∃ v, g i = some v ∧ P (f i) v

namespace Off
variable {T α β : Type} {P : Option T → T → Prop} {f g : Nat → Option T} [∀ g : Nat → Option T, Kept (Frame.vals g) α]
  [∀ g : Nat → Option T, Kept (Frame.vals g) β]

theorem mk_error {p : Panic} : Off P f (.error p : R (α × Option Nat)) := by
  intro t r e; cases e
theorem mk_none {t : α} (h : Kept.ok (Frame.vals f) t) : Off P f (pure (t, none) : R (α × Option Nat)) := by
  intro t r e; cases e
  exact ⟨f, h, fun _ _ => rfl, nofun⟩
theorem mk_some {t : α} {n : Nat} {v : T} (h : Kept.ok (Frame.vals g) t) (h' : ∀ i, g i = if i = n then some v else f i)
    (hp : P (f n) v) : Off P f (pure (t, some n) : R (α × Option Nat)) := by
  intro t r e; cases e
  refine ⟨g, h, fun i hi => ?_, fun i hi => ?_⟩
  · rw [h' i, if_neg (fun e => hi (by rw [e]))]
  · cases hi
    exact ⟨v, by rw [h', if_pos rfl], hp⟩
theorem bind {γ : Type} {x : R γ} {k : γ → R (α × Option Nat)} (h : ∀ a, x = .ok a → Off P f (k a)) : Off P f (x >>= k) := by
  intro t r e
  cases x with
  | error p => cases e
  | ok a => exact h a rfl t r e
theorem bindK {x : R β} {k : β → R (α × Option Nat)} (hx : Keep (Frame.vals g) x) (h : ∀ a, Kept.ok (Frame.vals g) a → Off P f (k a)) :
    Off P f (x >>= k) := bind (fun a e => h a (hx a e))
theorem mk_ite {c : Prop} [Decidable c] {x y : R (α × Option Nat)} (h : c → Off P f x) (h' : ¬ c → Off P f y) :
    Off P f (if c then x else y) := by
  split
  · exact h ‹_›
  · exact h' ‹_›
end Off

/-- the values `f` with `v` at `n` -/
def updAt {T : Type} (f : Nat → Option T) (n : Nat) (v : T) : Nat → Option T := fun i => if i = n then some v else f i

namespace NodeAllocator
variable {T : Type} {M r : Nat} {f : Nat → Option T} {a b : NodeAllocator T M r}

theorem kept_addNode {n : Nat} {v : T} (h : Kept.ok (Frame.vals f) a) (e : a.addNode v = .ok (b, n)) : Kept.ok (Frame.vals (updAt f n v)) b := by
  intro j
  rw [(vals_addNode e).2.2 j, h j]; rfl

theorem kept_setValue {n : Nat} {v : T} (h : Kept.ok (Frame.vals f) a) (e : a.setValue n v = .ok b) : Kept.ok (Frame.vals (updAt f n v)) b := by
  intro j
  rw [(vals_setValue e).2 j, h j]; rfl

theorem getValue_val {n : Nat} {v : T} (e : a.getValue n = .ok v) : a.val? n = some v := by
  unfold getValue get at e
  split at e
  · rename_i hc
    cases e
    unfold val?
    rw [dif_pos (by omega)]
  · cases e

/-- what is read depends only on the values -/
theorem getValue_eq {i : Nat} (h : b.val? i = a.val? i) : b.getValue i = a.getValue i := by
  unfold getValue get
  unfold val? at h
  split
  · rename_i hc
    rw [dif_pos (by omega), dif_pos (by omega)] at h
    cases h1 : b.nodes[i - 1]; cases h2 : a.nodes[i - 1]
    rw [h1, h2] at h
    cases h
    rfl
  · rfl

theorem getValue_of_val {i : Nat} {v : T} (h : a.val? i = some v) : a.getValue i = .ok v := by
  unfold val? at h
  split at h
  · rename_i hc
    cases h
    unfold getValue get
    rw [dif_pos (by omega)]; rfl
  · cases h
end NodeAllocator

/-- what insertion of `k`, `v` leaves in the slot that it returns -/
def Entered {K V N : Type} (key : N → K) (value : N → V) (k : K) (v : V) (old : Option N) (new : N) : Prop :=
  value new = v ∧ (key new = k ∨ ∃ o, old = some o ∧ key new = key o)

namespace RedBlackTree
variable {K V : Type} {M : Nat} {f : Nat → Option (RBNode K V)} {t : RedBlackTree K V M}
open NodeAllocator

theorem kept_setNodeValue {i : Nat} {v : V} {t' : RedBlackTree K V M} (h : Kept.ok (Frame.vals f) t) (e : t.setNodeValue i v = .ok t') :
    ∃ n, f i = some n ∧ Kept.ok (Frame.vals (updAt f i { n with value := v })) t' := by
  unfold setNodeValue at e
  cases hn : t.allocator.getValue i with
  | error p => rw [hn] at e; cases e
  | ok n =>
    rw [hn] at e
    simp only [except_bind_ok] at e
    cases hs : t.allocator.setValue i { n with value := v } with
    | error p => rw [hs] at e; cases e
    | ok b =>
      rw [hs] at e
      cases e
      refine ⟨n, ?_, kept_setValue h hs⟩
      rw [← h i]; exact getValue_val hn

theorem off_setNodeValue {i : Nat} {k : K} {v : V} (h : Kept.ok (Frame.vals f) t) :
    Off (Entered RBNode.key RBNode.value k v) f (do let t ← t.setNodeValue i v; return (t, some i)) := by
  refine Off.bind fun t' e => ?_
  obtain ⟨n, hn, h'⟩ := kept_setNodeValue h e
  exact Off.mk_some h' (fun _ => rfl) ⟨rfl, .inr ⟨n, hn, rfl⟩⟩

theorem off_insertLoop [Ord K] {fuel i : Nat} {k : K} {v : V} (h : Kept.ok (Frame.vals f) t) :
    Off (Entered RBNode.key RBNode.value k v) f (t.insertLoop k v fuel i) := by
  induction fuel generalizing i with
  | zero => exact Off.mk_error
  | succ fuel ih =>
    unfold insertLoop
    refine Off.bind fun n _ => ?_
    have hd : ∀ target dir : Nat, Off (Entered RBNode.key RBNode.value k v) f (do
        if target = SENTINEL then do
          if t.len ≥ t.capacity then return (t, none)
          let (a, nodeIndex) ← t.allocator.addNode { key := k, value := v }
          let t := { t with allocator := a }
          let t ← t.colorRed nodeIndex
          let t ← t.connect i nodeIndex dir
          let grandparent ← t.getParent i
          let t ← (if grandparent ≠ SENTINEL then t.fixInsert nodeIndex else pure t)
          return (t, some nodeIndex)
        insertLoop t k v fuel target : R (RedBlackTree K V M × Option Nat)) := by
      intro target dir
      refine Off.mk_ite (fun _ => ?_) (fun _ => ih)
      refine Off.mk_ite (fun _ => Off.mk_none h) (fun _ => ?_)
      refine Off.bind fun p e => ?_
      obtain ⟨a, j⟩ := p
      have h1 : Kept.ok (Frame.vals (updAt f j { key := k, value := v })) ({ t with allocator := a } : RedBlackTree K V M) := kept_addNode h e
      refine Off.bindK (keep_colorRed h1) fun t1 h2 => Off.bindK (keep_connect h2) fun t2 h3 => Off.bind fun g _ => ?_
      refine Off.bindK (g := updAt f j { key := k, value := v }) (β := RedBlackTree K V M) ?_ fun t3 h4 =>
        Off.mk_some h4 (fun _ => rfl) ⟨rfl, .inl rfl⟩
      exact Keep.mk_ite (fun _ => keep_fixInsert h3) (fun _ => Keep.mk_pure h3)
    dsimp only
    cases compare k n.key with
    | lt => exact Off.bind fun _ _ => hd _ _
    | gt => exact Off.bind fun _ _ => hd _ _
    | eq => exact off_setNodeValue h

theorem off_insert [Ord K] {k : K} {v : V} (h : Kept.ok (Frame.vals f) t) :
    Off (Entered RBNode.key RBNode.value k v) f (t.insert k v) := by
  unfold insert
  refine Off.mk_ite (fun _ => Off.bind fun p e => ?_) (fun _ => off_insertLoop h)
  obtain ⟨a, j⟩ := p
  exact Off.mk_some (α := RedBlackTree K V M) (kept_addNode h e) (fun _ => rfl) ⟨rfl, .inl rfl⟩
end RedBlackTree

namespace AVLTree
variable {K V : Type} {M : Nat} {f : Nat → Option (AVLNode K V)} {t : AVLTree K V M}
open NodeAllocator

theorem kept_setNodeValue {i : Nat} {v : V} {t' : AVLTree K V M} (h : Kept.ok (Frame.vals f) t) (e : t.setNodeValue i v = .ok t') :
    ∃ n, f i = some n ∧ Kept.ok (Frame.vals (updAt f i { n with value := v })) t' := by
  unfold setNodeValue at e
  cases hn : t.allocator.getValue i with
  | error p => rw [hn] at e; cases e
  | ok n =>
    rw [hn] at e
    simp only [except_bind_ok] at e
    cases hs : t.allocator.setValue i { n with value := v } with
    | error p => rw [hs] at e; cases e
    | ok b =>
      rw [hs] at e
      cases e
      refine ⟨n, ?_, kept_setValue h hs⟩
      rw [← h i]; exact getValue_val hn

theorem off_setNodeValue {i : Nat} {k : K} {v : V} (h : Kept.ok (Frame.vals f) t) :
    Off (Entered AVLNode.key AVLNode.value k v) f (do let t ← t.setNodeValue i v; return (t, some i)) := by
  refine Off.bind fun t' e => ?_
  obtain ⟨n, hn, h'⟩ := kept_setNodeValue h e
  exact Off.mk_some h' (fun _ => rfl) ⟨rfl, .inr ⟨n, hn, rfl⟩⟩

theorem off_insertLoop [LT K] [DecidableLT K] [PartialGt K] {fuel i : Nat} {k : K} {v : V} {p : List Ancestor} (h : Kept.ok (Frame.vals f) t) :
    Off (Entered AVLNode.key AVLNode.value k v) f (t.insertLoop k v fuel i p) := by
  induction fuel generalizing i p with
  | zero => exact Off.mk_error
  | succ fuel ih =>
    unfold insertLoop
    refine Off.bind fun n _ => ?_
    have hd : ∀ r br : Nat, Off (Entered AVLNode.key AVLNode.value k v) f (do
        if r = SENTINEL then do
          if t.len ≥ t.capacity then return (t, none)
          let (a, r) ← t.allocator.addNode { key := k, value := v }
          let t := { t with allocator := a }
          let t ← t.setField i br r
          let t ← t.rebalance p
          return (t, some r)
        else insertLoop t k v fuel r ((some i, some br, r) :: p) : R (AVLTree K V M × Option Nat)) := by
      intro target br
      refine Off.mk_ite (fun _ => ?_) (fun _ => ih)
      refine Off.mk_ite (fun _ => Off.mk_none h) (fun _ => ?_)
      refine Off.bind fun q e => ?_
      obtain ⟨a, j⟩ := q
      have h1 : Kept.ok (Frame.vals (updAt f j { key := k, value := v })) ({ t with allocator := a } : AVLTree K V M) := kept_addNode h e
      exact Off.bindK (keep_setField h1) fun t1 h2 => Off.bindK (keep_rebalance h2) fun t2 h3 =>
        Off.mk_some h3 (fun _ => rfl) ⟨rfl, .inl rfl⟩
    refine Off.mk_ite (fun _ => Off.bind fun _ _ => hd _ _) (fun _ => Off.mk_ite (fun _ => Off.bind fun _ _ => hd _ _)
      (fun _ => off_setNodeValue h))

theorem off_insert [LT K] [DecidableLT K] [PartialGt K] {k : K} {v : V} (h : Kept.ok (Frame.vals f) t) :
    Off (Entered AVLNode.key AVLNode.value k v) f (t.insert k v) := by
  unfold insert
  refine Off.mk_ite (fun _ => Off.bind fun p e => ?_) (fun _ => off_insertLoop h)
  obtain ⟨a, j⟩ := p
  exact Off.mk_some (α := AVLTree K V M) (kept_addNode h e) (fun _ => rfl) ⟨rfl, .inl rfl⟩
end AVLTree

namespace HashTable
variable {K V : Type} {B M : Nat} {f : Nat → Option (HashNode K V)} {t : HashTable K V B M}
open NodeAllocator

theorem kept_setNodeValue {i : Nat} {v : V} {t' : HashTable K V B M} (h : Kept.ok (Frame.vals f) t) (e : t.setNodeValue i v = .ok t') :
    ∃ n, f i = some n ∧ Kept.ok (Frame.vals (updAt f i { n with value := v })) t' := by
  unfold setNodeValue at e
  cases hn : t.allocator.getValue i with
  | error p => rw [hn] at e; cases e
  | ok n =>
    rw [hn] at e
    simp only [except_bind_ok] at e
    cases hs : t.allocator.setValue i { n with value := v } with
    | error p => rw [hs] at e; cases e
    | ok b =>
      rw [hs] at e
      cases e
      refine ⟨n, ?_, kept_setValue h hs⟩
      rw [← h i]; exact getValue_val hn

theorem off_setNodeValue {i : Nat} {k : K} {v : V} (h : Kept.ok (Frame.vals f) t) :
    Off (Entered HashNode.key HashNode.value k v) f (do let t ← t.setNodeValue i v; return (t, some i)) := by
  refine Off.bind fun t' e => ?_
  obtain ⟨n, hn, h'⟩ := kept_setNodeValue h e
  exact Off.mk_some h' (fun _ => rfl) ⟨rfl, .inr ⟨n, hn, rfl⟩⟩

theorem off_insert [BEq K] {hash : K → Nat} {k : K} {v : V} (h : Kept.ok (Frame.vals f) t) :
    Off (Entered HashNode.key HashNode.value k v) f (t.insert hash k v) := by
  unfold insert
  refine Off.bind fun b _ => Off.bind fun hd _ => Off.bind fun c _ => ?_
  refine Off.mk_ite (fun _ => off_setNodeValue h) (fun _ => Off.mk_ite (fun _ => Off.mk_none h) (fun _ => ?_))
  refine Off.bind fun p e => ?_
  obtain ⟨a, j⟩ := p
  have h1 : Kept.ok (Frame.vals (updAt f j { key := k, value := v })) ({ t with allocator := a } : HashTable K V B M) := kept_addNode h e
  refine Off.bindK (keep_setBucket h1) fun t1 h2 => ?_
  refine Off.bindK (g := updAt f j { key := k, value := v }) (β := NodeAllocator (HashNode K V) M 4) ?_ fun t3 h4 =>
    Off.mk_some (α := HashTable K V B M) h4 (fun _ => rfl) ⟨rfl, .inl rfl⟩
  exact Keep.mk_ite (fun _ => keep_connect h2) (fun _ => Keep.mk_pure h2)
end HashTable

namespace Deque
variable {T : Type} {M : Nat} {f : Nat → Option T} {t d : Deque T M}
open NodeAllocator

theorem kept_pushBack {v : T} (h : Kept.ok (Frame.vals f) t) (e : t.pushBack v = .ok d) : Kept.ok (Frame.vals (updAt f t.allocator.freeListHead v)) d := by
  unfold pushBack at e
  cases ha : t.allocator.addNode v with
  | error p => rw [ha] at e; cases e
  | ok p =>
    obtain ⟨a, n⟩ := p
    rw [ha] at e
    have hn := (vals_addNode ha).1
    subst hn
    have h1 := kept_addNode h ha
    simp only [except_bind_ok] at e
    revert e
    have : Keep (Frame.vals (updAt f t.allocator.freeListHead v)) (do
      let d : Deque T M := { t with allocator := a }
      let d := if d.head = SENTINEL then { d with head := t.allocator.freeListHead } else d
      let a ← (if d.tail ≠ SENTINEL then d.allocator.connect t.allocator.freeListHead d.tail PREV NEXT
               else pure d.allocator)
      let d := { d with allocator := a }
      let d := { d with tail := t.allocator.freeListHead }
      d.bumpSeq : R (Deque T M)) := by
      have h2 : Kept.ok (Frame.vals (updAt f t.allocator.freeListHead v))
          (if t.head = SENTINEL then { t with allocator := a, head := t.allocator.freeListHead } else { t with allocator := a } : Deque T M) :=
        Kept.ite h1 h1
      refine Keep.bind (α := NodeAllocator T M 2) ?_ (fun b hb => keep_bumpSeq hb)
      exact Keep.mk_ite (fun _ => keep_connect h2) (fun _ => Keep.mk_pure h2)
    exact this d

theorem kept_pushFront {v : T} (h : Kept.ok (Frame.vals f) t) (e : t.pushFront v = .ok d) : Kept.ok (Frame.vals (updAt f t.allocator.freeListHead v)) d := by
  unfold pushFront at e
  cases ha : t.allocator.addNode v with
  | error p => rw [ha] at e; cases e
  | ok p =>
    obtain ⟨a, n⟩ := p
    rw [ha] at e
    have hn := (vals_addNode ha).1
    subst hn
    have h1 := kept_addNode h ha
    simp only [except_bind_ok] at e
    revert e
    have : Keep (Frame.vals (updAt f t.allocator.freeListHead v)) (do
      let d : Deque T M := { t with allocator := a }
      let d := if d.tail = SENTINEL then { d with tail := t.allocator.freeListHead } else d
      let a ← (if d.head ≠ SENTINEL then d.allocator.connect t.allocator.freeListHead d.head NEXT PREV
               else pure d.allocator)
      let d := { d with allocator := a }
      let d := { d with head := t.allocator.freeListHead }
      d.bumpSeq : R (Deque T M)) := by
      have h2 : Kept.ok (Frame.vals (updAt f t.allocator.freeListHead v))
          (if t.tail = SENTINEL then { t with allocator := a, tail := t.allocator.freeListHead } else { t with allocator := a } : Deque T M) :=
        Kept.ite h1 h1
      refine Keep.bind (α := NodeAllocator T M 2) ?_ (fun b hb => keep_bumpSeq hb)
      exact Keep.mk_ite (fun _ => keep_connect h2) (fun _ => Keep.mk_pure h2)
    exact this d
end Deque

namespace Critbit
variable {V : Type} {N M : Nat} {f : Nat → Option V} {t : Critbit V N M}
open NodeAllocator

/-- If the call returns `(t, r)` then the leaves of `t` have the values `f` when `r` is `none`, and else they
have the values `f` but for one leaf, which has the value `v`. -/
def OffLeaf (f : Nat → Option V) (v : V) (x : R (Critbit V N M × Option Nat)) : Prop :=
  ∀ t r, x = .ok (t, r) → (r = none ∧ Kept.ok (Frame.vals f) t) ∨ (r ≠ none ∧ ∃ j, Kept.ok (Frame.vals (updAt f j v)) t)

namespace OffLeaf
variable {v : V} {x y : R (Critbit V N M × Option Nat)}
theorem mk_error {p : Panic} : OffLeaf f v (.error p : R (Critbit V N M × Option Nat)) := by
  intro t r e; cases e
theorem mk_none (h : Kept.ok (Frame.vals f) t) : OffLeaf f v (pure (t, none)) := by
  intro t r e; cases e
  exact .inl ⟨rfl, h⟩
theorem mk_some {j n : Nat} (h : Kept.ok (Frame.vals (updAt f j v)) t) : OffLeaf f v (pure (t, some n)) := by
  intro t r e; cases e
  exact .inr ⟨nofun, j, h⟩
theorem bind {γ : Type} {x : R γ} {k : γ → R (Critbit V N M × Option Nat)} (h : ∀ a, x = .ok a → OffLeaf f v (k a)) :
    OffLeaf f v (x >>= k) := by
  intro t r e
  cases x with
  | error p => cases e
  | ok a => exact h a rfl t r e
theorem bindK {g : Nat → Option V} {β : Type} [Kept (Frame.vals g) β] {x : R β} {k : β → R (Critbit V N M × Option Nat)} (hx : Keep (Frame.vals g) x)
    (h : ∀ a, Kept.ok (Frame.vals g) a → OffLeaf f v (k a)) : OffLeaf f v (x >>= k) := bind (fun a e => h a (hx a e))
theorem mk_ite {c : Prop} [Decidable c] (h : c → OffLeaf f v x) (h' : ¬ c → OffLeaf f v y) :
    OffLeaf f v (if c then x else y) := by
  split
  · exact h ‹_›
  · exact h' ‹_›
end OffLeaf

theorem kept_addLeaf {k : BitVec 128} {v : V} {t' : Critbit V N M} {i j : Nat} (h : Kept.ok (Frame.vals f) t)
    (e : t.addLeaf k v = .ok (t', i, j)) : Kept.ok (Frame.vals (updAt f j v)) t' := by
  unfold addLeaf at e
  cases h1 : t.nodeAllocator.addNode { key := k, prefixLen := 128 } with
  | error p => rw [h1] at e; cases e
  | ok p =>
    obtain ⟨na, n⟩ := p
    rw [h1] at e; simp only [except_bind_ok] at e
    cases h2 : t.leaves.addNode v with
    | error p => rw [h2] at e; cases e
    | ok p =>
      obtain ⟨lv, l⟩ := p
      rw [h2] at e; simp only [except_bind_ok] at e
      cases h3 : na.setRegister n l VALUE with
      | error p => rw [h3] at e; cases e
      | ok na' =>
        rw [h3] at e; simp only [except_bind_ok] at e
        cases h4 : lv.setValue l v with
        | error p => rw [h4] at e; cases e
        | ok lv' =>
          rw [h4] at e
          cases e
          have := kept_setValue (kept_addNode h h2) h4
          intro i
          rw [this i]
          unfold updAt
          split <;> rfl

theorem off_insertSplit {k : BitVec 128} {v : V} {i p : Nat} (h : Kept.ok (Frame.vals f) t) : OffLeaf f v (t.insertSplit k v i p) := by
  unfold insertSplit
  refine OffLeaf.bind fun m _ => OffLeaf.bind fun q e => ?_
  obtain ⟨t1, n, j⟩ := q
  have h1 := kept_addLeaf h e
  refine OffLeaf.bindK (g := updAt f j v) (β := Critbit V N M × Nat) (keep_duplicate h1) fun q hq => ?_
  obtain ⟨t2, n2⟩ := q
  refine OffLeaf.bindK (g := updAt f j v) (β := Critbit V N M) ?_ fun t3 h3 => OffLeaf.mk_some h3
  exact Keep.mk_ite (fun _ => keep_replaceNode hq.1) (fun _ => keep_replaceNode hq.1)

theorem off_insertLoop {k : BitVec 128} {v : V} {fuel i : Nat} (h : Kept.ok (Frame.vals f) t) : OffLeaf f v (t.insertLoop k v fuel i) := by
  induction fuel generalizing i with
  | zero => exact OffLeaf.mk_error
  | succ fuel ih =>
    unfold insertLoop
    refine OffLeaf.bind fun n _ => OffLeaf.bind fun b _ => ?_
    refine OffLeaf.mk_ite (fun _ => ?_) (fun _ => OffLeaf.mk_ite (fun _ => OffLeaf.bind fun _ _ => ih) (fun _ => off_insertSplit h))
    refine OffLeaf.bind fun l _ => OffLeaf.bind fun t' e => ?_
    unfold replaceLeaf at e
    cases hs : t.leaves.setValue l v with
    | error p => rw [hs] at e; cases e
    | ok b =>
      rw [hs] at e; cases e
      exact OffLeaf.mk_some (j := l) (kept_setValue h hs)

theorem off_insert {k : BitVec 128} {v : V} (h : Kept.ok (Frame.vals f) t) : OffLeaf f v (t.insert k v) := by
  unfold insert
  refine OffLeaf.mk_ite (fun _ => OffLeaf.bind fun q e => ?_)
    (fun _ => OffLeaf.mk_ite (fun _ => OffLeaf.mk_none h) (fun _ => off_insertLoop h))
  obtain ⟨t1, n, j⟩ := q
  exact OffLeaf.mk_some (j := j) (t := { t1 with root := n }) (show Kept.ok (Frame.vals (updAt f j v)) t1.leaves from kept_addLeaf h e)
end Critbit
end Sokoban
