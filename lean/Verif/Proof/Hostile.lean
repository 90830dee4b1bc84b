import Verif.Proof.BytesTypes
import Verif.Proof.BytesRun
import Verif.Proof.Run

/-
Iterators over arbitrary memory.
-/
namespace Sokoban

/-- What holds of every item of a client loop, by an invariant of the cursor. -/
theorem drive_all {It α : Type} {next nextBack : It → R (It × Option α)} {I : It → Prop} {P : α → Prop}
    (hn : ∀ it it' x, I it → next it = .ok (it', x) → I it' ∧ ∀ a, x = some a → P a)
    (hb : ∀ it it' x, I it → nextBack it = .ok (it', x) → I it' ∧ ∀ a, x = some a → P a) :
    ∀ (es : List End) (it it' : It) (xs : List (Option α)), I it → drive next nextBack it es = .ok (it', xs) →
      ∀ a, some a ∈ xs → P a := by
  intro es
  induction es with
  | nil => intro it it' xs _ h a ha; simp [drive] at h; rw [h.2] at ha; simp at ha
  | cons e es ih =>
    intro it it' xs hI h a ha
    have key : ∀ (f : It → R (It × Option α)),
        (∀ it it' x, I it → f it = .ok (it', x) → I it' ∧ ∀ a, x = some a → P a) →
        (do let (it, x) ← f it; let (it, xs) ← drive next nextBack it es; return (it, x :: xs)) = .ok (it', xs) → P a := by
      intro f hf h
      cases h1 : f it with
      | error p => rw [h1] at h; cases h
      | ok r =>
        obtain ⟨it1, x⟩ := r
        rw [h1] at h
        obtain ⟨hI1, hx⟩ := hf _ _ _ hI h1
        simp only [except_bind_ok] at h
        cases h2 : drive next nextBack it1 es with
        | error p => rw [h2] at h; cases h
        | ok r =>
          obtain ⟨it2, ys⟩ := r
          rw [h2] at h
          simp only [except_bind_ok, except_pure] at h
          cases h
          rcases List.mem_cons.1 ha with e | hm
          · exact hx a e.symm
          · exact ih _ _ _ hI1 h2 a hm
    cases e with
    | front => exact key next hn h
    | back => exact key nextBack hb h

namespace NodeAllocator
variable {T : Type} {M N : Nat}

/-- a register that can be read belongs to a slot in bounds -/
theorem getRegister_range {a : NodeAllocator T M N} {i r x : Nat} (h : a.getRegister i r = .ok x) (hi : i ≠ 0) :
    1 ≤ i ∧ i ≤ M := by
  unfold getRegister get at h
  by_cases hc : 1 ≤ i ∧ i - 1 < M
  · omega
  · rw [if_pos (show i ≠ SENTINEL from hi), dif_neg hc] at h
    cases h

/-- an allocator whose nodes are given by a function -/
def ofNodes (f : Nat → Node T N) : NodeAllocator T M N :=
  { size := 1, bumpIndex := 2, freeListHead := 2, nodes := Vector.ofFn fun i => f (i.val + 1) }

theorem get_ofNodes (f : Nat → Node T N) {i : Nat} (h1 : 1 ≤ i) (h2 : i ≤ M) :
    (ofNodes f : NodeAllocator T M N).get i = .ok (f i) := by
  unfold get ofNodes
  rw [dif_pos ⟨h1, by omega⟩]
  simp only [Vector.getElem_ofFn]
  rw [show i - 1 + 1 = i by omega]

theorem getRegister_ofNodes (f : Nat → Node T N) {i r : Nat} (h1 : 1 ≤ i) (h2 : i ≤ M) :
    (ofNodes f : NodeAllocator T M N).getRegister i r = (f i).getRegister r := by
  unfold getRegister
  rw [if_pos (show i ≠ SENTINEL by simp [SENTINEL]; omega), get_ofNodes f h1 h2]; rfl

theorem inRange_ofNodes (f : Nat → Node T N) {P : T → Prop} (h : ∀ i, (f i).InRange P) :
    (ofNodes f : NodeAllocator T M N).InRange P where
  size := by simp [ofNodes]
  bumpIndex := by simp [ofNodes]
  freeListHead := by simp [ofNodes]
  nodes := by intro i hi; simp only [ofNodes, Vector.getElem_ofFn]; exact h _

end NodeAllocator

/-! ### Deque -/
namespace Deque
variable {T : Type} {M : Nat}

theorem nextMut_range {d : Deque T M} {it it' : Iter} {x : Option Nat} (h : it.nextMut d = .ok (it', x)) :
    ∀ p, x = some p → 1 ≤ p ∧ p ≤ M := by
  rintro p rfl
  unfold Iter.nextMut at h
  by_cases h1 : it.terminated = true
  · rw [if_pos h1] at h; cases h
  · rw [if_neg h1] at h
    by_cases h2 : it.fwdPtr = SENTINEL
    · rw [if_pos h2] at h; cases h
    · rw [if_neg h2] at h
      cases h3 : d.getNext it.fwdPtr with
      | error e => simp only [h3] at h; cases h
      | ok n =>
        simp only [h3, except_bind_ok, except_pure] at h
        cases h
        exact NodeAllocator.getRegister_range h3 h2

theorem nextBackMut_range {d : Deque T M} {it it' : Iter} {x : Option Nat} (h : it.nextBackMut d = .ok (it', x)) :
    ∀ p, x = some p → 1 ≤ p ∧ p ≤ M := by
  rintro p rfl
  unfold Iter.nextBackMut at h
  by_cases h1 : it.terminated = true
  · rw [if_pos h1] at h; cases h
  · rw [if_neg h1] at h
    by_cases h2 : it.revPtr = SENTINEL
    · rw [if_pos h2] at h; cases h
    · rw [if_neg h2] at h
      cases h3 : d.getPrev it.revPtr with
      | error e => simp only [h3] at h; cases h
      | ok n =>
        simp only [h3, except_bind_ok, except_pure] at h
        cases h
        exact NodeAllocator.getRegister_range h3 h2

/-- every node is its own successor -/
def loop (z : T) : Deque T M :=
  { sequenceNumber := 0, head := 1, tail := 0,
    allocator := NodeAllocator.ofNodes fun _ => { registers := #v[0, 1], value := z } }

theorem loop_inRange (z : T) : (loop z : Deque T M).InRange where
  sequenceNumber := by simp [loop]
  head := by simp [loop]
  tail := by simp [loop]
  allocator := NodeAllocator.inRange_ofNodes (fun _ => { registers := #v[0, 1], value := z })
    fun i => ⟨show ∀ (r : Nat) (h : r < 2), (#v[0, 1] : Vector Nat 2)[r] < 2 ^ 32 by decide, trivial⟩

theorem loop_next (z : T) (hM : 1 ≤ M) :
    ({ fwdPtr := 1, revPtr := 0, terminated := false } : Iter).nextMut (loop z : Deque T M) =
      .ok ({ fwdPtr := 1, revPtr := 0, terminated := false }, some 1) := by
  have : (loop z : Deque T M).getNext 1 = .ok 1 := NodeAllocator.getRegister_ofNodes _ (Nat.le_refl 1) hM
  simp [Iter.nextMut, SENTINEL, this]

end Deque

/-! ### HashTable -/
namespace HashTable
variable {K V : Type} {B M : Nat}

theorem skip_node {h : HashTable K V B M} : ∀ {fuel : Nat} {it it' : Iter}, Iter.skip h fuel it = .ok (it', false) →
    it'.node ≠ 0 := by
  intro fuel
  induction fuel with
  | zero => intro it it' h; cases h
  | succ fuel ih =>
    intro it it' e
    unfold Iter.skip at e
    by_cases h1 : it.node ≠ SENTINEL
    · rw [if_pos h1] at e
      simp only [except_pure] at e
      cases e; exact h1
    · rw [if_neg h1] at e
      by_cases h2 : it.bucket + 1 = B
      · simp only [h2, if_true, except_pure] at e; cases e
      · simp only [h2, if_false] at e
        cases h3 : h.bucket (it.bucket + 1) with
        | error p => rw [h3] at e; cases e
        | ok b => rw [h3] at e; exact ih e

theorem nextMut_range {h : HashTable K V B M} {it it' : Iter} {x : Option Nat} (e : it.nextMut h = .ok (it', x)) :
    ∀ p, x = some p → 1 ≤ p ∧ p ≤ M := by
  rintro p rfl
  unfold Iter.nextMut at e
  by_cases h1 : it.bucket < B
  · rw [if_pos h1] at e
    cases h2 : Iter.skip h (B + 1) it with
    | error q => rw [h2] at e; cases e
    | ok r =>
      obtain ⟨it1, done⟩ := r
      rw [h2] at e
      cases done with
      | true => simp only [except_bind_ok, if_true, except_pure] at e; cases e
      | false =>
        have hn := skip_node h2
        simp only [except_bind_ok, Bool.false_eq_true, if_false] at e
        cases h3 : h.getNext it1.node with
        | error q => rw [h3] at e; cases e
        | ok n =>
          rw [h3] at e
          simp only [except_bind_ok, except_pure] at e
          cases e
          exact NodeAllocator.getRegister_range h3 hn
  · rw [if_neg h1] at e; cases e

/-- the first bucket holds node 1, which is its own successor -/
def loop (z : HashNode K V) : HashTable K V B M :=
  { buckets := Vector.replicate B 1,
    allocator := NodeAllocator.ofNodes fun _ => { registers := #v[0, 1, 0, 0], value := z } }

theorem loop_inRange (z : HashNode K V) : (loop z : HashTable K V B M).InRange where
  buckets := by simp [loop]
  allocator := NodeAllocator.inRange_ofNodes (fun _ => { registers := #v[0, 1, 0, 0], value := z })
    fun i => ⟨show ∀ (r : Nat) (h : r < 4), (#v[0, 1, 0, 0] : Vector Nat 4)[r] < 2 ^ 32 by decide, trivial⟩

theorem loop_iter (z : HashNode K V) (hB : 0 < B) : (loop z : HashTable K V B M).iter = .ok ⟨0, 1⟩ := by
  unfold iter bucket
  rw [dif_pos hB]
  simp [loop]

theorem loop_next (z : HashNode K V) (hB : 0 < B) (hM : 1 ≤ M) :
    (⟨0, 1⟩ : Iter).nextMut (loop z : HashTable K V B M) = .ok (⟨0, 1⟩, some 1) := by
  have : (loop z : HashTable K V B M).getNext 1 = .ok 1 := NodeAllocator.getRegister_ofNodes _ (Nat.le_refl 1) hM
  simp [Iter.nextMut, hB, Iter.skip, SENTINEL, this]

end HashTable

/-! ### RedBlackTree -/
namespace RedBlackTree
variable {K V : Type} {M : Nat}

/-- everything on the stacks has been read already -/
def Iter.Bounded (M : Nat) (it : Iter) : Prop :=
  (∀ i ∈ it.fwdStack, 1 ≤ i ∧ i ≤ M) ∧ ∀ i ∈ it.revStack, 1 ≤ i ∧ i ≤ M

theorem nextLoop_range {t : RedBlackTree K V M} : ∀ {fuel : Nat} {it it' : Iter} {x : Option Nat}, it.Bounded M →
    Iter.nextLoop t fuel it = .ok (it', x) → it'.Bounded M ∧ ∀ p, x = some p → 1 ≤ p ∧ p ≤ M := by
  intro fuel
  induction fuel with
  | zero => intro it it' x _ h; cases h
  | succ fuel ih =>
    intro it it' x hb h
    unfold Iter.nextLoop at h
    by_cases h1 : it.terminated = true
    · rw [if_pos h1] at h
      simp only [except_pure] at h; cases h
      exact ⟨hb, fun p hp => by cases hp⟩
    · rw [if_neg h1] at h
      by_cases h2 : it.fwdPtr ≠ SENTINEL
      · rw [if_pos h2] at h
        cases h3 : t.getLeft it.fwdPtr with
        | error e => rw [h3] at h; cases h
        | ok l =>
          rw [h3] at h
          simp only [except_bind_ok] at h
          refine ih (it := { it with fwdStack := it.fwdPtr :: it.fwdStack, fwdPtr := l }) ⟨?_, hb.2⟩ h
          intro i hi
          rcases List.mem_cons.1 hi with rfl | hi
          · exact NodeAllocator.getRegister_range h3 h2
          · exact hb.1 i hi
      · rw [if_neg h2] at h
        cases h4 : it.fwdStack with
        | nil =>
          simp only [h4, except_pure] at h; cases h
          exact ⟨hb, fun p hp => by cases hp⟩
        | cons c st =>
          simp only [h4] at h
          have hc : Iter.Bounded M { it with fwdStack := st } :=
            ⟨fun i hi => hb.1 i (by rw [h4]; exact List.mem_cons_of_mem _ hi), hb.2⟩
          by_cases h5 : some c = it.revNode
          · rw [if_pos h5] at h
            simp only [except_pure] at h; cases h
            exact ⟨hc, fun p hp => by cases hp⟩
          · rw [if_neg h5] at h
            cases h6 : t.getRight c with
            | error e => rw [h6] at h; cases h
            | ok r =>
              rw [h6] at h
              simp only [except_bind_ok, except_pure] at h; cases h
              exact ⟨hc, fun p hp => by cases hp; exact hb.1 c (by rw [h4]; simp)⟩

theorem nextBackLoop_range {t : RedBlackTree K V M} : ∀ {fuel : Nat} {it it' : Iter} {x : Option Nat}, it.Bounded M →
    Iter.nextBackLoop t fuel it = .ok (it', x) → it'.Bounded M ∧ ∀ p, x = some p → 1 ≤ p ∧ p ≤ M := by
  intro fuel
  induction fuel with
  | zero => intro it it' x _ h; cases h
  | succ fuel ih =>
    intro it it' x hb h
    unfold Iter.nextBackLoop at h
    by_cases h1 : it.terminated = true
    · rw [if_pos h1] at h
      simp only [except_pure] at h; cases h
      exact ⟨hb, fun p hp => by cases hp⟩
    · rw [if_neg h1] at h
      by_cases h2 : it.revPtr ≠ SENTINEL
      · rw [if_pos h2] at h
        cases h3 : t.getRight it.revPtr with
        | error e => rw [h3] at h; cases h
        | ok l =>
          rw [h3] at h
          simp only [except_bind_ok] at h
          refine ih (it := { it with revStack := it.revPtr :: it.revStack, revPtr := l }) ⟨hb.1, ?_⟩ h
          intro i hi
          rcases List.mem_cons.1 hi with rfl | hi
          · exact NodeAllocator.getRegister_range h3 h2
          · exact hb.2 i hi
      · rw [if_neg h2] at h
        cases h4 : it.revStack with
        | nil =>
          simp only [h4, except_pure] at h; cases h
          exact ⟨hb, fun p hp => by cases hp⟩
        | cons c st =>
          simp only [h4] at h
          have hc : Iter.Bounded M { it with revStack := st } :=
            ⟨hb.1, fun i hi => hb.2 i (by rw [h4]; exact List.mem_cons_of_mem _ hi)⟩
          by_cases h5 : some c = it.fwdNode
          · rw [if_pos h5] at h
            simp only [except_pure] at h; cases h
            exact ⟨hc, fun p hp => by cases hp⟩
          · rw [if_neg h5] at h
            cases h6 : t.getLeft c with
            | error e => rw [h6] at h; cases h
            | ok r =>
              rw [h6] at h
              simp only [except_bind_ok, except_pure] at h; cases h
              exact ⟨hc, fun p hp => by cases hp; exact hb.2 c (by rw [h4]; simp)⟩

/-- every node is its own right child -/
def loop (z : RBNode K V) : RedBlackTree K V M :=
  { root := 1, allocator := NodeAllocator.ofNodes fun _ => { registers := #v[0, 1, 0, 0], value := z } }

theorem loop_inRange (z : RBNode K V) : (loop z : RedBlackTree K V M).InRange where
  root := by simp [loop]
  allocator := NodeAllocator.inRange_ofNodes (fun _ => { registers := #v[0, 1, 0, 0], value := z })
    fun i => ⟨show ∀ (r : Nat) (h : r < 4), (#v[0, 1, 0, 0] : Vector Nat 4)[r] < 2 ^ 32 by decide, trivial⟩

theorem loop_next (z : RBNode K V) (hM : 1 ≤ M) (x : Option Nat) :
    Iter.nextMut (loop z : RedBlackTree K V M)
      { fwdStack := [], fwdPtr := 1, fwdNode := x, revStack := [], revPtr := 1, revNode := none, terminated := false } =
      .ok ({ fwdStack := [], fwdPtr := 1, fwdNode := some 1, revStack := [], revPtr := 1, revNode := none,
             terminated := false }, some 1) := by
  have h1 : (loop z : RedBlackTree K V M).getLeft 1 = .ok 0 := NodeAllocator.getRegister_ofNodes _ (Nat.le_refl 1) hM
  have h2 : (loop z : RedBlackTree K V M).getRight 1 = .ok 1 := NodeAllocator.getRegister_ofNodes _ (Nat.le_refl 1) hM
  simp [Iter.nextMut, Iter.nextLoop, SENTINEL, h1, h2]

end RedBlackTree

/-! ### AVLTree -/
namespace AVLTree
variable {K V : Type} {M : Nat}

/-- everything on the stacks has been read already -/
def Iter.Bounded (M : Nat) (it : Iter) : Prop :=
  (∀ i ∈ it.fwdStack, 1 ≤ i ∧ i ≤ M) ∧ ∀ i ∈ it.revStack, 1 ≤ i ∧ i ≤ M

theorem nextLoop_range {t : AVLTree K V M} : ∀ {fuel : Nat} {it it' : Iter} {x : Option Nat}, it.Bounded M →
    Iter.nextLoop t fuel it = .ok (it', x) → it'.Bounded M ∧ ∀ p, x = some p → 1 ≤ p ∧ p ≤ M := by
  intro fuel
  induction fuel with
  | zero => intro it it' x _ h; cases h
  | succ fuel ih =>
    intro it it' x hb h
    unfold Iter.nextLoop at h
    by_cases h1 : it.terminated = true
    · rw [if_pos h1] at h
      simp only [except_pure] at h; cases h
      exact ⟨hb, fun p hp => by cases hp⟩
    · rw [if_neg h1] at h
      by_cases h2 : it.fwdPtr ≠ SENTINEL
      · rw [if_pos h2] at h
        cases h3 : t.getField it.fwdPtr LEFT with
        | error e => rw [h3] at h; cases h
        | ok l =>
          rw [h3] at h
          simp only [except_bind_ok] at h
          refine ih (it := { it with fwdStack := it.fwdPtr :: it.fwdStack, fwdPtr := l }) ⟨?_, hb.2⟩ h
          intro i hi
          rcases List.mem_cons.1 hi with rfl | hi
          · exact NodeAllocator.getRegister_range h3 h2
          · exact hb.1 i hi
      · rw [if_neg h2] at h
        cases h4 : it.fwdStack with
        | nil =>
          simp only [h4, except_pure] at h; cases h
          exact ⟨hb, fun p hp => by cases hp⟩
        | cons c st =>
          simp only [h4] at h
          have hc : Iter.Bounded M { it with fwdStack := st } :=
            ⟨fun i hi => hb.1 i (by rw [h4]; exact List.mem_cons_of_mem _ hi), hb.2⟩
          by_cases h5 : some c = it.revNode
          · rw [if_pos h5] at h
            simp only [except_pure] at h; cases h
            exact ⟨hc, fun p hp => by cases hp⟩
          · rw [if_neg h5] at h
            cases h6 : t.getField c RIGHT with
            | error e => rw [h6] at h; cases h
            | ok r =>
              rw [h6] at h
              simp only [except_bind_ok, except_pure] at h; cases h
              exact ⟨hc, fun p hp => by cases hp; exact hb.1 c (by rw [h4]; simp)⟩

theorem nextBackLoop_range {t : AVLTree K V M} : ∀ {fuel : Nat} {it it' : Iter} {x : Option Nat}, it.Bounded M →
    Iter.nextBackLoop t fuel it = .ok (it', x) → it'.Bounded M ∧ ∀ p, x = some p → 1 ≤ p ∧ p ≤ M := by
  intro fuel
  induction fuel with
  | zero => intro it it' x _ h; cases h
  | succ fuel ih =>
    intro it it' x hb h
    unfold Iter.nextBackLoop at h
    by_cases h1 : it.terminated = true
    · rw [if_pos h1] at h
      simp only [except_pure] at h; cases h
      exact ⟨hb, fun p hp => by cases hp⟩
    · rw [if_neg h1] at h
      by_cases h2 : it.revPtr ≠ SENTINEL
      · rw [if_pos h2] at h
        cases h3 : t.getField it.revPtr RIGHT with
        | error e => rw [h3] at h; cases h
        | ok l =>
          rw [h3] at h
          simp only [except_bind_ok] at h
          refine ih (it := { it with revStack := it.revPtr :: it.revStack, revPtr := l }) ⟨hb.1, ?_⟩ h
          intro i hi
          rcases List.mem_cons.1 hi with rfl | hi
          · exact NodeAllocator.getRegister_range h3 h2
          · exact hb.2 i hi
      · rw [if_neg h2] at h
        cases h4 : it.revStack with
        | nil =>
          simp only [h4, except_pure] at h; cases h
          exact ⟨hb, fun p hp => by cases hp⟩
        | cons c st =>
          simp only [h4] at h
          have hc : Iter.Bounded M { it with revStack := st } :=
            ⟨hb.1, fun i hi => hb.2 i (by rw [h4]; exact List.mem_cons_of_mem _ hi)⟩
          by_cases h5 : some c = it.fwdNode
          · rw [if_pos h5] at h
            simp only [except_pure] at h; cases h
            exact ⟨hc, fun p hp => by cases hp⟩
          · rw [if_neg h5] at h
            cases h6 : t.getField c LEFT with
            | error e => rw [h6] at h; cases h
            | ok r =>
              rw [h6] at h
              simp only [except_bind_ok, except_pure] at h; cases h
              exact ⟨hc, fun p hp => by cases hp; exact hb.2 c (by rw [h4]; simp)⟩

/-- every node is its own right child -/
def loop (z : AVLNode K V) : AVLTree K V M :=
  { root := 1, allocator := NodeAllocator.ofNodes fun _ => { registers := #v[0, 1, 0, 0], value := z } }

theorem loop_inRange (z : AVLNode K V) : (loop z : AVLTree K V M).InRange where
  root := by simp [loop]
  allocator := NodeAllocator.inRange_ofNodes (fun _ => { registers := #v[0, 1, 0, 0], value := z })
    fun i => ⟨show ∀ (r : Nat) (h : r < 4), (#v[0, 1, 0, 0] : Vector Nat 4)[r] < 2 ^ 32 by decide, trivial⟩

theorem loop_next (z : AVLNode K V) (hM : 1 ≤ M) (x : Option Nat) :
    Iter.nextMut (loop z : AVLTree K V M)
      { fwdStack := [], fwdPtr := 1, fwdNode := x, revStack := [], revPtr := 1, revNode := none, terminated := false } =
      .ok ({ fwdStack := [], fwdPtr := 1, fwdNode := some 1, revStack := [], revPtr := 1, revNode := none,
             terminated := false }, some 1) := by
  have h1 : (loop z : AVLTree K V M).getField 1 LEFT = .ok 0 := NodeAllocator.getRegister_ofNodes _ (Nat.le_refl 1) hM
  have h2 : (loop z : AVLTree K V M).getField 1 RIGHT = .ok 1 := NodeAllocator.getRegister_ofNodes _ (Nat.le_refl 1) hM
  simp [Iter.nextMut, Iter.nextLoop, SENTINEL, h1, h2]

end AVLTree

/-! ### Critbit -/
namespace Critbit
variable {V : Type} {N M : Nat}

/-- node 1 has node 2 as both children, which is a leaf with the leaf index `j` -/
def twice (j : Nat) (z : CritbitNode) (w : V) : Critbit V N M :=
  { root := 1,
    nodeAllocator := NodeAllocator.ofNodes fun i =>
      if i = 1 then { registers := #v[2, 2, 0, 0], value := z } else { registers := #v[0, 0, 0, j], value := z },
    leaves := NodeAllocator.ofNodes fun _ => { registers := #v[0, 0, 0, 0], value := w } }

theorem twice_inRange {j : Nat} (hj : j < 2 ^ 32) {z : CritbitNode} (hz : z.prefixLen < 2 ^ 64) (w : V) :
    (twice j z w : Critbit V N M).InRange where
  root := by simp [twice]
  nodeAllocator := by
    refine NodeAllocator.inRange_ofNodes (fun i =>
      if i = 1 then { registers := #v[2, 2, 0, 0], value := z } else { registers := #v[0, 0, 0, j], value := z })
      fun i => ?_
    show Node.InRange _ (if i = 1 then _ else _)
    by_cases h : i = 1
    · rw [if_pos h]; exact ⟨show ∀ (r : Nat) (h : r < 4), (#v[2, 2, 0, 0] : Vector Nat 4)[r] < 2 ^ 32 by decide, hz⟩
    · rw [if_neg h]
      refine ⟨fun r hr => ?_, hz⟩
      match r, hr with
      | 0, _ => exact Nat.two_pow_pos 32
      | 1, _ => exact Nat.two_pow_pos 32
      | 2, _ => exact Nat.two_pow_pos 32
      | 3, _ => exact hj
  leaves := NodeAllocator.inRange_ofNodes (fun _ => { registers := #v[0, 0, 0, 0], value := w })
    fun i => ⟨show ∀ (r : Nat) (h : r < 4), (#v[0, 0, 0, 0] : Vector Nat 4)[r] < 2 ^ 32 by decide, trivial⟩

theorem twice_next {j : Nat} (hj : j ≠ 0) (z : CritbitNode) (w : V) (hN : 2 ≤ N) :
    ∃ it1 it2, Iter.nextMut (twice j z w : Critbit V N M) (iter (twice j z w : Critbit V N M)) = .ok (it1, some (2, j)) ∧
      Iter.nextMut (twice j z w : Critbit V N M) it1 = .ok (it2, some (2, j)) := by
  have r : ∀ i r, 1 ≤ i → i ≤ N → (twice j z w : Critbit V N M).nodeAllocator.getRegister i r =
    (if i = 1 then { registers := #v[2, 2, 0, 0], value := z } else { registers := #v[0, 0, 0, j], value := z } :
      Node CritbitNode 4).getRegister r := fun i r h1 h2 => NodeAllocator.getRegister_ofNodes _ h1 h2
  have a1 : (twice j z w : Critbit V N M).isInnerNode 1 = .ok true := by
    unfold isInnerNode; rw [r 1 _ (by omega) (by omega)]; rfl
  have a2 : (twice j z w : Critbit V N M).isInnerNode 2 = .ok false := by
    unfold isInnerNode; rw [r 2 _ (by omega) hN]
    show Except.ok (decide (j = SENTINEL)) = _
    rw [decide_eq_false (show ¬ j = SENTINEL from hj)]
  have a3 : (twice j z w : Critbit V N M).getLeft 1 = .ok 2 := by
    unfold getLeft; rw [r 1 _ (by omega) (by omega)]; rfl
  have a4 : (twice j z w : Critbit V N M).getRight 1 = .ok 2 := by
    unfold getRight; rw [r 1 _ (by omega) (by omega)]; rfl
  have a5 : (twice j z w : Critbit V N M).getLeafIndex 2 = .ok j := by
    unfold getLeafIndex; rw [r 2 _ (by omega) hN]; rfl
  have hi : iter (twice j z w : Critbit V N M) =
      { fwdStack := [1], fwdNode := none, revStack := [1], revNode := none, terminated := false } := rfl
  obtain ⟨n, rfl⟩ : ∃ n, N = n + 2 := ⟨N - 2, by omega⟩
  refine ⟨{ fwdStack := [2], fwdNode := some j, revStack := [1], revNode := none, terminated := false },
    { fwdStack := [], fwdNode := some j, revStack := [1], revNode := none, terminated := false }, ?_, ?_⟩
  · rw [hi]
    simp [Iter.nextMut, Iter.nextLoop, a1, a2, a3, a4, a5]
  · simp [Iter.nextMut, Iter.nextLoop, a2, a5]

theorem nextLoop_node {t : Critbit V N M} : ∀ {fuel : Nat} {it it' : Iter} {n i : Nat},
    Iter.nextLoop t fuel it = .ok (it', some (n, i)) → 1 ≤ n ∧ n ≤ N ∧ i ≠ 0 := by
  intro fuel
  induction fuel with
  | zero => intro it it' n i h; cases h
  | succ fuel ih =>
    intro it it' n i h
    unfold Iter.nextLoop at h
    by_cases h1 : it.terminated = true
    · rw [if_pos h1] at h; cases h
    · rw [if_neg h1] at h
      cases h2 : it.fwdStack with
      | nil => simp only [h2, except_pure] at h; cases h
      | cons c st =>
        simp only [h2] at h
        cases h3 : t.isInnerNode c with
        | error e => rw [h3] at h; cases h
        | ok b =>
          rw [h3] at h
          cases b with
          | false =>
            simp only [except_bind_ok, Bool.not_false, if_true] at h
            cases h4 : t.getLeafIndex c with
            | error e => rw [h4] at h; cases h
            | ok j =>
              rw [h4] at h
              simp only [except_bind_ok] at h
              have hv : t.nodeAllocator.getRegister c VALUE = .ok j := h4
              have hj : j ≠ 0 := by
                unfold isInnerNode at h3
                rw [hv] at h3
                intro hc
                rw [hc] at h3; cases h3
              by_cases h5 : some j = it.revNode
              · rw [if_pos h5] at h; cases h
              · rw [if_neg h5] at h
                simp only [except_pure] at h
                have hc : c = n ∧ j = i := by cases h; exact ⟨rfl, rfl⟩
                obtain ⟨rfl, rfl⟩ := hc
                have hn : c ≠ 0 := by
                  rintro rfl
                  have : t.nodeAllocator.getRegister 0 VALUE = .ok 0 := rfl
                  rw [this] at hv; cases hv; exact hj rfl
                have := NodeAllocator.getRegister_range hv hn
                exact ⟨this.1, this.2, hj⟩
          | true =>
            simp only [except_bind_ok, Bool.not_true, Bool.false_eq_true, if_false] at h
            cases h4 : t.getRight c with
            | error e => rw [h4] at h; cases h
            | ok r =>
              rw [h4] at h
              cases h5 : t.getLeft c with
              | error e => rw [h5] at h; cases h
              | ok l => rw [h5] at h; exact ih h

theorem nextBackLoop_node {t : Critbit V N M} : ∀ {fuel : Nat} {it it' : Iter} {n i : Nat},
    Iter.nextBackLoop t fuel it = .ok (it', some (n, i)) → 1 ≤ n ∧ n ≤ N ∧ i ≠ 0 := by
  intro fuel
  induction fuel with
  | zero => intro it it' n i h; cases h
  | succ fuel ih =>
    intro it it' n i h
    unfold Iter.nextBackLoop at h
    by_cases h1 : it.terminated = true
    · rw [if_pos h1] at h; cases h
    · rw [if_neg h1] at h
      cases h2 : it.revStack with
      | nil => simp only [h2, except_pure] at h; cases h
      | cons c st =>
        simp only [h2] at h
        cases h3 : t.isInnerNode c with
        | error e => rw [h3] at h; cases h
        | ok b =>
          rw [h3] at h
          cases b with
          | false =>
            simp only [except_bind_ok, Bool.not_false, if_true] at h
            cases h4 : t.getLeafIndex c with
            | error e => rw [h4] at h; cases h
            | ok j =>
              rw [h4] at h
              simp only [except_bind_ok] at h
              have hv : t.nodeAllocator.getRegister c VALUE = .ok j := h4
              have hj : j ≠ 0 := by
                unfold isInnerNode at h3
                rw [hv] at h3
                intro hc
                rw [hc] at h3; cases h3
              by_cases h5 : some j = it.fwdNode
              · rw [if_pos h5] at h; cases h
              · rw [if_neg h5] at h
                simp only [except_pure] at h
                have hc : c = n ∧ j = i := by cases h; exact ⟨rfl, rfl⟩
                obtain ⟨rfl, rfl⟩ := hc
                have hn : c ≠ 0 := by
                  rintro rfl
                  have : t.nodeAllocator.getRegister 0 VALUE = .ok 0 := rfl
                  rw [this] at hv; cases hv; exact hj rfl
                have := NodeAllocator.getRegister_range hv hn
                exact ⟨this.1, this.2, hj⟩
          | true =>
            simp only [except_bind_ok, Bool.not_true, Bool.false_eq_true, if_false] at h
            cases h4 : t.getLeft c with
            | error e => rw [h4] at h; cases h
            | ok r =>
              rw [h4] at h
              cases h5 : t.getRight c with
              | error e => rw [h5] at h; cases h
              | ok l => rw [h5] at h; exact ih h

end Critbit
end Sokoban
