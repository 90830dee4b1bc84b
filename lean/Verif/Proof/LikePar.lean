import Verif.Proof.Like
import Verif.Proof.ParRB
import Verif.Proof.ParAVL
import Verif.Proof.ParHash
import Verif.Proof.ParCritbit
import Verif.Proof.ParDeque

/-
Corresponding structures are the two sides of one structure over pairs, so the functions do the same on them.
-/
namespace Sokoban
open MapSpec

/-- Pairs of corresponding things. -/
def Pr {α β : Type} (P : α → β → Prop) : Type := { p : α × β // P p.1 p.2 }

section
variable {α β γ : Type} {P : α → β → Prop}

instance Pr.left : Par (Pr P) α := ⟨fun p => p.1.1⟩
instance Pr.right : Par (Pr P) β := ⟨fun p => p.1.2⟩

theorem Pr.rel (p : Pr P) : P (Par.map p : α) (Par.map p : β) := p.2

theorem BothDo.of_sim [Par γ α] [Par γ β] {x : R γ} {y : R α} {y' : R β} (h : Sim x y) (h' : Sim x y')
    (k : ∀ c : γ, P (Par.map c) (Par.map c)) : BothDo P y y' := by
  rw [show y = _ from h, show y' = _ from h']
  cases x with
  | error p => exact .error
  | ok c => exact .ok (k c)

theorem eq_of_sim [Par γ γ] {x y y' : R γ} (h : Sim x y) (h' : Sim x y') : y' = y :=
  (show y' = _ from h').trans (show y = _ from h).symm

theorem Pr.opt (o : Option (Pr P)) : Option.Rel P (Par.map o : Option α) (Par.map o : Option β) := by
  cases o with
  | none => exact .none
  | some p => exact .some p.2

theorem opt_rel [Par γ α] [Par γ β] {Q : α → β → Prop} (h : ∀ c : γ, Q (Par.map c) (Par.map c)) (o : Option γ) :
    Option.Rel Q (Option.map Par.map o : Option α) (Option.map Par.map o : Option β) := by
  cases o with
  | none => exact .none
  | some p => exact .some (h p)

theorem opt_eq (o : Option γ) : Option.Rel (fun a b => b = a) o o := by
  cases o with
  | none => exact .none
  | some p => exact .some rfl

end

/-- The pairs of the nodes of two corresponding allocators. -/
theorem NodeAllocator.Like.split {T T' T₂ : Type} {M N : Nat} [Par T₂ T] [Par T₂ T'] {P : T → T' → Prop}
    {a : NodeAllocator T M N} {a' : NodeAllocator T' M N} (h : a.Like P a')
    (mk : ∀ x x', P x x' → ∃ y : T₂, (Par.map y : T) = x ∧ (Par.map y : T') = x') :
    ∃ u : NodeAllocator T₂ M N, (Par.map u : NodeAllocator T M N) = a ∧ (Par.map u : NodeAllocator T' M N) = a' := by
  refine ⟨⟨a.size, a.bumpIndex, a.freeListHead,
    Vector.ofFn fun i => ⟨a.nodes[i].registers, (mk _ _ (h.value i i.2)).choose⟩⟩, ?_, ?_⟩
  · cases a with
    | mk s b f ns =>
      refine congrArg (NodeAllocator.mk s b f) (Vector.ext fun i hi => ?_)
      rw [Vector.getElem_map, Vector.getElem_ofFn]
      exact congrArg (Node.mk _) (mk _ _ (h.value i hi)).choose_spec.1
  · cases a' with
    | mk s b f ns =>
      have h1 := h.size
      have h2 := h.bumpIndex
      have h3 := h.freeListHead
      dsimp only at h1 h2 h3
      subst h1 h2 h3
      refine congrArg (NodeAllocator.mk _ _ _) (Vector.ext fun i hi => ?_)
      rw [Vector.getElem_map, Vector.getElem_ofFn]
      have h4 := h.registers i hi
      dsimp only at h4
      show Node.mk a.nodes[i].registers _ = ns[i]
      rw [← h4]
      exact congrArg (Node.mk _) (mk _ _ (h.value i hi)).choose_spec.2

theorem NodeAllocator.Like.joined {T T' T₂ : Type} {M N : Nat} [Par T₂ T] [Par T₂ T'] {P : T → T' → Prop}
    (h : ∀ y : T₂, P (Par.map y) (Par.map y)) (u : NodeAllocator T₂ M N) :
    (Par.map u : NodeAllocator T M N).Like P (Par.map u : NodeAllocator T' M N) := by
  refine ⟨rfl, rfl, rfl, fun i hi => ?_, fun i hi => ?_⟩
  · show (u.nodes.map Par.map : Vector (Node T' N) M)[i].registers = (u.nodes.map Par.map : Vector (Node T N) M)[i].registers
    rw [Vector.getElem_map, Vector.getElem_map]; rfl
  · show P (u.nodes.map Par.map : Vector (Node T N) M)[i].value (u.nodes.map Par.map : Vector (Node T' N) M)[i].value
    rw [Vector.getElem_map, Vector.getElem_map]
    exact h _

variable {K K' V V' : Type} {RK : K → K' → Prop} {RV : V → V' → Prop} {B N M : Nat}

theorem entry_rel (e : Option (Pr RK × Pr RV)) :
    Option.Rel (EntryLike RK RV) (Par.map e : Option (K × V)) (Par.map e : Option (K' × V')) :=
  opt_rel (fun c => ⟨c.1.2, c.2.2⟩) e

namespace RedBlackTree

theorem Like.split {t : RedBlackTree K V M} {t' : RedBlackTree K' V' M} (h : t.Like RK RV t') :
    ∃ u : RedBlackTree (Pr RK) (Pr RV) M, (Par.map u : RedBlackTree K V M) = t ∧ (Par.map u : RedBlackTree K' V' M) = t' := by
  obtain ⟨u, h1, h2⟩ := h.2.split (T₂ := RBNode (Pr RK) (Pr RV))
    (fun x x' hx => ⟨⟨⟨(_, _), hx.1⟩, ⟨(_, _), hx.2⟩⟩, rfl, rfl⟩)
  refine ⟨⟨t.root, u⟩, ?_, ?_⟩
  · cases t; exact congrArg (RedBlackTree.mk _) h1
  · obtain ⟨r, a⟩ := t'
    have := h.1
    dsimp only at this
    subst this
    exact congrArg (RedBlackTree.mk _) h2

theorem Like.joined (u : RedBlackTree (Pr RK) (Pr RV) M) :
    (Par.map u : RedBlackTree K V M).Like RK RV (Par.map u : RedBlackTree K' V' M) :=
  ⟨rfl, NodeAllocator.Like.joined (fun y => ⟨y.key.2, y.value.2⟩) _⟩

end RedBlackTree

namespace AVLTree

theorem Like.split {t : AVLTree K V M} {t' : AVLTree K' V' M} (h : t.Like RK RV t') :
    ∃ u : AVLTree (Pr RK) (Pr RV) M, (Par.map u : AVLTree K V M) = t ∧ (Par.map u : AVLTree K' V' M) = t' := by
  obtain ⟨u, h1, h2⟩ := h.2.split (T₂ := AVLNode (Pr RK) (Pr RV))
    (fun x x' hx => ⟨⟨⟨(_, _), hx.1⟩, ⟨(_, _), hx.2⟩⟩, rfl, rfl⟩)
  refine ⟨⟨t.root, u⟩, ?_, ?_⟩
  · cases t; exact congrArg (AVLTree.mk _) h1
  · obtain ⟨r, a⟩ := t'
    have := h.1
    dsimp only at this
    subst this
    exact congrArg (AVLTree.mk _) h2

theorem Like.joined (u : AVLTree (Pr RK) (Pr RV) M) :
    (Par.map u : AVLTree K V M).Like RK RV (Par.map u : AVLTree K' V' M) :=
  ⟨rfl, NodeAllocator.Like.joined (fun y => ⟨y.key.2, y.value.2⟩) _⟩

end AVLTree

namespace HashTable

theorem Like.split {t : HashTable K V B M} {t' : HashTable K' V' B M} (h : t.Like RK RV t') :
    ∃ u : HashTable (Pr RK) (Pr RV) B M, (Par.map u : HashTable K V B M) = t ∧ (Par.map u : HashTable K' V' B M) = t' := by
  obtain ⟨u, h1, h2⟩ := h.2.split (T₂ := HashNode (Pr RK) (Pr RV))
    (fun x x' hx => ⟨⟨⟨(_, _), hx.1⟩, ⟨(_, _), hx.2⟩⟩, rfl, rfl⟩)
  refine ⟨⟨t.buckets, u⟩, ?_, ?_⟩
  · cases t; exact congrArg (HashTable.mk _) h1
  · obtain ⟨r, a⟩ := t'
    have := h.1
    dsimp only at this
    subst this
    exact congrArg (HashTable.mk _) h2

theorem Like.joined (u : HashTable (Pr RK) (Pr RV) B M) :
    (Par.map u : HashTable K V B M).Like RK RV (Par.map u : HashTable K' V' B M) :=
  ⟨rfl, NodeAllocator.Like.joined (fun y => ⟨y.key.2, y.value.2⟩) _⟩

end HashTable

namespace Critbit

theorem Like.split {t : Critbit V N M} {t' : Critbit V' N M} (h : t.Like RV t') :
    ∃ u : Critbit (Pr RV) N M, (Par.map u : Critbit V N M) = t ∧ (Par.map u : Critbit V' N M) = t' := by
  obtain ⟨u, h1, h2⟩ := h.2.2.split (T₂ := Pr RV) (fun x x' hx => ⟨⟨(_, _), hx⟩, rfl, rfl⟩)
  refine ⟨⟨t.root, t.nodeAllocator, u⟩, ?_, ?_⟩
  · cases t; exact congrArg (Critbit.mk _ _) h1
  · obtain ⟨r, n, a⟩ := t'
    have e1 := h.1
    have e2 := h.2.1
    dsimp only at e1 e2
    subst e1 e2
    exact congrArg (Critbit.mk _ _) h2

theorem Like.joined (u : Critbit (Pr RV) N M) : (Par.map u : Critbit V N M).Like RV (Par.map u : Critbit V' N M) :=
  ⟨rfl, rfl, NodeAllocator.Like.joined (fun y => y.2) _⟩

end Critbit

namespace Deque

theorem Like.split {t : Deque V M} {t' : Deque V' M} (h : t.Like RV t') :
    ∃ u : Deque (Pr RV) M, (Par.map u : Deque V M) = t ∧ (Par.map u : Deque V' M) = t' := by
  obtain ⟨u, h1, h2⟩ := h.2.2.2.split (T₂ := Pr RV) (fun x x' hx => ⟨⟨(_, _), hx⟩, rfl, rfl⟩)
  refine ⟨⟨t.sequenceNumber, t.head, t.tail, u⟩, ?_, ?_⟩
  · cases t; exact congrArg (Deque.mk _ _ _) h1
  · obtain ⟨q, r, n, a⟩ := t'
    have e1 := h.1
    have e2 := h.2.1
    have e3 := h.2.2.1
    dsimp only at e1 e2 e3
    subst e1 e2 e3
    exact congrArg (Deque.mk _ _ _) h2

theorem Like.joined (u : Deque (Pr RV) M) : (Par.map u : Deque V M).Like RV (Par.map u : Deque V' M) :=
  ⟨rfl, rfl, rfl, NodeAllocator.Like.joined (fun y => y.2) _⟩

end Deque

namespace RedBlackTree
variable [Ord K] [Ord K']

theorem like_api (hc : ∀ k k' l l', RK k k' → RK l l' → compare k' l' = compare k l) :
    Api.Like RK RV (Like RK RV) (RedBlackSpec.api : Api (RedBlackTree K V M) K V) (RedBlackSpec.api : Api (RedBlackTree K' V' M) K' V')
      (fun i i' => i' = i) (fun r r' => r' = r) := by
  let : Ord (Pr RK) := ⟨fun a b => compare a.1.1 b.1.1⟩
  have : ParOrd (Pr RK) K := ⟨fun a b => rfl⟩
  have : ParOrd (Pr RK) K' := ⟨fun a b => hc _ _ _ _ a.2 b.2⟩
  refine ⟨?_, ?_, ?_, ?_, ?_, ?_, ?_, ?_, ?_, ?_, ?_, ?_, ?_, ?_, ?_, ?_, ?_⟩
  · intro s s' k k' v v' hs hk hv
    obtain ⟨u, rfl, rfl⟩ := hs.split
    exact .of_sim (par_insert u (⟨(k, k'), hk⟩ : Pr RK) (⟨(v, v'), hv⟩ : Pr RV) _) (par_insert u ⟨(k, k'), hk⟩ ⟨(v, v'), hv⟩ _)
      fun c => ⟨.joined c.1, rfl⟩
  · intro s s' k k' hs hk
    obtain ⟨u, rfl, rfl⟩ := hs.split
    exact .of_sim (par_remove u (⟨(k, k'), hk⟩ : Pr RK) _) (par_remove u ⟨(k, k'), hk⟩ _) fun c => ⟨.joined c.1, Pr.opt c.2⟩
  · intro s s' k k' hs hk
    obtain ⟨u, rfl, rfl⟩ := hs.split
    exact .of_sim (par_get u (⟨(k, k'), hk⟩ : Pr RK)) (par_get u ⟨(k, k'), hk⟩) fun c => Pr.opt c
  · intro s s' k k' hs hk
    obtain ⟨u, rfl, rfl⟩ := hs.split
    exact eq_of_sim (par_contains u (⟨(k, k'), hk⟩ : Pr RK)) (par_contains u ⟨(k, k'), hk⟩)
  · intro s s' k k' hs hk
    obtain ⟨u, rfl, rfl⟩ := hs.split
    exact .of_sim (par_index u (⟨(k, k'), hk⟩ : Pr RK)) (par_index u ⟨(k, k'), hk⟩) fun c => c.2
  · intro s s' k k' hs hk
    obtain ⟨u, rfl, rfl⟩ := hs.split
    exact eq_of_sim (par_getMut u (⟨(k, k'), hk⟩ : Pr RK)) (par_getMut u ⟨(k, k'), hk⟩)
  · intro s s' hs
    obtain ⟨u, rfl, rfl⟩ := hs.split
    rfl
  · intro s s' hs
    obtain ⟨u, rfl, rfl⟩ := hs.split
    rfl
  · intro s s' hs
    obtain ⟨u, rfl, rfl⟩ := hs.split
    rfl
  · rintro s s' i i' hs rfl
    obtain ⟨u, rfl, rfl⟩ := hs.split
    exact .of_sim (α := Iter × Option (K × V)) (β := Iter × Option (K' × V')) (par_Iter_next u _) (par_Iter_next u _) fun c => ⟨rfl, entry_rel c.2⟩
  · rintro s s' i i' hs rfl
    obtain ⟨u, rfl, rfl⟩ := hs.split
    exact .of_sim (α := Iter × Option (K × V)) (β := Iter × Option (K' × V')) (par_Iter_nextBack u _) (par_Iter_nextBack u _) fun c => ⟨rfl, entry_rel c.2⟩
  · rintro r r' rfl
    rfl
  · rintro s s' i i' hs rfl
    obtain ⟨u, rfl, rfl⟩ := hs.split
    exact .of_sim (α := Iter × Option Nat) (β := Iter × Option Nat) (par_Iter_nextMut u _) (par_Iter_nextMut u _) fun c => ⟨rfl, opt_eq _⟩
  · rintro s s' i i' hs rfl
    obtain ⟨u, rfl, rfl⟩ := hs.split
    exact .of_sim (α := Iter × Option Nat) (β := Iter × Option Nat) (par_Iter_nextBackMut u _) (par_Iter_nextBackMut u _) fun c => ⟨rfl, opt_eq _⟩
  · rintro s s' r r' hs rfl
    obtain ⟨u, rfl, rfl⟩ := hs.split
    refine .bind (.of_sim (P := fun (n : RBNode K V) (n' : RBNode K' V') => RK n.key n'.key ∧ RV n.value n'.value) (par_getNode u _) (par_getNode u _)
      fun c => ⟨c.key.2, c.value.2⟩) fun n n' hn => .mk_pure ⟨hn.1, hn.2⟩
  · rintro s s' i hs
    obtain ⟨u, rfl, rfl⟩ := hs.split
    refine .bind (.of_sim (P := fun (n : RBNode K V) (n' : RBNode K' V') => RK n.key n'.key ∧ RV n.value n'.value) (par_getNode u _) (par_getNode u _)
      fun c => ⟨c.key.2, c.value.2⟩) fun n n' hn => .mk_pure hn.2
  · intro s s' i v v' hs hv
    obtain ⟨u, rfl, rfl⟩ := hs.split
    exact .of_sim (par_setNodeValue u _ (⟨(v, v'), hv⟩ : Pr RV)) (par_setNodeValue u _ ⟨(v, v'), hv⟩) fun c => .joined c

end RedBlackTree

namespace AVLTree
variable [LT K] [DecidableLT K] [PartialGt K] [LT K'] [DecidableLT K'] [PartialGt K']

theorem like_api (hc : ∀ k k' l l', RK k k' → RK l l' → (k' < l' ↔ k < l) ∧ (PartialGt.gt k' l' ↔ PartialGt.gt k l)) :
    Api.Like RK RV (Like RK RV) (AVLSpec.api : Api (AVLTree K V M) K V) (AVLSpec.api : Api (AVLTree K' V' M) K' V')
      (fun i i' => i' = i) (fun r r' => r' = r) := by
  let : LT (Pr RK) := ⟨fun a b => a.1.1 < b.1.1⟩
  let : DecidableLT (Pr RK) := fun a b => inferInstanceAs (Decidable (a.1.1 < b.1.1))
  let : PartialGt (Pr RK) := ⟨fun a b => PartialGt.gt a.1.1 b.1.1, fun a b => inferInstanceAs (Decidable (PartialGt.gt a.1.1 b.1.1))⟩
  have : ParCmp (Pr RK) K := ⟨fun a b => Iff.rfl, fun a b => Iff.rfl⟩
  have : ParCmp (Pr RK) K' := ⟨fun a b => (hc _ _ _ _ a.2 b.2).1, fun a b => (hc _ _ _ _ a.2 b.2).2⟩
  refine ⟨?_, ?_, ?_, ?_, ?_, ?_, ?_, ?_, ?_, ?_, ?_, ?_, ?_, ?_, ?_, ?_, ?_⟩
  · intro s s' k k' v v' hs hk hv
    obtain ⟨u, rfl, rfl⟩ := hs.split
    exact .of_sim (par_insert u (⟨(k, k'), hk⟩ : Pr RK) (⟨(v, v'), hv⟩ : Pr RV) _) (par_insert u ⟨(k, k'), hk⟩ ⟨(v, v'), hv⟩ _)
      fun c => ⟨.joined c.1, rfl⟩
  · intro s s' k k' hs hk
    obtain ⟨u, rfl, rfl⟩ := hs.split
    exact .of_sim (par_remove u (⟨(k, k'), hk⟩ : Pr RK) _) (par_remove u ⟨(k, k'), hk⟩ _) fun c => ⟨.joined c.1, Pr.opt c.2⟩
  · intro s s' k k' hs hk
    obtain ⟨u, rfl, rfl⟩ := hs.split
    exact .of_sim (par_get u (⟨(k, k'), hk⟩ : Pr RK)) (par_get u ⟨(k, k'), hk⟩) fun c => Pr.opt c
  · intro s s' k k' hs hk
    obtain ⟨u, rfl, rfl⟩ := hs.split
    exact eq_of_sim (par_contains u (⟨(k, k'), hk⟩ : Pr RK)) (par_contains u ⟨(k, k'), hk⟩)
  · intro s s' k k' hs hk
    obtain ⟨u, rfl, rfl⟩ := hs.split
    exact .of_sim (par_index u (⟨(k, k'), hk⟩ : Pr RK)) (par_index u ⟨(k, k'), hk⟩) fun c => c.2
  · intro s s' k k' hs hk
    obtain ⟨u, rfl, rfl⟩ := hs.split
    exact eq_of_sim (par_getMut u (⟨(k, k'), hk⟩ : Pr RK)) (par_getMut u ⟨(k, k'), hk⟩)
  · intro s s' hs
    obtain ⟨u, rfl, rfl⟩ := hs.split
    rfl
  · intro s s' hs
    obtain ⟨u, rfl, rfl⟩ := hs.split
    rfl
  · intro s s' hs
    obtain ⟨u, rfl, rfl⟩ := hs.split
    rfl
  · rintro s s' i i' hs rfl
    obtain ⟨u, rfl, rfl⟩ := hs.split
    exact .of_sim (α := Iter × Option (K × V)) (β := Iter × Option (K' × V')) (par_Iter_next u _) (par_Iter_next u _) fun c => ⟨rfl, entry_rel c.2⟩
  · rintro s s' i i' hs rfl
    obtain ⟨u, rfl, rfl⟩ := hs.split
    exact .of_sim (α := Iter × Option (K × V)) (β := Iter × Option (K' × V')) (par_Iter_nextBack u _) (par_Iter_nextBack u _) fun c => ⟨rfl, entry_rel c.2⟩
  · rintro r r' rfl
    rfl
  · rintro s s' i i' hs rfl
    obtain ⟨u, rfl, rfl⟩ := hs.split
    exact .of_sim (α := Iter × Option Nat) (β := Iter × Option Nat) (par_Iter_nextMut u _) (par_Iter_nextMut u _) fun c => ⟨rfl, opt_eq _⟩
  · rintro s s' i i' hs rfl
    obtain ⟨u, rfl, rfl⟩ := hs.split
    exact .of_sim (α := Iter × Option Nat) (β := Iter × Option Nat) (par_Iter_nextBackMut u _) (par_Iter_nextBackMut u _) fun c => ⟨rfl, opt_eq _⟩
  · rintro s s' r r' hs rfl
    obtain ⟨u, rfl, rfl⟩ := hs.split
    refine .bind (.of_sim (P := fun (n : AVLNode K V) (n' : AVLNode K' V') => RK n.key n'.key ∧ RV n.value n'.value) (par_getNode u _) (par_getNode u _)
      fun c => ⟨c.key.2, c.value.2⟩) fun n n' hn => .mk_pure ⟨hn.1, hn.2⟩
  · rintro s s' i hs
    obtain ⟨u, rfl, rfl⟩ := hs.split
    refine .bind (.of_sim (P := fun (n : AVLNode K V) (n' : AVLNode K' V') => RK n.key n'.key ∧ RV n.value n'.value) (par_getNode u _) (par_getNode u _)
      fun c => ⟨c.key.2, c.value.2⟩) fun n n' hn => .mk_pure hn.2
  · intro s s' i v v' hs hv
    obtain ⟨u, rfl, rfl⟩ := hs.split
    exact .of_sim (par_setNodeValue u _ (⟨(v, v'), hv⟩ : Pr RV)) (par_setNodeValue u _ ⟨(v, v'), hv⟩) fun c => .joined c

end AVLTree

end Sokoban
