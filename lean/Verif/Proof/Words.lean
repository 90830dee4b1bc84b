import Verif.Proof.WordsDeque
import Verif.Proof.WordsHash
import Verif.Proof.WordsRB
import Verif.Proof.WordsAVL
import Verif.Proof.WordsCritbit
import Verif.Proof.Run
import Verif.Spec.Alloc
import Verif.Spec.Deque
import Verif.Spec.HashTable
import Verif.Spec.RedBlack
import Verif.Spec.AVL
import Verif.Spec.Critbit

/-
No history leaves the Rust types.
-/
namespace Sokoban
open MapSpec

/-- If the call returns normally then its result satisfies `P`. -/
def Post {α : Type} (x : R α) (P : α → Prop) : Prop := ∀ a, x = .ok a → P a

namespace Post
variable {α β : Type} {x : R α} {P : α → Prop}

theorem mk_pure {a : α} (h : P a) : Post (pure a : R α) P := by
  intro b e; cases e; exact h

theorem bind {f : α → R β} {Q : β → Prop} (h : Post x P) (k : ∀ a, P a → Post (f a) Q) : Post (x >>= f) Q := by
  intro b e
  cases x with
  | error p => cases e
  | ok a => exact k a (h a rfl) b e

theorem top : Post x (fun _ => True) := fun _ _ => trivial

end Post

theorem Safe.fst {S α : Type} [Rng S] [Rng α] {x : R (S × α)} (h : Safe x) : Post x (fun r => Rng.ok r.1) :=
  fun a e => (h a e).1

theorem driveMut_post {S It P V : Type} {I : S → Prop} {next nextBack : S → It → R (It × Option P)} {read : S → P → R V}
    {write : S → P → V → R S} (hw : ∀ s p v, I s → Post (write s p v) I) :
    ∀ (es : List (End × (V → V))) (s : S) (it : It), I s →
      Post (driveMut next nextBack read write s it es) (fun r => I r.1)
  | [], s, it, h => Post.mk_pure h
  | (e, f) :: es, s, it, h => by
    unfold driveMut
    refine Post.bind Post.top (fun p _ => ?_)
    obtain ⟨it', x⟩ := p
    cases x with
    | none => exact Post.bind (driveMut_post hw es s it' h) (fun r hr => Post.mk_pure hr)
    | some slot =>
      refine Post.bind Post.top (fun v _ => Post.bind (hw _ _ _ h) (fun s' h' => ?_))
      exact Post.bind (driveMut_post hw es s' it' h') (fun r hr => Post.mk_pure hr)

theorem run_post {S Op Out : Type} {I : S → Prop} {step : S → Op → R (S × Out)}
    {D : Op → Prop} (hs : ∀ s op, I s → D op → Post (step s op) (fun r => I r.1)) :
    ∀ (ops : List Op) (s : S), I s → (∀ op ∈ ops, D op) → Post (run step s ops) (fun r => I r.1)
  | [], s, h, _ => Post.mk_pure h
  | op :: ops, s, h, hd => by
    unfold run
    refine Post.bind (hs s op h (hd op (List.mem_cons_self ..))) (fun r hr => ?_)
    exact Post.bind (run_post hs ops r.1 hr (fun o ho => hd o (List.mem_cons_of_mem _ ho))) (fun r hr => Post.mk_pure hr)

theorem Api.call_post {S K V : Type} {I : S → Prop} (A : Api S K V)
    (hi : ∀ s k v, I s → Post (A.insert s k v) (fun r => I r.1)) (hr : ∀ s k, I s → Post (A.remove s k) (fun r => I r.1))
    (hw : ∀ s i v, I s → Post (A.write s i v) I) (s : S) (op : Op K V) (h : I s) : Post (A.call s op) (fun r => I r.1) := by
  cases op with
  | insert k v => exact Post.bind (hi s k v h) (fun r hr => Post.mk_pure hr)
  | remove k => exact Post.bind (hr s k h) (fun r hr => Post.mk_pure hr)
  | getMut k f =>
    refine Post.bind (P := fun r => I r.1) (Post.bind Post.top (fun o _ => ?_)) (fun r hr => Post.mk_pure hr)
    cases o with
    | none => exact Post.mk_pure h
    | some i => exact Post.bind Post.top (fun v _ => Post.bind (hw _ _ _ h) (fun s' h' => Post.mk_pure h'))
  | iterMut es =>
    refine Post.bind (P := fun r => I r.1) (Post.bind (driveMut_post (fun s p v h => hw _ _ _ h) _ _ _ h) (fun r hr => ?_))
      (fun r hr => Post.mk_pure hr)
    exact Post.mk_pure hr

namespace AllocSpec
theorem call_post {T : Type} {M N : Nat} (a : NodeAllocator T M N) (op : Op T) (h : a.InRange (fun _ => True)) (ho : op.InRange) :
    Post (call a op) (fun r => r.1.InRange (fun _ => True)) := by
  cases op with
  | add v => exact Post.bind (NodeAllocator.safe_addNode (v := v) h trivial).fst (fun r hr => Post.mk_pure hr)
  | remove i => exact Post.bind (NodeAllocator.safe_removeNode (T := T) h ho).fst (fun r hr => Post.mk_pure hr)
  | setRegister i v r => exact Post.bind (NodeAllocator.safe_setRegister (T := T) h ho) (fun r hr => Post.mk_pure hr)
  | clearRegister i r => exact Post.bind (NodeAllocator.safe_clearRegister (T := T) h) (fun r hr => Post.mk_pure hr)
  | connect i j rI rJ => exact Post.bind (NodeAllocator.safe_connect (T := T) h ho.1 ho.2) (fun r hr => Post.mk_pure hr)
  | disconnect i j rI rJ => exact Post.bind (NodeAllocator.safe_disconnect (T := T) h) (fun r hr => Post.mk_pure hr)
  | setValue i v => exact Post.bind (NodeAllocator.safe_setValue (v := v) h trivial) (fun r hr => Post.mk_pure hr)
end AllocSpec

theorem Deque.call_post {T : Type} {M : Nat} (d : Deque T M) (op : DequeSpec.Op T) (h : d.InRange) :
    Post (DequeSpec.call d op) (fun r => r.1.InRange) := by
  cases op with
  | pushBack v => exact Post.bind (Deque.safe_pushBack h) (fun r hr => Post.mk_pure hr)
  | pushFront v => exact Post.bind (Deque.safe_pushFront h) (fun r hr => Post.mk_pure hr)
  | popBack => exact Post.bind (Deque.safe_popBack h).fst (fun r hr => Post.mk_pure hr)
  | popFront => exact Post.bind (Deque.safe_popFront h).fst (fun r hr => Post.mk_pure hr)
  | iterMut es =>
    exact Post.bind (driveMut_post (fun s p v h => Deque.safe_writeSlot h) es d _ h) (fun r hr => Post.mk_pure hr)

theorem HashTable.call_post {K V : Type} [BEq K] {B M : Nat} (hash : K → Nat) (t : HashTable K V B M) (op : Op K V) (h : t.InRange) :
    Post (HashTableSpec.call hash t op) (fun r => r.1.InRange) := by
  cases op with
  | insert k v => exact Post.bind (HashTable.safe_insert h).fst (fun r hr => Post.mk_pure hr)
  | remove k => exact Post.bind (HashTable.safe_remove h).fst (fun r hr => Post.mk_pure hr)
  | getMut k f =>
    refine Post.bind (P := fun r => r.1.InRange) (Post.bind (HashTable.safe_getMut h).fst (fun r hr => ?_)) (fun r hr => Post.mk_pure hr)
    obtain ⟨t', o⟩ := r
    cases o with
    | none => exact Post.mk_pure hr
    | some i => exact Post.bind Post.top (fun v _ => Post.bind (HashTable.safe_setNodeValue hr) (fun s' h' => Post.mk_pure h'))
  | iterMut es =>
    refine Post.bind (P := fun r => r.1.InRange) (Post.bind Post.top (fun it _ => ?_)) (fun r hr => Post.mk_pure hr)
    exact driveMut_post (fun s p v h => HashTable.safe_setNodeValue h) _ t it h

theorem RedBlackTree.call_post {K V : Type} [Ord K] {M : Nat} (t : RedBlackTree K V M) (op : RedBlackSpec.TOp K V) (h : t.InRange) :
    Post (RedBlackSpec.call t op) (fun r => r.1.InRange) := by
  cases op with
  | map op =>
    refine Post.bind (Api.call_post (I := RedBlackTree.InRange) RedBlackSpec.api (fun s k v h => (RedBlackTree.safe_insert h).fst)
      (fun s k h => (RedBlackTree.safe_remove h).fst) (fun s i v h => RedBlackTree.safe_setNodeValue h) t op h)
      (fun r hr => Post.mk_pure hr)
  | removeRoot => exact Post.bind (RedBlackTree.safe_removeRoot h).fst (fun r hr => Post.mk_pure hr)

theorem AVLTree.call_post {K V : Type} [LT K] [DecidableLT K] [PartialGt K] {M : Nat} (t : AVLTree K V M) (op : Op K V) (h : t.InRange) :
    Post (AVLSpec.call t op) (fun r => r.1.InRange) :=
  Api.call_post (I := AVLTree.InRange) AVLSpec.api (fun _ _ _ h => (AVLTree.safe_insert h).fst)
    (fun _ _ h => (AVLTree.safe_remove h).fst) (fun _ _ _ h => AVLTree.safe_setNodeValue h) t op h

theorem Critbit.call_post {V : Type} {N M : Nat} (t : Critbit V N M) (op : Op (BitVec 128) V) (h : t.InRange) :
    Post (CritbitSpec.call t op) (fun r => r.1.InRange) :=
  Api.call_post (I := Critbit.InRange) CritbitSpec.api (fun _ _ _ h => (Critbit.safe_insert h).fst)
    (fun _ _ h => (Critbit.safe_remove h).fst) (fun _ _ _ h => Critbit.safe_replaceLeaf h) t op h

theorem Deque.inRange_new {T : Type} {M : Nat} (z : T) : (Deque.new z : Deque T M).InRange :=
  ⟨show 0 < _ by decide, show 0 < _ by decide, show 0 < _ by decide, NodeAllocator.ok_new trivial⟩
theorem HashTable.inRange_new {K V : Type} {B M : Nat} (z : HashNode K V) : (HashTable.new z : HashTable K V B M).InRange :=
  ⟨fun b hb => by simp [HashTable.new, SENTINEL], NodeAllocator.ok_new trivial⟩
theorem RedBlackTree.inRange_new {K V : Type} {M : Nat} (z : RBNode K V) : (RedBlackTree.new z : RedBlackTree K V M).InRange :=
  ⟨show 0 < _ by decide, NodeAllocator.ok_new trivial⟩
theorem AVLTree.inRange_new {K V : Type} {M : Nat} (z : AVLNode K V) : (AVLTree.new z : AVLTree K V M).InRange :=
  ⟨show 0 < _ by decide, NodeAllocator.ok_new trivial⟩
theorem Critbit.inRange_new {V : Type} {N M : Nat} (z : CritbitNode) (w : V) (hz : z.prefixLen < 2 ^ 64) :
    (Critbit.new z w : Critbit V N M).InRange :=
  ⟨show 0 < _ by decide, NodeAllocator.ok_new (T := CritbitNode) hz, NodeAllocator.ok_new trivial⟩

end Sokoban
