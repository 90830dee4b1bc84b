import Verif.Proof.CapriceRB
import Verif.Proof.CapriceAVL
import Verif.Proof.CapriceHash
import Verif.Proof.CapriceTruth

/-
Property theorems C96: code of the key type that panics or changes its mind in the middle of a call.

A history is a list of calls, each with an oracle (`Cmp K`, `Less K`, `Eqs K`, Spec/Caprice.lean) that answers every
comparison, every `==` and every hashing during that call: as it likes, twice the same question in two ways, or by a
panic (`none`). Nothing is assumed about the oracles. A panic of the key type is caught by the client, who goes on with
the same structure; a panic of the crate or an endless loop would make `run` an error.
-/
namespace Sokoban.Props
open MapSpec Caprice
variable {K V : Type} {M B : Nat}

/-! ### unwinding -/

/-- C96 for the red-black tree in any state whatsoever: a call during which a comparison panics changes no byte. -/
theorem C96_rb_unwind (t t' : RedBlackTree K V M) (op : RedBlackSpec.TOp K V) (o : Cmp K)
    (h : rbDo o op t = .error .user t') : t' = t := rbDo_clean o op t t' h

/-- C96 for the AVL tree in any state whatsoever: a call during which a comparison panics changes no byte. -/
theorem C96_avl_unwind (t t' : AVLTree K V M) (op : Op K V) (o : Less K)
    (h : avlDo o op t = .error .user t') : t' = t := avlDo_clean o op t t' h

/-- C96 for the hash table in any state whatsoever: a call during which the hashing or an `==` panics changes no byte. -/
theorem C96_hash_unwind (t t' : HashTable K V B M) (op : Op K V) (o : Eqs K)
    (h : hashDo o op t = .error .user t') : t' = t := hashDo_clean o op t t' h

/-! ### arbitrary answers -/

/-- C96 for the red-black tree: every history completes without a panic of the crate and without an endless loop. Each
call whose comparisons do not panic adds, removes or changes at most one entry, one of which it was told during this
call that its key equals the given one, and leaves the others in their order; the other calls change nothing. `iter`
yields exactly the entries from both ends, and the tree is a red-black tree. -/
theorem C96_rb_run (hM0 : 0 < M) (hM : M + 1 < 2 ^ 32) (z : RBNode K V) (cs : List (RedBlackSpec.TOp K V × Cmp K)) :
    ∃ (t : RedBlackTree K V M) (rs : List (Option (RedBlackSpec.TOut K V))) (L : List (K × V)),
      run rbCall (RedBlackTree.new z) cs = .ok (t, rs) ∧
      Trace (RbStep M) [] cs rs L ∧ t.len = L.length ∧ L.length ≤ M ∧
      (∀ es, ∃ it', drive (RedBlackTree.Iter.next t) (RedBlackTree.Iter.nextBack t) t.iter es =
        .ok (it', consume L es)) ∧
      t.isRed t.root = .ok false ∧
      (∀ p, ∃ i, RedBlackSpec.walk t t.root p = .ok i ∧ (t.isRed i = .ok true →
        ∃ l r, t.getLeft i = .ok l ∧ t.getRight i = .ok r ∧ t.isRed l = .ok false ∧ t.isRed r = .ok false)) ∧
      (∃ n, ∀ p, RedBlackSpec.ToNil t t.root p → RedBlackSpec.blacks t t.root p = .ok n) ∧
      t.isValid = .ok true := by
  obtain ⟨t, rs, E, e, h, hs⟩ := RedBlackTree.rbRun_held hM hM0 z cs
  have hl : t.len = (E.map Prod.snd).length := by rw [List.length_map]; exact h.base.size
  let _ : Ord K := ⟨fun _ _ => .eq⟩
  exact ⟨t, rs, E.map Prod.snd, e, hs, hl, by simpa using h.base.le, (RedBlackTree.loose hM hM0).drive h, h.redBlack⟩

/-- C96 for the AVL tree, likewise; an entry is found only if both comparisons with its key were answered "no" in one
iteration of this call. -/
theorem C96_avl_run (hM0 : 0 < M) (hM : M + 1 < 2 ^ 32) (z : AVLNode K V) (cs : List (Op K V × Less K)) :
    ∃ (t : AVLTree K V M) (rs : List (Option (Out K V))) (L : List (K × V)),
      run avlCall (AVLTree.new z) cs = .ok (t, rs) ∧
      Trace (AvlStep M) [] cs rs L ∧ t.len = L.length ∧ L.length ≤ M ∧
      (∀ es, ∃ it', drive (AVLTree.Iter.next t) (AVLTree.Iter.nextBack t) t.iter es = .ok (it', consume L es)) ∧
      ∀ p, ∃ i, AVLSpec.walk t t.root p = .ok i ∧ (i ≠ SENTINEL →
        ∃ l r a b, t.getField i AVLTree.LEFT = .ok l ∧ t.getField i AVLTree.RIGHT = .ok r ∧ AVLSpec.Levels t l a ∧
          AVLSpec.Levels t r b ∧ a ≤ b + 1 ∧ b ≤ a + 1 ∧ t.getField i AVLTree.HEIGHT = .ok (max a b)) := by
  obtain ⟨t, rs, E, e, h, hs⟩ := AVLTree.avlRun_held hM hM0 z cs
  have hl : t.len = (E.map Prod.snd).length := by rw [List.length_map]; exact h.base.size
  let _ : LT K := ⟨fun _ _ => False⟩
  let _ : DecidableLT K := fun _ _ => .isFalse id
  exact ⟨t, rs, E.map Prod.snd, e, hs, hl, by simpa using h.base.le, (AVLTree.loose hM hM0).drive h, h.balanced⟩

/-- C96 for the hash table, likewise (`get_mut` may also move the entry found to an earlier place); `iter` yields
exactly the entries. The hash of one key may be another one in every call. -/
theorem C96_hash_run (hB : 0 < B) (hM : M + 1 < 2 ^ 32) (z : HashNode K V) (cs : List (Op K V × Eqs K)) :
    ∃ (h : HashTable K V B M) (rs : List (Option (Out K V))) (L : List (K × V)) (it : HashTable.Iter),
      run hashCall (HashTable.new z) cs = .ok (h, rs) ∧
      Trace (HashStep M) [] cs rs L ∧ h.len = L.length ∧ L.length ≤ M ∧ h.iter = .ok it ∧
      ∀ es, ∃ it', drive (HashTable.Iter.next h) HashTable.Iter.nextBack it es = .ok (it', consumeFwd L es) := by
  obtain ⟨h, rs, E, e, ⟨c, H, rfl⟩, hs⟩ := HashTable.hashRun_held hB hM z cs
  obtain ⟨it, _, ei, _⟩ := HashTable.drive_iter H []
  refine ⟨h, rs, _, it, e, hs, by rw [H.len]; simp, by rw [List.length_map]; exact H.le, ei, fun es => ?_⟩
  obtain ⟨it1, it', e1, e2⟩ := HashTable.drive_iter H es
  rw [ei] at e1; cases e1
  exact ⟨it', e2⟩

/-! ### panics only -/

/-- C96: if all answers are those of one comparison (any function into `Ordering`) except that some of them are panics, then
results and tree are those of the history without the calls that panicked. -/
theorem C96_rb_panics [Ord K] (hM0 : 0 < M) (hM : M + 1 < 2 ^ 32) (z : RBNode K V)
    (cs : List (RedBlackSpec.TOp K V × Cmp K)) (hc : ∀ c ∈ cs, CmpTrue c.2) :
    ∃ (t : RedBlackTree K V M) (rs : List (Option (RedBlackSpec.TOut K V))),
      run rbCall (RedBlackTree.new z) cs = .ok (t, rs) ∧ rs.length = cs.length ∧
      run RedBlackSpec.call (RedBlackTree.new z) (completed cs rs) = .ok (t, rs.filterMap id) := by
  obtain ⟨t, rs, E, e, h, hs⟩ := RedBlackTree.rbRun_held hM hM0 z cs
  exact ⟨t, rs, e, run_length e, completed_run (fun c => CmpTrue c.2) rbCall_true cs _ _ _ hc e⟩

/-- C96 for the AVL tree with panics as the only deviation from `<` and `>` (any two relations). -/
theorem C96_avl_panics [LT K] [DecidableLT K] [PartialGt K] (hM0 : 0 < M) (hM : M + 1 < 2 ^ 32) (z : AVLNode K V)
    (cs : List (Op K V × Less K)) (hc : ∀ c ∈ cs, LessTrue c.2) :
    ∃ (t : AVLTree K V M) (rs : List (Option (Out K V))),
      run avlCall (AVLTree.new z) cs = .ok (t, rs) ∧ rs.length = cs.length ∧
      run AVLSpec.call (AVLTree.new z) (completed cs rs) = .ok (t, rs.filterMap id) := by
  obtain ⟨t, rs, E, e, h, hs⟩ := AVLTree.avlRun_held hM hM0 z cs
  exact ⟨t, rs, e, run_length e, completed_run (fun c => LessTrue c.2) avlCall_true cs _ _ _ hc e⟩

/-- C96 for the hash table with panics as the only deviation from a hash function and an `==` (any functions). -/
theorem C96_hash_panics [BEq K] (hash : K → Nat) (hB : 0 < B) (hM : M + 1 < 2 ^ 32) (z : HashNode K V)
    (cs : List (Op K V × Eqs K)) (hc : ∀ c ∈ cs, EqsTrue hash c) :
    ∃ (h : HashTable K V B M) (rs : List (Option (Out K V))),
      run hashCall (HashTable.new z) cs = .ok (h, rs) ∧ rs.length = cs.length ∧
      run (HashTableSpec.call hash) (HashTable.new z) (completed cs rs) = .ok (h, rs.filterMap id) := by
  obtain ⟨h, rs, E, e, _, hs⟩ := HashTable.hashRun_held hB hM z cs
  exact ⟨h, rs, e, run_length e, completed_run (EqsTrue hash) (hashCall_true hash) cs _ _ _ hc e⟩

/-! ### agreement with the other model files -/

/-- C96: with the answers of the instance, a call is the call of Model/RedBlack.lean, in every state. -/
theorem C96_rb_honest [Ord K] (t : RedBlackTree K V M) (op : RedBlackSpec.TOp K V) :
    rbCall t (op, cmpOf K) = (RedBlackSpec.call t op).map fun p => (p.1, some p.2) := by
  rw [rbCall_honest]
  cases RedBlackSpec.call t op <;> rfl

/-- C96: with the answers of `<` and `>`, a call is the call of Model/AVL.lean, in every state. -/
theorem C96_avl_honest [LT K] [DecidableLT K] [PartialGt K] (t : AVLTree K V M) (op : Op K V) :
    avlCall t (op, lessOf K) = (AVLSpec.call t op).map fun p => (p.1, some p.2) := by
  rw [avlCall_honest]
  cases AVLSpec.call t op <;> rfl

/-- C96: with the answers of the hash function and of `==`, a call is the call of Model/HashTable.lean, in every
state. -/
theorem C96_hash_honest [BEq K] (hash : K → Nat) (h : HashTable K V B M) (op : Op K V) :
    hashCall h (op, eqsOf hash op) = (HashTableSpec.call hash h op).map fun p => (p.1, some p.2) := by
  rw [hashCall_honest]
  cases HashTableSpec.call hash h op <;> rfl

/-! ### examples -/

deriving instance DecidableEq for Out, RedBlackSpec.TOut

/-- always the same answer -/
def say (r : Ordering) : Cmp Nat := fun _ _ _ => some r

/-- the answers of the instance, but the second comparison of the call panics -/
def fails : Cmp Nat := fun n a b => if n = 1 then none else some (compare a b)

/-- results of a history, and what `iter` yields afterwards (`n` calls of `next`) -/
def rbShow (n : Nat) (cs : List (RedBlackSpec.TOp Nat Nat × Cmp Nat)) :
    R (List (Option (RedBlackSpec.TOut Nat Nat)) × List (Option (Nat × Nat))) := do
  let (t, rs) ← run rbCall (RedBlackTree.new ⟨0, 0⟩ : RedBlackTree Nat Nat 4) cs
  let (_, l) ← drive (RedBlackTree.Iter.next t) (RedBlackTree.Iter.nextBack t) t.iter (List.replicate n .front)
  return (rs, l)

/-- A red-black tree under a comparison that changes its mind: 1 is stored twice, 3 before 1; a failing insertion and a
failing removal change nothing (the failure is in the second comparison, after one was answered), and the removal of 7
takes an entry of key 1. -/
example : rbShow 3
    [(.map (.insert 1 10), say .lt), (.map (.insert 1 11), say .lt), (.map (.insert 3 12), say .lt),
      (.map (.insert 9 13), fails), (.map (.remove 7), fails), (.map (.remove 7), say .eq), (.map (.getMut 5 id), say .gt)] =
    .ok ([some (.map (.inserted true)), some (.map (.inserted true)), some (.map (.inserted true)), none,
      none, some (.map (.removed (some 11))), some (.map (.got none))], [some (3, 12), some (1, 10), none]) := by
  decide +kernel

/-- `fails` satisfies the hypothesis of `C96_rb_panics` and does panic. -/
example : CmpTrue fails ∧ fails 1 0 0 = none := by
  refine ⟨fun n a b => ?_, rfl⟩
  unfold fails
  split
  · exact Or.inl rfl
  · exact Or.inr rfl

/-- The hypothesis of `C96_rb_unwind` is met by a tree with two entries: the panic is in the second comparison. -/
example : (do
    let (t, _) ← run rbCall (RedBlackTree.new ⟨0, 0⟩ : RedBlackTree Nat Nat 4)
      [(.map (.insert 1 10), cmpOf Nat), (.map (.insert 2 11), cmpOf Nat)]
    match rbDo fails (.map (.insert 3 12)) t with
    | .error .user _ => return true
    | _ => return false) = .ok true := by
  decide +kernel

/-- less than everything and greater than everything, by turns -/
def waver : Less Nat where
  lt n _ _ := some (n % 2 == 0)
  gt n _ _ := if n = 3 then none else some true

/-- results of a history, and what `iter` yields afterwards (`n` calls of `next`) -/
def avlShow (n : Nat) (cs : List (Op Nat Nat × Less Nat)) : R (List (Option (Out Nat Nat)) × List (Option (Nat × Nat))) := do
  let (t, rs) ← run avlCall (AVLTree.new ⟨0, 0⟩ : AVLTree Nat Nat 4) cs
  let (_, l) ← drive (AVLTree.Iter.next t) (AVLTree.Iter.nextBack t) t.iter (List.replicate n .front)
  return (rs, l)

/-- An AVL tree under comparisons that change from one iteration to the next. -/
example : avlShow 4
    [(.insert 1 10, waver), (.insert 1 11, waver), (.insert 1 12, waver), (.insert 1 13, lessOf Nat), (.remove 2, waver),
      (.remove 2, ⟨fun _ _ _ => some false, fun _ _ _ => none⟩)] =
    .ok ([some (.inserted true), some (.inserted true), some (.inserted true), some (.inserted true),
      some (.removed none), none], [some (1, 11), some (1, 13), some (1, 10), none]) := by
  decide +kernel

/-- results of a history, and what `iter` yields afterwards (`n` calls of `next`) -/
def hashShow (n : Nat) (cs : List (Op Nat Nat × Eqs Nat)) : R (List (Option (Out Nat Nat)) × List (Option (Nat × Nat))) := do
  let (h, rs) ← run hashCall (HashTable.new ⟨0, 0⟩ : HashTable Nat Nat 2 4) cs
  let (_, l) ← drive (HashTable.Iter.next h) HashTable.Iter.nextBack (← h.iter) (List.replicate n .front)
  return (rs, l)

/-- A hash table under a hash function that changes from one call to the next: 1 is stored twice, in two buckets; a
panic of the hashing and one of `==` change nothing. -/
example : hashShow 3
    [(.insert 1 10, ⟨some 0, fun _ a b => some (a == b)⟩), (.insert 1 11, ⟨some 1, fun _ a b => some (a == b)⟩),
      (.insert 2 12, ⟨none, fun _ a b => some (a == b)⟩), (.remove 1, ⟨some 1, fun _ _ _ => none⟩),
      (.getMut 7 (· + 1), ⟨some 5, fun _ _ _ => some true⟩)] =
    .ok ([some (.inserted true), some (.inserted true), none, none, some (.got (some 11))],
      [some (1, 10), some (1, 12), none]) := by
  decide +kernel

end Sokoban.Props
