import Verif.Proof.LikePar

/-
Corresponding structures: the functions outside the trait of the maps, crit-bit trees, hash tables and deques.
-/
namespace Sokoban
open MapSpec

variable {K K' V V' : Type} {RK : K → K' → Prop} {RV : V → V' → Prop} {B N M : Nat}

/-- Initial memory corresponds. -/
theorem NodeAllocator.like_new {T T' : Type} {P : T → T' → Prop} {z : T} {z' : T'} (h : P z z') :
    (NodeAllocator.new z : NodeAllocator T M N).Like P (NodeAllocator.new z') := by
  let p : Pr P := ⟨(z, z'), h⟩
  have e1 : (Par.map (new p : NodeAllocator _ M N) : NodeAllocator T M N) = new z := par_new p
  have e2 : (Par.map (new p : NodeAllocator _ M N) : NodeAllocator T' M N) = new z' := par_new p
  exact e1 ▸ e2 ▸ NodeAllocator.Like.joined (P := P) (fun y : Pr P => y.2) (new p)

namespace RedBlackTree

theorem like_removeRoot {t : RedBlackTree K V M} {t' : RedBlackTree K' V' M} (h : t.Like RK RV t') :
    BothDo (fun r r' => Like RK RV r.1 r'.1 ∧ Option.Rel (fun n n' => RK n.key n'.key ∧ RV n.value n'.value) r.2 r'.2)
      t.removeRoot t'.removeRoot := by
  obtain ⟨u, rfl, rfl⟩ := h.split
  exact .of_sim (par_removeRoot u _) (par_removeRoot u _) fun c => ⟨.joined c.1, opt_rel (fun n => ⟨n.key.2, n.value.2⟩) c.2⟩

theorem like_isValid {t : RedBlackTree K V M} {t' : RedBlackTree K' V' M} (h : t.Like RK RV t') : t'.isValid = t.isValid := by
  obtain ⟨u, rfl, rfl⟩ := h.split
  exact eq_of_sim (par_isValid u) (par_isValid u)

theorem like_getMin {t : RedBlackTree K V M} {t' : RedBlackTree K' V' M} (h : t.Like RK RV t') :
    BothDo (Option.Rel (EntryLike RK RV)) t.getMin t'.getMin := by
  obtain ⟨u, rfl, rfl⟩ := h.split
  exact .of_sim (par_getMin u) (par_getMin u) fun c => entry_rel c

theorem like_getMax {t : RedBlackTree K V M} {t' : RedBlackTree K' V' M} (h : t.Like RK RV t') :
    BothDo (Option.Rel (EntryLike RK RV)) t.getMax t'.getMax := by
  obtain ⟨u, rfl, rfl⟩ := h.split
  exact .of_sim (par_getMax u) (par_getMax u) fun c => entry_rel c

theorem like_getAddr [Ord K] [Ord K'] (hc : ∀ k k' l l', RK k k' → RK l l' → compare k' l' = compare k l)
    {t : RedBlackTree K V M} {t' : RedBlackTree K' V' M} {k : K} {k' : K'} (h : t.Like RK RV t') (hk : RK k k') :
    t'.getAddr k' = t.getAddr k := by
  let : Ord (Pr RK) := ⟨fun a b => compare a.1.1 b.1.1⟩
  have : ParOrd (Pr RK) K := ⟨fun a b => rfl⟩
  have : ParOrd (Pr RK) K' := ⟨fun a b => hc _ _ _ _ a.2 b.2⟩
  obtain ⟨u, rfl, rfl⟩ := h.split
  exact eq_of_sim (par_getAddr u (⟨(k, k'), hk⟩ : Pr RK)) (par_getAddr u ⟨(k, k'), hk⟩)

theorem like_call [Ord K] [Ord K'] (hc : ∀ k k' l l', RK k k' → RK l l' → compare k' l' = compare k l)
    (t : RedBlackTree K V M) (t' : RedBlackTree K' V' M) (op : RedBlackSpec.TOp K V) (op' : RedBlackSpec.TOp K' V')
    (h : t.Like RK RV t') (ho : RedBlackSpec.TOpLike RK RV op op') :
    BothDo (fun r r' => Like RK RV r.1 r'.1 ∧ RedBlackSpec.TOutLike RK RV r.2 r'.2) (RedBlackSpec.call t op)
      (RedBlackSpec.call t' op') := by
  cases ho with
  | map ho =>
    exact .bind ((like_api hc).call _ _ _ _ h ho) fun r r' hr => .mk_pure ⟨hr.1, .map hr.2⟩
  | removeRoot =>
    refine .bind (like_removeRoot h) fun r r' hr => .mk_pure ⟨hr.1, .root ?_⟩
    have := hr.2
    revert this
    generalize r.2 = o
    generalize r'.2 = o'
    intro ho
    cases ho with
    | none => exact .none
    | some h => exact .some h

end RedBlackTree

namespace AVLTree

theorem like_getMin {t : AVLTree K V M} {t' : AVLTree K' V' M} (h : t.Like RK RV t') :
    BothDo (Option.Rel (EntryLike RK RV)) t.getMin t'.getMin := by
  obtain ⟨u, rfl, rfl⟩ := h.split
  exact .of_sim (par_getMin u) (par_getMin u) fun c => entry_rel c

theorem like_getMax {t : AVLTree K V M} {t' : AVLTree K' V' M} (h : t.Like RK RV t') :
    BothDo (Option.Rel (EntryLike RK RV)) t.getMax t'.getMax := by
  obtain ⟨u, rfl, rfl⟩ := h.split
  exact .of_sim (par_getMax u) (par_getMax u) fun c => entry_rel c

theorem like_findMin {t : AVLTree K V M} {t' : AVLTree K' V' M} (h : t.Like RK RV t') :
    BothDo (Option.Rel RV) t.findMin t'.findMin := by
  obtain ⟨u, rfl, rfl⟩ := h.split
  exact .of_sim (par_findMin u) (par_findMin u) fun c => Pr.opt c

theorem like_findMax {t : AVLTree K V M} {t' : AVLTree K' V' M} (h : t.Like RK RV t') :
    BothDo (Option.Rel RV) t.findMax t'.findMax := by
  obtain ⟨u, rfl, rfl⟩ := h.split
  exact .of_sim (par_findMax u) (par_findMax u) fun c => Pr.opt c

theorem like_getAddr [LT K] [DecidableLT K] [PartialGt K] [LT K'] [DecidableLT K'] [PartialGt K']
    (hc : ∀ k k' l l', RK k k' → RK l l' → (k' < l' ↔ k < l) ∧ (PartialGt.gt k' l' ↔ PartialGt.gt k l))
    {t : AVLTree K V M} {t' : AVLTree K' V' M} {k : K} {k' : K'} (h : t.Like RK RV t') (hk : RK k k') :
    t'.getAddr k' = t.getAddr k := by
  let : LT (Pr RK) := ⟨fun a b => a.1.1 < b.1.1⟩
  let : DecidableLT (Pr RK) := fun a b => inferInstanceAs (Decidable (a.1.1 < b.1.1))
  let : PartialGt (Pr RK) := ⟨fun a b => PartialGt.gt a.1.1 b.1.1, fun a b => inferInstanceAs (Decidable (PartialGt.gt a.1.1 b.1.1))⟩
  have : ParCmp (Pr RK) K := ⟨fun a b => Iff.rfl, fun a b => Iff.rfl⟩
  have : ParCmp (Pr RK) K' := ⟨fun a b => (hc _ _ _ _ a.2 b.2).1, fun a b => (hc _ _ _ _ a.2 b.2).2⟩
  obtain ⟨u, rfl, rfl⟩ := h.split
  exact eq_of_sim (par_getAddr u (⟨(k, k'), hk⟩ : Pr RK)) (par_getAddr u ⟨(k, k'), hk⟩)

end AVLTree

namespace Critbit

theorem like_api : Api.Like (fun k k' => k' = k) RV (Like RV) (CritbitSpec.api : Api (Critbit V N M) (BitVec 128) V)
    (CritbitSpec.api : Api (Critbit V' N M) (BitVec 128) V') (fun i i' => i' = i) (fun r r' => r' = r) := by
  refine ⟨?_, ?_, ?_, ?_, ?_, ?_, ?_, ?_, ?_, ?_, ?_, ?_, ?_, ?_, ?_, ?_, ?_⟩
  · rintro s s' k k' v v' hs rfl hv
    obtain ⟨u, rfl, rfl⟩ := hs.split
    exact .of_sim (par_insert u _ (⟨(v, v'), hv⟩ : Pr RV)) (par_insert u _ ⟨(v, v'), hv⟩) fun c => ⟨.joined c.1, rfl⟩
  · rintro s s' k k' hs rfl
    obtain ⟨u, rfl, rfl⟩ := hs.split
    exact .of_sim (par_remove u _) (par_remove u _) fun c => ⟨.joined c.1, Pr.opt c.2⟩
  · rintro s s' k k' hs rfl
    obtain ⟨u, rfl, rfl⟩ := hs.split
    exact .of_sim (par_get u _) (par_get u _) fun c => Pr.opt c
  · rintro s s' k k' hs rfl
    obtain ⟨u, rfl, rfl⟩ := hs.split
    exact eq_of_sim (par_contains u _) (par_contains u _)
  · rintro s s' k k' hs rfl
    obtain ⟨u, rfl, rfl⟩ := hs.split
    exact .of_sim (par_index u _) (par_index u _) fun c => c.2
  · rintro s s' k k' hs rfl
    obtain ⟨u, rfl, rfl⟩ := hs.split
    exact eq_of_sim (par_getMut u _) (par_getMut u _)
  · intro s s' hs
    obtain ⟨u, rfl, rfl⟩ := hs.split
    rfl
  · intro s s' hs
    obtain ⟨u, rfl, rfl⟩ := hs.split
    rfl
  · intro s s' hs
    obtain ⟨u, rfl, rfl⟩ := hs.split
    rfl
  · rintro s s' i i' hs rfl
    obtain ⟨u, rfl, rfl⟩ := hs.split
    exact .of_sim (α := Iter × Option (BitVec 128 × V)) (β := Iter × Option (BitVec 128 × V')) (par_Iter_next u _)
      (par_Iter_next u _) fun c => ⟨rfl, opt_rel (fun e => ⟨rfl, e.2.2⟩) c.2⟩
  · rintro s s' i i' hs rfl
    obtain ⟨u, rfl, rfl⟩ := hs.split
    exact .of_sim (α := Iter × Option (BitVec 128 × V)) (β := Iter × Option (BitVec 128 × V')) (par_Iter_nextBack u _)
      (par_Iter_nextBack u _) fun c => ⟨rfl, opt_rel (fun e => ⟨rfl, e.2.2⟩) c.2⟩
  · rintro r r' rfl
    rfl
  · rintro s s' i i' hs rfl
    obtain ⟨u, rfl, rfl⟩ := hs.split
    exact .of_sim (α := Iter × Option (Nat × Nat)) (β := Iter × Option (Nat × Nat)) (par_Iter_nextMut u _)
      (par_Iter_nextMut u _) fun c => ⟨rfl, opt_eq _⟩
  · rintro s s' i i' hs rfl
    obtain ⟨u, rfl, rfl⟩ := hs.split
    exact .of_sim (α := Iter × Option (Nat × Nat)) (β := Iter × Option (Nat × Nat)) (par_Iter_nextBackMut u _)
      (par_Iter_nextBackMut u _) fun c => ⟨rfl, opt_eq _⟩
  · rintro s s' r r' hs rfl
    obtain ⟨u, rfl, rfl⟩ := hs.split
    exact .bind (.of_sim (P := RV) (par_getLeaf u _) (par_getLeaf u _) fun c => c.2) fun v v' hv =>
      .bind (.of_eq (eq_of_sim (par_getKey u _) (par_getKey u _))) fun k k' hk => .mk_pure ⟨hk, hv⟩
  · rintro s s' i hs
    obtain ⟨u, rfl, rfl⟩ := hs.split
    exact .of_sim (P := RV) (par_getLeaf u _) (par_getLeaf u _) fun c => c.2
  · intro s s' i v v' hs hv
    obtain ⟨u, rfl, rfl⟩ := hs.split
    exact .of_sim (par_replaceLeaf u _ (⟨(v, v'), hv⟩ : Pr RV)) (par_replaceLeaf u _ ⟨(v, v'), hv⟩) fun c => .joined c

theorem like_getMin {t : Critbit V N M} {t' : Critbit V' N M} (h : t.Like RV t') :
    BothDo (Option.Rel (EntryLike (fun k k' => k' = k) RV)) t.getMin t'.getMin := by
  obtain ⟨u, rfl, rfl⟩ := h.split
  exact .of_sim (par_getMin u) (par_getMin u) fun c => opt_rel (fun e => ⟨rfl, e.2.2⟩) c

theorem like_getMax {t : Critbit V N M} {t' : Critbit V' N M} (h : t.Like RV t') :
    BothDo (Option.Rel (EntryLike (fun k k' => k' = k) RV)) t.getMax t'.getMax := by
  obtain ⟨u, rfl, rfl⟩ := h.split
  exact .of_sim (par_getMax u) (par_getMax u) fun c => opt_rel (fun e => ⟨rfl, e.2.2⟩) c

theorem like_getAddr {t : Critbit V N M} {t' : Critbit V' N M} (h : t.Like RV t') (k : BitVec 128) :
    t'.getAddr k = t.getAddr k := by
  obtain ⟨u, rfl, rfl⟩ := h.split
  exact eq_of_sim (par_getAddr u _) (par_getAddr u _)

end Critbit

namespace HashTable
variable [BEq K] [BEq K'] {hash : K → Nat} {hash' : K' → Nat}

/-- The assumptions about keys: `==` agrees, and so do the buckets. -/
theorem like_insert (he : ∀ k k' l l', RK k k' → RK l l' → (k' == l') = (k == l))
    (hh : ∀ k k', RK k k' → hash' k' % B = hash k % B) {h : HashTable K V B M} {h' : HashTable K' V' B M} {k k' v v'}
    (hl : h.Like RK RV h') (hk : RK k k') (hv : RV v v') :
    BothDo (fun r r' => Like RK RV r.1 r'.1 ∧ r'.2 = r.2) (h.insert hash k v) (h'.insert hash' k' v') := by
  let : BEq (Pr RK) := ⟨fun a b => a.1.1 == b.1.1⟩
  have : ParEq (Pr RK) K := ⟨fun a b => rfl⟩
  have : ParEq (Pr RK) K' := ⟨fun a b => he _ _ _ _ a.2 b.2⟩
  have : ParHash B (fun k : Pr RK => hash k.1.1) hash := ⟨fun a => rfl⟩
  have : ParHash B (fun k : Pr RK => hash k.1.1) hash' := ⟨fun a => hh _ _ a.2⟩
  obtain ⟨u, rfl, rfl⟩ := hl.split
  exact .of_sim (par_insert (fun k : Pr RK => hash k.1.1) hash u (⟨(k, k'), hk⟩ : Pr RK) (⟨(v, v'), hv⟩ : Pr RV))
    (par_insert _ hash' u ⟨(k, k'), hk⟩ ⟨(v, v'), hv⟩) fun c => ⟨.joined c.1, rfl⟩

theorem like_remove (he : ∀ k k' l l', RK k k' → RK l l' → (k' == l') = (k == l))
    (hh : ∀ k k', RK k k' → hash' k' % B = hash k % B) {h : HashTable K V B M} {h' : HashTable K' V' B M} {k k'}
    (hl : h.Like RK RV h') (hk : RK k k') :
    BothDo (fun r r' => Like RK RV r.1 r'.1 ∧ Option.Rel RV r.2 r'.2) (h.remove hash k) (h'.remove hash' k') := by
  let : BEq (Pr RK) := ⟨fun a b => a.1.1 == b.1.1⟩
  have : ParEq (Pr RK) K := ⟨fun a b => rfl⟩
  have : ParEq (Pr RK) K' := ⟨fun a b => he _ _ _ _ a.2 b.2⟩
  have : ParHash B (fun k : Pr RK => hash k.1.1) hash := ⟨fun a => rfl⟩
  have : ParHash B (fun k : Pr RK => hash k.1.1) hash' := ⟨fun a => hh _ _ a.2⟩
  obtain ⟨u, rfl, rfl⟩ := hl.split
  exact .of_sim (par_remove (fun k : Pr RK => hash k.1.1) hash u (⟨(k, k'), hk⟩ : Pr RK))
    (par_remove _ hash' u ⟨(k, k'), hk⟩) fun c => ⟨.joined c.1, Pr.opt c.2⟩

theorem like_getMut (he : ∀ k k' l l', RK k k' → RK l l' → (k' == l') = (k == l))
    (hh : ∀ k k', RK k k' → hash' k' % B = hash k % B) {h : HashTable K V B M} {h' : HashTable K' V' B M} {k k'}
    (hl : h.Like RK RV h') (hk : RK k k') :
    BothDo (fun r r' => Like RK RV r.1 r'.1 ∧ r'.2 = r.2) (h.getMut hash k) (h'.getMut hash' k') := by
  let : BEq (Pr RK) := ⟨fun a b => a.1.1 == b.1.1⟩
  have : ParEq (Pr RK) K := ⟨fun a b => rfl⟩
  have : ParEq (Pr RK) K' := ⟨fun a b => he _ _ _ _ a.2 b.2⟩
  have : ParHash B (fun k : Pr RK => hash k.1.1) hash := ⟨fun a => rfl⟩
  have : ParHash B (fun k : Pr RK => hash k.1.1) hash' := ⟨fun a => hh _ _ a.2⟩
  obtain ⟨u, rfl, rfl⟩ := hl.split
  exact .of_sim (par_getMut (fun k : Pr RK => hash k.1.1) hash u (⟨(k, k'), hk⟩ : Pr RK))
    (par_getMut _ hash' u ⟨(k, k'), hk⟩) fun c => ⟨.joined c.1, rfl⟩

theorem like_reads (he : ∀ k k' l l', RK k k' → RK l l' → (k' == l') = (k == l))
    (hh : ∀ k k', RK k k' → hash' k' % B = hash k % B) {h : HashTable K V B M} {h' : HashTable K' V' B M} {k k'}
    (hl : h.Like RK RV h') (hk : RK k k') :
    BothDo (Option.Rel RV) (h.get hash k) (h'.get hash' k') ∧ h'.contains hash' k' = h.contains hash k ∧
    h'.containsInherent hash' k' = h.containsInherent hash k ∧
    h'.getAddr hash' k' = h.getAddr hash k ∧ BothDo RV (h.index hash k) (h'.index hash' k') := by
  let : BEq (Pr RK) := ⟨fun a b => a.1.1 == b.1.1⟩
  have : ParEq (Pr RK) K := ⟨fun a b => rfl⟩
  have : ParEq (Pr RK) K' := ⟨fun a b => he _ _ _ _ a.2 b.2⟩
  have : ParHash B (fun k : Pr RK => hash k.1.1) hash := ⟨fun a => rfl⟩
  have : ParHash B (fun k : Pr RK => hash k.1.1) hash' := ⟨fun a => hh _ _ a.2⟩
  obtain ⟨u, rfl, rfl⟩ := hl.split
  refine ⟨?_, ?_, ?_, ?_, ?_⟩
  · exact .of_sim (par_get (fun k : Pr RK => hash k.1.1) hash u (⟨(k, k'), hk⟩ : Pr RK))
      (par_get _ hash' u ⟨(k, k'), hk⟩) fun c => Pr.opt c
  · exact eq_of_sim (par_contains (fun k : Pr RK => hash k.1.1) hash u (⟨(k, k'), hk⟩ : Pr RK))
      (par_contains _ hash' u ⟨(k, k'), hk⟩)
  · exact eq_of_sim (par_containsInherent (fun k : Pr RK => hash k.1.1) hash u (⟨(k, k'), hk⟩ : Pr RK))
      (par_containsInherent _ hash' u ⟨(k, k'), hk⟩)
  · exact eq_of_sim (par_getAddr (fun k : Pr RK => hash k.1.1) hash u (⟨(k, k'), hk⟩ : Pr RK))
      (par_getAddr _ hash' u ⟨(k, k'), hk⟩)
  · exact .of_sim (par_index (fun k : Pr RK => hash k.1.1) hash u (⟨(k, k'), hk⟩ : Pr RK))
      (par_index _ hash' u ⟨(k, k'), hk⟩) fun c => c.2

omit [BEq K] [BEq K']

theorem like_getNode {h : HashTable K V B M} {h' : HashTable K' V' B M} (hl : h.Like RK RV h') (i : Nat) :
    BothDo (fun n n' => RK n.key n'.key ∧ RV n.value n'.value) (h.getNode i) (h'.getNode i) := by
  obtain ⟨u, rfl, rfl⟩ := hl.split
  exact .of_sim (par_getNode u i) (par_getNode u i) fun c => ⟨c.key.2, c.value.2⟩

theorem like_write {h : HashTable K V B M} {h' : HashTable K' V' B M} {v v'} (hl : h.Like RK RV h') (i : Nat) (hv : RV v v') :
    BothDo (Like RK RV) (h.setNodeValue i v) (h'.setNodeValue i v') := by
  obtain ⟨u, rfl, rfl⟩ := hl.split
  exact .of_sim (par_setNodeValue u i (⟨(v, v'), hv⟩ : Pr RV)) (par_setNodeValue u i ⟨(v, v'), hv⟩) fun c => .joined c

theorem like_iter {h : HashTable K V B M} {h' : HashTable K' V' B M} (hl : h.Like RK RV h') : h'.iter = h.iter := by
  obtain ⟨u, rfl, rfl⟩ := hl.split
  exact eq_of_sim (par_iter u) (par_iter u)

theorem like_next {h : HashTable K V B M} {h' : HashTable K' V' B M} (hl : h.Like RK RV h') (i i' : Iter) (hi : i' = i) :
    BothDo (fun r r' => r'.1 = r.1 ∧ Option.Rel (EntryLike RK RV) r.2 r'.2) (Iter.next h i) (Iter.next h' i') := by
  subst hi
  obtain ⟨u, rfl, rfl⟩ := hl.split
  exact .of_sim (par_Iter_next u _) (par_Iter_next u _) fun c => ⟨rfl, entry_rel c.2⟩

theorem like_nextMut {h : HashTable K V B M} {h' : HashTable K' V' B M} (hl : h.Like RK RV h') (i i' : Iter) (hi : i' = i) :
    BothDo (fun r r' => r'.1 = r.1 ∧ Option.Rel (fun a b => b = a) r.2 r'.2) (Iter.nextMut h i) (Iter.nextMut h' i') := by
  subst hi
  obtain ⟨u, rfl, rfl⟩ := hl.split
  exact .of_sim (par_Iter_nextMut u _) (par_Iter_nextMut u _) fun c => ⟨rfl, opt_eq _⟩

theorem like_call [BEq K] [BEq K'] (he : ∀ k k' l l', RK k k' → RK l l' → (k' == l') = (k == l))
    (hh : ∀ k k', RK k k' → hash' k' % B = hash k % B) (h : HashTable K V B M) (h' : HashTable K' V' B M) (op : Op K V)
    (op' : Op K' V') (hl : h.Like RK RV h') (ho : OpLike RK RV op op') :
    BothDo (fun r r' => Like RK RV r.1 r'.1 ∧ OutLike RK RV r.2 r'.2) (HashTableSpec.call hash h op)
      (HashTableSpec.call hash' h' op') := by
  cases ho with
  | insert hk hv =>
    refine .bind (like_insert he hh hl hk hv) ?_
    intro r r' hr
    refine .mk_pure ⟨hr.1, ?_⟩
    dsimp only
    rw [hr.2]
    exact .inserted
  | remove hk =>
    exact .bind (like_remove he hh hl hk) fun r r' hr => .mk_pure ⟨hr.1, .removed hr.2⟩
  | getMut hk hf =>
    refine .bind (P := fun r r' => Like RK RV r.1 r'.1 ∧ Option.Rel RV r.2 r'.2) ?_ ?_
    · unfold HashTableSpec.getMutWrite
      refine .bind (like_getMut he hh hl hk) ?_
      rintro ⟨h1, i⟩ ⟨h1', i'⟩ ⟨hs, hi⟩
      dsimp only at hi hs ⊢
      subst i'
      cases i with
      | none => exact .mk_pure ⟨hs, .none⟩
      | some i =>
        refine .bind (like_getNode hs i) ?_
        intro n n' hn
        refine .bind (like_write hs i (hf _ _ hn.2)) ?_
        intro s1 s1' hs1
        exact .mk_pure ⟨hs1, .some hn.2⟩
    · intro r r' hr
      exact .mk_pure ⟨hr.1, .got hr.2⟩
  | iterMut hes =>
    refine .bind (P := fun r r' => Like RK RV r.1 r'.1 ∧ r'.2.1 = r.2.1 ∧
      List.Forall₂ (Option.Rel fun x x' => x'.1 = x.1 ∧ EntryLike RK RV x.2 x'.2) r.2.2 r'.2.2) ?_ ?_
    · unfold HashTableSpec.iterMut
      refine .bind (.of_eq (like_iter hl)) ?_
      intro i i' hi
      refine driveMut_like (RS := Like RK RV) (RI := fun i i' => i' = i) (RP := fun i i' => i' = i) (RE := EntryLike RK RV)
        ?_ ?_ ?_ ?_ (script_like hes) hl hi
      · exact fun s s' i i' hs hi => like_nextMut hs i i' hi
      · exact fun s s' i i' hs hi => .mk ⟨hi, .none⟩
      · intro s s' p p' hs hp
        subst p'
        exact .bind (like_getNode hs p) fun n n' hn => .mk_pure ⟨hn.1, hn.2⟩
      · intro s s' p p' e e' hs hp he
        subst p'
        exact like_write hs p he.2
    · intro r r' hr
      exact .mk_pure ⟨hr.1, seen_like (RP := fun i i' => i' = i) hr.2.2⟩

end HashTable

namespace Deque

theorem like_push {d : Deque V M} {d' : Deque V' M} {v v'} (h : d.Like RV d') (hv : RV v v') :
    BothDo (Like RV) (d.pushBack v) (d'.pushBack v') ∧ BothDo (Like RV) (d.pushFront v) (d'.pushFront v') := by
  obtain ⟨u, rfl, rfl⟩ := h.split
  exact ⟨.of_sim (par_pushBack u (⟨(v, v'), hv⟩ : Pr RV)) (par_pushBack u ⟨(v, v'), hv⟩) fun c => .joined c,
    .of_sim (par_pushFront u (⟨(v, v'), hv⟩ : Pr RV)) (par_pushFront u ⟨(v, v'), hv⟩) fun c => .joined c⟩

theorem like_pop {d : Deque V M} {d' : Deque V' M} (h : d.Like RV d') :
    BothDo (fun r r' => Like RV r.1 r'.1 ∧ Option.Rel RV r.2 r'.2) d.popBack d'.popBack ∧
    BothDo (fun r r' => Like RV r.1 r'.1 ∧ Option.Rel RV r.2 r'.2) d.popFront d'.popFront := by
  obtain ⟨u, rfl, rfl⟩ := h.split
  exact ⟨.of_sim (par_popBack u) (par_popBack u) fun c => ⟨.joined c.1, Pr.opt c.2⟩,
    .of_sim (par_popFront u) (par_popFront u) fun c => ⟨.joined c.1, Pr.opt c.2⟩⟩

theorem like_ends {d : Deque V M} {d' : Deque V' M} (h : d.Like RV d') :
    BothDo (Option.Rel RV) d.front d'.front ∧ BothDo (Option.Rel RV) d.back d'.back := by
  obtain ⟨u, rfl, rfl⟩ := h.split
  exact ⟨.of_sim (par_front u) (par_front u) fun c => Pr.opt c, .of_sim (par_back u) (par_back u) fun c => Pr.opt c⟩

theorem like_getNode {d : Deque V M} {d' : Deque V' M} (h : d.Like RV d') (i : Nat) :
    BothDo RV (d.getNode i) (d'.getNode i) := by
  obtain ⟨u, rfl, rfl⟩ := h.split
  exact .of_sim (par_getNode u i) (par_getNode u i) fun c => c.2

theorem like_writeSlot {d : Deque V M} {d' : Deque V' M} {v v'} (h : d.Like RV d') (i : Nat) (hv : RV v v') :
    BothDo (Like RV) (d.writeSlot i v) (d'.writeSlot i v') := by
  obtain ⟨u, rfl, rfl⟩ := h.split
  exact .of_sim (par_writeSlot u i (⟨(v, v'), hv⟩ : Pr RV)) (par_writeSlot u i ⟨(v, v'), hv⟩) fun c => .joined c

theorem like_next {d : Deque V M} {d' : Deque V' M} (h : d.Like RV d') (i i' : Iter) (hi : i' = i) :
    BothDo (fun r r' => r'.1 = r.1 ∧ Option.Rel (fun e e' => e'.1 = e.1 ∧ RV e.2 e'.2) r.2 r'.2) (Iter.next d i)
      (Iter.next d' i') := by
  subst hi
  obtain ⟨u, rfl, rfl⟩ := h.split
  exact .of_sim (par_Iter_next u _) (par_Iter_next u _) fun c => ⟨rfl, opt_rel (fun e => ⟨rfl, e.2.2⟩) c.2⟩

theorem like_nextBack {d : Deque V M} {d' : Deque V' M} (h : d.Like RV d') (i i' : Iter) (hi : i' = i) :
    BothDo (fun r r' => r'.1 = r.1 ∧ Option.Rel (fun e e' => e'.1 = e.1 ∧ RV e.2 e'.2) r.2 r'.2) (Iter.nextBack d i)
      (Iter.nextBack d' i') := by
  subst hi
  obtain ⟨u, rfl, rfl⟩ := h.split
  exact .of_sim (par_Iter_nextBack u _) (par_Iter_nextBack u _) fun c => ⟨rfl, opt_rel (fun e => ⟨rfl, e.2.2⟩) c.2⟩

theorem like_nextMut {d : Deque V M} {d' : Deque V' M} (h : d.Like RV d') (i i' : Iter) (hi : i' = i) :
    BothDo (fun r r' => r'.1 = r.1 ∧ Option.Rel (fun a b => b = a) r.2 r'.2) (Iter.nextMut d i) (Iter.nextMut d' i') := by
  subst hi
  obtain ⟨u, rfl, rfl⟩ := h.split
  exact .of_sim (par_Iter_nextMut u _) (par_Iter_nextMut u _) fun c => ⟨rfl, opt_eq _⟩

theorem like_nextBackMut {d : Deque V M} {d' : Deque V' M} (h : d.Like RV d') (i i' : Iter) (hi : i' = i) :
    BothDo (fun r r' => r'.1 = r.1 ∧ Option.Rel (fun a b => b = a) r.2 r'.2) (Iter.nextBackMut d i)
      (Iter.nextBackMut d' i') := by
  subst hi
  obtain ⟨u, rfl, rfl⟩ := h.split
  exact .of_sim (par_Iter_nextBackMut u _) (par_Iter_nextBackMut u _) fun c => ⟨rfl, opt_eq _⟩

theorem like_call (d : Deque V M) (d' : Deque V' M) (op : DequeSpec.Op V) (op' : DequeSpec.Op V') (h : d.Like RV d')
    (ho : DequeSpec.OpLike RV op op') :
    BothDo (fun r r' => Like RV r.1 r'.1 ∧ DequeSpec.OutLike RV r.2 r'.2) (DequeSpec.call d op) (DequeSpec.call d' op') := by
  cases ho with
  | pushBack hv => exact .bind (like_push h hv).1 fun r r' hr => .mk_pure ⟨hr, .unit⟩
  | pushFront hv => exact .bind (like_push h hv).2 fun r r' hr => .mk_pure ⟨hr, .unit⟩
  | popBack => exact .bind (like_pop h).1 fun r r' hr => .mk_pure ⟨hr.1, .popped hr.2⟩
  | popFront => exact .bind (like_pop h).2 fun r r' hr => .mk_pure ⟨hr.1, .popped hr.2⟩
  | iterMut hes =>
    refine .bind (driveMut_like (RS := Like RV) (RI := fun i i' => i' = i) (RP := fun i i' => i' = i) (RE := RV)
        ?_ ?_ ?_ ?_ hes h ?_) ?_
    · exact fun s s' i i' hs hi => like_nextMut hs i i' hi
    · exact fun s s' i i' hs hi => like_nextBackMut hs i i' hi
    · intro s s' p p' hs hp
      subst p'
      exact like_getNode hs p
    · intro s s' p p' e e' hs hp he
      subst p'
      exact like_writeSlot hs p he
    · obtain ⟨u, rfl, rfl⟩ := h.split
      rfl
    · rintro ⟨d1, i1, l⟩ ⟨d1', i1', l'⟩ ⟨h1, h2, h3⟩
      refine .mk_pure ⟨h1, .seen ?_⟩
      dsimp only at h3
      clear h1 h2
      induction h3 with
      | nil => exact .nil
      | cons h _ ih =>
        refine .cons ?_ ih
        cases h with
        | none => exact .none
        | some h => exact .some h.2

end Deque
end Sokoban
