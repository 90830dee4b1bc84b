import Verif.Proof.LikeRank

/-
Property C90: only the comparisons of keys matter, and values never do. Two structures with the same links and counters,
whose keys compare in the same way, stay so under corresponding calls, on arbitrary memory and for arbitrary, even
inconsistent, comparisons. So small natural numbers are enough as keys.
-/
namespace Sokoban.Props
open MapSpec
variable {K K' V V' : Type} {RK : K → K' → Prop} {RV : V → V' → Prop} {B N M : Nat}

/-! ### Red-black trees -/

/-- **C90** (red-black tree): every function of the trait does the same on corresponding trees, with the same addresses. -/
theorem C90_rb_trait [Ord K] [Ord K'] (hc : ∀ k k' l l', RK k k' → RK l l' → compare k' l' = compare k l) :
    Api.Like RK RV (RedBlackTree.Like RK RV) (RedBlackSpec.api : Api (RedBlackTree K V M) K V)
      (RedBlackSpec.api : Api (RedBlackTree K' V' M) K' V') (fun i i' => i' = i) (fun r r' => r' = r) :=
  RedBlackTree.like_api hc

/-- **C90** (red-black tree): so does every history of calls, `remove_root` included. -/
theorem C90_rb_run [Ord K] [Ord K'] (hc : ∀ k k' l l', RK k k' → RK l l' → compare k' l' = compare k l)
    {t : RedBlackTree K V M} {t' : RedBlackTree K' V' M} {ops ops'} (h : t.Like RK RV t')
    (ho : List.Forall₂ (RedBlackSpec.TOpLike RK RV) ops ops') :
    BothDo (fun r r' => r.1.Like RK RV r'.1 ∧ List.Forall₂ (RedBlackSpec.TOutLike RK RV) r.2 r'.2)
      (run RedBlackSpec.call t ops) (run RedBlackSpec.call t' ops') :=
  run_like (RedBlackTree.like_call hc) ho h

/-- **C90** (red-black tree): so do iteration, `get_min`, `get_max`, `get_addr` and `is_valid_red_black_tree`. -/
theorem C90_rb_reads [Ord K] [Ord K'] (hc : ∀ k k' l l', RK k k' → RK l l' → compare k' l' = compare k l)
    {t : RedBlackTree K V M} {t' : RedBlackTree K' V' M} (h : t.Like RK RV t') :
    (∀ es, BothDo (fun r r' => r'.1 = r.1 ∧ List.Forall₂ (Option.Rel (EntryLike RK RV)) r.2 r'.2)
      (drive (RedBlackTree.Iter.next t) (RedBlackTree.Iter.nextBack t) t.iter es)
      (drive (RedBlackTree.Iter.next t') (RedBlackTree.Iter.nextBack t') t'.iter es)) ∧
    BothDo (Option.Rel (EntryLike RK RV)) t.getMin t'.getMin ∧
    BothDo (Option.Rel (EntryLike RK RV)) t.getMax t'.getMax ∧
    (∀ k k', RK k k' → t'.getAddr k' = t.getAddr k) ∧ t'.isValid = t.isValid :=
  have L := RedBlackTree.like_api (RV := RV) (M := M) hc
  ⟨fun es => drive_like (RI := fun i i' => i' = i) (fun i i' => L.next _ _ i i' h) (fun i i' => L.nextBack _ _ i i' h) es
    (L.iter _ _ h), RedBlackTree.like_getMin h, RedBlackTree.like_getMax h,
    fun _ _ hk => RedBlackTree.like_getAddr hc h hk, RedBlackTree.like_isValid h⟩

/-- **C90** (red-black tree): new trees correspond if their initial contents do. -/
theorem C90_rb_new {z : RBNode K V} {z' : RBNode K' V'} (hk : RK z.key z'.key) (hv : RV z.value z'.value) :
    (RedBlackTree.new z : RedBlackTree K V M).Like RK RV (RedBlackTree.new z') :=
  ⟨rfl, NodeAllocator.like_new ⟨hk, hv⟩⟩

/-- **C90** (red-black tree): whatever the keys are, a history of `n` calls on a new tree does the same, up to an order
preserving renaming of the keys, as a history whose keys are natural numbers up to `n`. -/
theorem C90_rb_small_keys [LinearOrder K] (z : RBNode K V) (ops : List (RedBlackSpec.TOp K V)) :
    ∃ (RK : K → Nat → Prop) (z' : RBNode Nat V) (ops' : List (RedBlackSpec.TOp Nat V)),
      (∀ k n, RK k n → n ≤ ops.length) ∧ (∀ k m l n, RK k m → RK l n → (m < n ↔ k < l)) ∧
      RK z.key z'.key ∧ z'.value = z.value ∧ List.Forall₂ (RedBlackSpec.TOpLike RK Eq) ops ops' ∧
      BothDo (fun r r' => r.1.Like RK Eq r'.1 ∧ List.Forall₂ (RedBlackSpec.TOutLike RK Eq) r.2 r'.2)
        (run RedBlackSpec.call (RedBlackTree.new z : RedBlackTree K V M) ops)
        (run RedBlackSpec.call (RedBlackTree.new z' : RedBlackTree Nat V M) ops') := by
  have hz : IsRank (keySet topKey z.key ops) z.key (rank (keySet topKey z.key ops) z.key) := ⟨zero_keySet, rfl⟩
  have ho : List.Forall₂ (RedBlackSpec.TOpLike (IsRank (keySet topKey z.key ops)) Eq) ops (ops.map (rankTOp _)) :=
    forall₂_map fun o ho => rankTOp_like fun k hk => mem_keySet ho hk
  refine ⟨IsRank (keySet topKey z.key ops), ⟨rank (keySet topKey z.key ops) z.key, z.value⟩, _, ?_, ?_, hz, rfl, ho, ?_⟩
  · rintro k n ⟨hk, rfl⟩
    have h1 := rank_bound hk
    have h2 := keySet_card (key := topKey) (fun o => by cases o with
      | map op => exact opKey_length op
      | removeRoot => exact Nat.zero_le _) z.key ops
    omega
  · exact fun k m l n hk hl => hk.lt_iff hl
  · exact C90_rb_run (fun k m l n hk hl => hk.compare hl) (C90_rb_new hz rfl) ho

/-! ### AVL trees -/

/-- **C90** (AVL tree): every function of the trait does the same on corresponding trees, with the same addresses. -/
theorem C90_avl_trait [LT K] [DecidableLT K] [PartialGt K] [LT K'] [DecidableLT K'] [PartialGt K']
    (hc : ∀ k k' l l', RK k k' → RK l l' → (k' < l' ↔ k < l) ∧ (PartialGt.gt k' l' ↔ PartialGt.gt k l)) :
    Api.Like RK RV (AVLTree.Like RK RV) (AVLSpec.api : Api (AVLTree K V M) K V)
      (AVLSpec.api : Api (AVLTree K' V' M) K' V') (fun i i' => i' = i) (fun r r' => r' = r) :=
  AVLTree.like_api hc

/-- **C90** (AVL tree): so does every history of calls. -/
theorem C90_avl_run [LT K] [DecidableLT K] [PartialGt K] [LT K'] [DecidableLT K'] [PartialGt K']
    (hc : ∀ k k' l l', RK k k' → RK l l' → (k' < l' ↔ k < l) ∧ (PartialGt.gt k' l' ↔ PartialGt.gt k l))
    {t : AVLTree K V M} {t' : AVLTree K' V' M} {ops ops'} (h : t.Like RK RV t') (ho : List.Forall₂ (OpLike RK RV) ops ops') :
    BothDo (fun r r' => r.1.Like RK RV r'.1 ∧ List.Forall₂ (OutLike RK RV) r.2 r'.2)
      (run AVLSpec.call t ops) (run AVLSpec.call t' ops') :=
  run_like (AVLTree.like_api hc).call ho h

/-- **C90** (AVL tree): so do iteration, `get_min`, `get_max`, `find_min`, `find_max` and `get_addr`. -/
theorem C90_avl_reads [LT K] [DecidableLT K] [PartialGt K] [LT K'] [DecidableLT K'] [PartialGt K']
    (hc : ∀ k k' l l', RK k k' → RK l l' → (k' < l' ↔ k < l) ∧ (PartialGt.gt k' l' ↔ PartialGt.gt k l))
    {t : AVLTree K V M} {t' : AVLTree K' V' M} (h : t.Like RK RV t') :
    (∀ es, BothDo (fun r r' => r'.1 = r.1 ∧ List.Forall₂ (Option.Rel (EntryLike RK RV)) r.2 r'.2)
      (drive (AVLTree.Iter.next t) (AVLTree.Iter.nextBack t) t.iter es)
      (drive (AVLTree.Iter.next t') (AVLTree.Iter.nextBack t') t'.iter es)) ∧
    BothDo (Option.Rel (EntryLike RK RV)) t.getMin t'.getMin ∧
    BothDo (Option.Rel (EntryLike RK RV)) t.getMax t'.getMax ∧
    BothDo (Option.Rel RV) t.findMin t'.findMin ∧ BothDo (Option.Rel RV) t.findMax t'.findMax ∧
    (∀ k k', RK k k' → t'.getAddr k' = t.getAddr k) :=
  have L := AVLTree.like_api (RV := RV) (M := M) hc
  ⟨fun es => drive_like (RI := fun i i' => i' = i) (fun i i' => L.next _ _ i i' h) (fun i i' => L.nextBack _ _ i i' h) es
    (L.iter _ _ h), AVLTree.like_getMin h, AVLTree.like_getMax h, AVLTree.like_findMin h, AVLTree.like_findMax h,
    fun _ _ hk => AVLTree.like_getAddr hc h hk⟩

/-- **C90** (AVL tree): new trees correspond if their initial contents do. -/
theorem C90_avl_new {z : AVLNode K V} {z' : AVLNode K' V'} (hk : RK z.key z'.key) (hv : RV z.value z'.value) :
    (AVLTree.new z : AVLTree K V M).Like RK RV (AVLTree.new z') :=
  ⟨rfl, NodeAllocator.like_new ⟨hk, hv⟩⟩

/-- **C90** (AVL tree): whatever the keys are, a history of `n` calls on a new tree does the same, up to an order
preserving renaming of the keys, as a history whose keys are natural numbers up to `n`. -/
theorem C90_avl_small_keys [LinearOrder K] (z : AVLNode K V) (ops : List (Op K V)) :
    ∃ (RK : K → Nat → Prop) (z' : AVLNode Nat V) (ops' : List (Op Nat V)),
      (∀ k n, RK k n → n ≤ ops.length) ∧ (∀ k m l n, RK k m → RK l n → (m < n ↔ k < l)) ∧
      RK z.key z'.key ∧ z'.value = z.value ∧ List.Forall₂ (OpLike RK Eq) ops ops' ∧
      BothDo (fun r r' => r.1.Like RK Eq r'.1 ∧ List.Forall₂ (OutLike RK Eq) r.2 r'.2)
        (run AVLSpec.call (AVLTree.new z : AVLTree K V M) ops)
        (run AVLSpec.call (AVLTree.new z' : AVLTree Nat V M) ops') := by
  have hz : IsRank (keySet opKey z.key ops) z.key (rank (keySet opKey z.key ops) z.key) := ⟨zero_keySet, rfl⟩
  have ho : List.Forall₂ (OpLike (IsRank (keySet opKey z.key ops)) Eq) ops (ops.map (rankOp _)) :=
    forall₂_map fun o ho => rankOp_like fun k hk => mem_keySet ho hk
  refine ⟨IsRank (keySet opKey z.key ops), ⟨rank (keySet opKey z.key ops) z.key, z.value⟩, _, ?_, ?_, hz, rfl, ho, ?_⟩
  · rintro k n ⟨hk, rfl⟩
    have h1 := rank_bound hk
    have h2 := keySet_card (key := opKey) opKey_length z.key ops
    omega
  · exact fun k m l n hk hl => hk.lt_iff hl
  · exact C90_avl_run (fun k m l n hk hl => ⟨hk.lt_iff hl, hl.lt_iff hk⟩) (C90_avl_new hz rfl) ho

/-! ### Crit-bit trees -/

/-- **C90** (crit-bit tree): with the same keys and other values, every function of the trait does the same. -/
theorem C90_critbit_trait : Api.Like (fun k k' => k' = k) RV (Critbit.Like RV)
    (CritbitSpec.api : Api (Critbit V N M) (BitVec 128) V) (CritbitSpec.api : Api (Critbit V' N M) (BitVec 128) V')
    (fun i i' => i' = i) (fun r r' => r' = r) :=
  Critbit.like_api

/-- **C90** (crit-bit tree): so does every history of calls. -/
theorem C90_critbit_run {t : Critbit V N M} {t' : Critbit V' N M} {ops ops'} (h : t.Like RV t')
    (ho : List.Forall₂ (OpLike (fun k k' => k' = k) RV) ops ops') :
    BothDo (fun r r' => r.1.Like RV r'.1 ∧ List.Forall₂ (OutLike (fun k k' => k' = k) RV) r.2 r'.2)
      (run CritbitSpec.call t ops) (run CritbitSpec.call t' ops') :=
  run_like Critbit.like_api.call ho h

/-- **C90** (crit-bit tree): so do iteration, `get_min`, `get_max` and `get_addr`. -/
theorem C90_critbit_reads {t : Critbit V N M} {t' : Critbit V' N M} (h : t.Like RV t') :
    (∀ es, BothDo (fun r r' => r'.1 = r.1 ∧ List.Forall₂ (Option.Rel (EntryLike (fun k k' => k' = k) RV)) r.2 r'.2)
      (drive (Critbit.Iter.next t) (Critbit.Iter.nextBack t) t.iter es)
      (drive (Critbit.Iter.next t') (Critbit.Iter.nextBack t') t'.iter es)) ∧
    BothDo (Option.Rel (EntryLike (fun k k' => k' = k) RV)) t.getMin t'.getMin ∧
    BothDo (Option.Rel (EntryLike (fun k k' => k' = k) RV)) t.getMax t'.getMax ∧
    (∀ k, t'.getAddr k = t.getAddr k) :=
  have L := Critbit.like_api (RV := RV) (N := N) (M := M)
  ⟨fun es => drive_like (RI := fun i i' => i' = i) (fun i i' => L.next _ _ i i' h) (fun i i' => L.nextBack _ _ i i' h) es
    (L.iter _ _ h), Critbit.like_getMin h, Critbit.like_getMax h, Critbit.like_getAddr h⟩

/-- **C90** (crit-bit tree): new trees correspond if their initial values do. -/
theorem C90_critbit_new (z : CritbitNode) {w : V} {w' : V'} (hv : RV w w') :
    (Critbit.new z w : Critbit V N M).Like RV (Critbit.new z w') :=
  ⟨rfl, rfl, NodeAllocator.like_new hv⟩

/-! ### Hash tables -/

section
variable [BEq K] [BEq K'] {hash : K → Nat} {hash' : K' → Nat}

/-- **C90** (hash table): if corresponding keys are equal at the same time and go to the same bucket, every history of
calls does the same. -/
theorem C90_hash_run (he : ∀ k k' l l', RK k k' → RK l l' → (k' == l') = (k == l))
    (hh : ∀ k k', RK k k' → hash' k' % B = hash k % B) {h : HashTable K V B M} {h' : HashTable K' V' B M} {ops ops'}
    (hl : h.Like RK RV h') (ho : List.Forall₂ (OpLike RK RV) ops ops') :
    BothDo (fun r r' => r.1.Like RK RV r'.1 ∧ List.Forall₂ (OutLike RK RV) r.2 r'.2)
      (run (HashTableSpec.call hash) h ops) (run (HashTableSpec.call hash') h' ops') :=
  run_like (HashTable.like_call he hh) ho hl

/-- **C90** (hash table): with the same addresses. -/
theorem C90_hash_addresses (he : ∀ k k' l l', RK k k' → RK l l' → (k' == l') = (k == l))
    (hh : ∀ k k', RK k k' → hash' k' % B = hash k % B) {h : HashTable K V B M} {h' : HashTable K' V' B M} {k k'}
    (hl : h.Like RK RV h') (hk : RK k k') :
    (∀ v v', RV v v' →
      BothDo (fun r r' => r.1.Like RK RV r'.1 ∧ r'.2 = r.2) (h.insert hash k v) (h'.insert hash' k' v')) ∧
    BothDo (fun r r' => r.1.Like RK RV r'.1 ∧ r'.2 = r.2) (h.getMut hash k) (h'.getMut hash' k') ∧
    h'.getAddr hash' k' = h.getAddr hash k :=
  ⟨fun _ _ hv => HashTable.like_insert he hh hl hk hv, HashTable.like_getMut he hh hl hk,
    (HashTable.like_reads he hh hl hk).2.2.2.1⟩

/-- **C90** (hash table): so do iteration, `get`, `contains` and `[]`. -/
theorem C90_hash_reads (he : ∀ k k' l l', RK k k' → RK l l' → (k' == l') = (k == l))
    (hh : ∀ k k', RK k k' → hash' k' % B = hash k % B) {h : HashTable K V B M} {h' : HashTable K' V' B M}
    (hl : h.Like RK RV h') :
    (∀ k k', RK k k' → BothDo (Option.Rel RV) (h.get hash k) (h'.get hash' k') ∧
      h'.contains hash' k' = h.contains hash k ∧ h'.containsInherent hash' k' = h.containsInherent hash k ∧
      BothDo RV (h.index hash k) (h'.index hash' k')) ∧
    h'.iter = h.iter ∧
    (∀ it es, BothDo (fun r r' => r'.1 = r.1 ∧ List.Forall₂ (Option.Rel (EntryLike RK RV)) r.2 r'.2)
      (drive (HashTable.Iter.next h) HashTable.Iter.nextBack it es)
      (drive (HashTable.Iter.next h') HashTable.Iter.nextBack it es)) :=
  ⟨fun _ _ hk => have L := HashTable.like_reads he hh hl hk; ⟨L.1, L.2.1, L.2.2.1, L.2.2.2.2⟩, HashTable.like_iter hl,
    fun _ es => drive_like (RI := fun i i' => i' = i) (HashTable.like_next hl) (fun _ _ hi => .mk ⟨hi, .none⟩) es rfl⟩

omit [BEq K] [BEq K'] in
/-- **C90** (hash table): new tables correspond if their initial contents do. -/
theorem C90_hash_new {z : HashNode K V} {z' : HashNode K' V'} (hk : RK z.key z'.key) (hv : RV z.value z'.value) :
    (HashTable.new z : HashTable K V B M).Like RK RV (HashTable.new z') :=
  ⟨rfl, NodeAllocator.like_new ⟨hk, hv⟩⟩

end

/-! ### Deques -/

/-- **C90** (deque): the elements never influence anything else. -/
theorem C90_deque_run {d : Deque V M} {d' : Deque V' M} {ops ops'} (h : d.Like RV d')
    (ho : List.Forall₂ (DequeSpec.OpLike RV) ops ops') :
    BothDo (fun r r' => r.1.Like RV r'.1 ∧ List.Forall₂ (DequeSpec.OutLike RV) r.2 r'.2)
      (run DequeSpec.call d ops) (run DequeSpec.call d' ops') :=
  run_like Deque.like_call ho h

/-- **C90** (deque): iteration, `front` and `back` on corresponding deques. -/
theorem C90_deque_reads {d : Deque V M} {d' : Deque V' M} (h : d.Like RV d') :
    BothDo (Option.Rel RV) d.front d'.front ∧ BothDo (Option.Rel RV) d.back d'.back ∧
    (∀ it es, BothDo (fun r r' => r'.1 = r.1 ∧ List.Forall₂ (Option.Rel fun e e' => e'.1 = e.1 ∧ RV e.2 e'.2) r.2 r'.2)
      (drive (Deque.Iter.next d) (Deque.Iter.nextBack d) it es)
      (drive (Deque.Iter.next d') (Deque.Iter.nextBack d') it es)) :=
  ⟨(Deque.like_ends h).1, (Deque.like_ends h).2,
    fun _ es => drive_like (RI := fun i i' => i' = i) (Deque.like_next h) (Deque.like_nextBack h) es rfl⟩

/-- **C90** (deque): new deques correspond if their initial contents do. -/
theorem C90_deque_new {z : V} {z' : V'} (h : RV z z') : (Deque.new z : Deque V M).Like RV (Deque.new z') :=
  ⟨rfl, rfl, rfl, NodeAllocator.like_new h⟩

/-! ### Examples -/

/-- Negative numbers as keys against small natural numbers. -/
private def ExK (k : Int) (n : Nat) : Prop := k = 10 * n - 100

/-- Texts as values against their lengths. -/
private def ExV (s : String) (n : Nat) : Prop := n = s.length

private theorem exCompare (k : Int) (k' : Nat) (l : Int) (l' : Nat) (hk : ExK k k') (hl : ExK l l') :
    compare k' l' = compare k l := by
  unfold ExK at hk hl
  subst hk hl
  rcases lt_trichotomy k' l' with h | h | h
  · rw [compare_lt_iff_lt.2 h, eq_comm, compare_lt_iff_lt]; omega
  · rw [compare_eq_iff_eq.2 h, eq_comm, compare_eq_iff_eq]; omega
  · rw [compare_gt_iff_gt.2 h, eq_comm, compare_gt_iff_gt]; omega

private def exOps : List (RedBlackSpec.TOp Int String) :=
  [.map (.insert (-80) "xy"), .map (.insert (-90) ""), .map (.insert (-70) "abc"), .map (.getMut (-90) (· ++ "z")),
    .removeRoot, .map (.remove (-50))]

private def exOps' : List (RedBlackSpec.TOp Nat Nat) :=
  [.map (.insert 2 2), .map (.insert 1 0), .map (.insert 3 3), .map (.getMut 1 (· + 1)), .removeRoot, .map (.remove 5)]

private theorem exLike : List.Forall₂ (RedBlackSpec.TOpLike ExK ExV) exOps exOps' := by
  refine .cons (.map (.insert rfl rfl)) <| .cons (.map (.insert rfl rfl)) <| .cons (.map (.insert rfl rfl)) <|
    .cons (.map (.getMut rfl (fun v v' h => ?_))) <| .cons .removeRoot <| .cons (.map (.remove rfl)) .nil
  unfold ExV at h ⊢
  subst h
  rw [String.length_append]; rfl

private theorem exNew : (RedBlackTree.new ⟨-100, ""⟩ : RedBlackTree Int String 4).Like ExK ExV (RedBlackTree.new ⟨0, 0⟩) :=
  C90_rb_new rfl rfl

/-- Six calls on the one tree and the corresponding calls on the other; the root is then node 2. -/
example :
    BothDo (fun r r' => r.1.Like ExK ExV r'.1 ∧ List.Forall₂ (RedBlackSpec.TOutLike ExK ExV) r.2 r'.2)
      (run RedBlackSpec.call (RedBlackTree.new ⟨-100, ""⟩ : RedBlackTree Int String 4) exOps)
      (run RedBlackSpec.call (RedBlackTree.new ⟨0, 0⟩ : RedBlackTree Nat Nat 4) exOps') :=
  C90_rb_run exCompare exNew exLike

example : (run RedBlackSpec.call (RedBlackTree.new ⟨0, 0⟩ : RedBlackTree Nat Nat 4) exOps').toOption.map (·.1.root) = some 2 := by
  decide +kernel

/-- Two hash tables with different hash functions that agree on the buckets of corresponding keys. -/
example :
    let RK : Nat → Bool → Prop := fun k b => k = if b then 7 else 4
    let hash : Nat → Nat := fun k => k * k
    let hash' : Bool → Nat := fun b => if b then 3 else 2
    (∀ k k' l l', RK k k' → RK l l' → (k' == l') = (k == l)) ∧ (∀ k k', RK k k' → hash' k' % 2 = hash k % 2) ∧
    List.Forall₂ (OpLike RK (fun _ _ : Nat => True)) [.insert 7 1, .insert 4 2, .remove 7] [.insert true 9, .insert false 8, .remove true] ∧
    (run (HashTableSpec.call hash) (HashTable.new ⟨7, 0⟩ : HashTable Nat Nat 2 4) [.insert 7 1, .insert 4 2, .remove 7]).toOption.map
      (·.1.buckets.toList) =
    (run (HashTableSpec.call hash') (HashTable.new ⟨true, 0⟩ : HashTable Bool Nat 2 4)
      [.insert true 9, .insert false 8, .remove true]).toOption.map (·.1.buckets.toList) := by
  refine ⟨?_, ?_, ?_, by decide +kernel⟩
  · rintro k k' l l' rfl rfl
    revert k' l'
    decide
  · rintro k k' rfl
    revert k'
    decide
  · exact .cons (.insert (by decide) trivial) <| .cons (.insert (by decide) trivial) <| .cons (.remove (by decide)) .nil

/-- Values of different types in an AVL tree, a crit-bit tree and a deque: any values correspond, so whether the calls
panic and what the memory looks like otherwise does not depend on them. -/
example (v w : String) : ∃ r r', run AVLSpec.call (AVLTree.new ⟨0, ""⟩ : AVLTree Nat String 3) [.insert 5 v, .insert 2 w, .remove 5] = .ok r ∧
    run AVLSpec.call (AVLTree.new ⟨0, ()⟩ : AVLTree Nat Unit 3) [.insert 5 (), .insert 2 (), .remove 5] = .ok r' ∧
    r'.1.Like Eq (fun _ _ => True) r.1 ∧ r'.1.root = 2 := by
  have h := C90_avl_run (RK := Eq) (RV := fun (_ : Unit) (_ : String) => True)
    (t := (AVLTree.new ⟨0, ()⟩ : AVLTree Nat Unit 3)) (t' := AVLTree.new ⟨0, ""⟩)
    (ops := [.insert 5 (), .insert 2 (), .remove 5]) (ops' := [.insert 5 v, .insert 2 w, .remove 5])
    (by rintro k _ l _ rfl rfl; exact ⟨Iff.rfl, Iff.rfl⟩) (C90_avl_new rfl trivial)
    (.cons (.insert rfl trivial) (.cons (.insert rfl trivial) (.cons (.remove rfl) .nil)))
  have hr : (run AVLSpec.call (AVLTree.new ⟨0, ()⟩ : AVLTree Nat Unit 3) [.insert 5 (), .insert 2 (), .remove 5]).toOption.map
    (·.1.root) = some 2 := by decide +kernel
  revert h hr
  generalize run AVLSpec.call (AVLTree.new ⟨0, ()⟩ : AVLTree Nat Unit 3) _ = x
  generalize run AVLSpec.call (AVLTree.new ⟨0, ""⟩ : AVLTree Nat String 3) _ = y
  intro h hr
  cases h with
  | ok h => exact ⟨_, _, rfl, rfl, h.1, Option.some.inj hr⟩
  | error => cases hr

example (v w : String) : BothDo (fun r r' => r.1.Like (fun _ _ => True) r'.1 ∧
      List.Forall₂ (OutLike (fun k k' => k' = k) fun _ _ => True) r.2 r'.2)
    (run CritbitSpec.call (Critbit.new ⟨0, 0⟩ () : Critbit Unit 4 2) [.insert 5#128 (), .insert 9#128 (), .remove 5#128])
    (run CritbitSpec.call (Critbit.new ⟨0, 0⟩ "" : Critbit String 4 2) [.insert 5#128 v, .insert 9#128 w, .remove 5#128]) :=
  C90_critbit_run (C90_critbit_new _ trivial)
    (.cons (.insert rfl trivial) (.cons (.insert rfl trivial) (.cons (.remove rfl) .nil)))

example (v w : String) : BothDo (fun r r' => r.1.Like (fun _ _ => True) r'.1 ∧
      List.Forall₂ (DequeSpec.OutLike fun _ _ => True) r.2 r'.2)
    (run DequeSpec.call (Deque.new () : Deque Unit 2) [.pushBack (), .pushFront (), .popBack])
    (run DequeSpec.call (Deque.new "" : Deque String 2) [.pushBack v, .pushFront w, .popBack]) :=
  C90_deque_run (C90_deque_new trivial) (.cons (.pushBack trivial) (.cons (.pushFront trivial) (.cons .popBack .nil)))

end Sokoban.Props
