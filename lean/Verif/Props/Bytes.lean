import Verif.Proof.BytesNew
import Verif.Props.Deque
import Verif.Props.HashTable
import Verif.Props.RedBlack
import Verif.Props.AVL
import Verif.Props.Critbit

/-
Property theorems C53 (the bytes are the whole state), C58 (padding in the nodes), C59 (`new_from_slice`).
-/
namespace Sokoban.Props
open MapSpec Bytes

variable {T K V : Type}

/-- C53: when loading works. `load_bytes` / `load_mut_bytes` panic on a slice that is too short, return
`None` on a misaligned one, and otherwise give the value spelled by the first `size_of` bytes, whatever
comes after. -/
theorem C53_load {A : Rep T} (hA : A.Lawful) (s : Slice) :
    (load A s = .error .indexOutOfBounds ↔ s.len < A.size) ∧
    (load A s = .ok none ↔ A.size ≤ s.len ∧ ¬ A.align ∣ s.addr) ∧
    ((∃ t, load A s = .ok (some t)) ↔ A.size ≤ s.len ∧ A.align ∣ s.addr) ∧
    ∀ s' : Slice, s.Fits A → s'.Fits A → (∀ k < A.size, s'.mem k = s.mem k) → load A s' = load A s := by
  have last : ∀ s' : Slice, s.Fits A → s'.Fits A → (∀ k < A.size, s'.mem k = s.mem k) → load A s' = load A s := by
    intro s' h h' hb
    rw [load_fits h, load_fits h', hA.congr _ _ hb]
  by_cases h1 : s.len < A.size
  · have e := load_short h1
    refine ⟨⟨fun _ => h1, fun _ => e⟩, ⟨fun h => ?_, fun h => by omega⟩, ⟨fun ⟨t, h⟩ => ?_, fun h => by omega⟩, last⟩
    · rw [e] at h; cases h
    · rw [e] at h; cases h
  · by_cases h2 : A.align ∣ s.addr
    · have e := load_fits (A := A) (s := s) ⟨by omega, h2⟩
      refine ⟨⟨fun h => ?_, fun h => absurd h h1⟩, ⟨fun h => ?_, fun h => absurd h2 h.2⟩,
        ⟨fun _ => ⟨by omega, h2⟩, fun _ => ⟨_, e⟩⟩, last⟩
      · rw [e] at h; cases h
      · rw [e] at h; cases h
    · have e := load_misaligned (A := A) (s := s) (by omega) h2
      refine ⟨⟨fun h => ?_, fun h => absurd h h1⟩, ⟨fun _ => ⟨by omega, h2⟩, fun _ => e⟩,
        ⟨fun ⟨t, h⟩ => ?_, fun h => absurd h.2 h2⟩, last⟩
      · rw [e] at h; cases h
      · rw [e] at h; cases h

/-- C53: the layout built field by field is the layout that the allocator's own assertion is about. -/
theorem C53_layout_agrees (A : Rep T) (M N : Nat) :
    (nodeAllocator A M N).size = (Layout.Params.mk A.size A.align N M).selfSize ∧
    (nodeAllocator A M N).align = (Layout.Params.mk A.size A.align N M).selfAlign :=
  ⟨size_nodeAllocator M N, align_nodeAllocator M N⟩

/-- C53: a call through a loaded reference leaves the place of the buffer and the bytes behind the
structure alone. -/
theorem C53_frame {S Op Out : Type} {A : Rep S} (hA : A.Lawful) (step : S → Op → R (S × Out)) (s s' : Slice) (op : Op) (o : Out)
    (h : callAt A step s op = .ok (s', o)) :
    s'.addr = s.addr ∧ s'.len = s.len ∧ ∀ k ≥ A.size, s'.mem k = s.mem k := by
  unfold callAt at h
  cases e1 : load A s with
  | error p => rw [e1] at h; cases h
  | ok x =>
    cases x with
    | none => rw [e1] at h; cases h
    | some t =>
      rw [e1] at h
      cases e2 : step t op with
      | error p => simp only [except_bind_ok, unwrap, e2] at h; cases h
      | ok r =>
        simp only [except_bind_ok, unwrap, e2] at h
        cases h
        exact ⟨rfl, rfl, fun k hk => store_frame hA s _ k hk⟩

/-- C59, allocator: `load_mut_bytes(..).unwrap().initialize()`. -/
theorem C59_alloc_initialize {A : Rep T} (hA : A.Element) {M N : Nat} (hN : 1 ≤ N) (s : Slice) :
    MakesNew (nodeAllocator A M N) (A.Accepted N) (NodeAllocator.new (A.read zeroMem)) s (allocFromSlice A M N s) := by
  have hl := lawful_nodeAllocator hA.1 M N
  refine makesNew_of hl (fun ha hb => ?_) (fun ha hb => ?_) (valid_alloc hA _ (NodeAllocator.ok_new trivial)) <;>
    rw [initialiseAt_eq hA.1 hN ha, read_zero_nodeAllocator] <;>
    rcases layout_cases hA.1 M N with ⟨h, e⟩ | ⟨h, e⟩
  · exact absurd h hb
  · rw [e]; rfl
  · rw [e]; simp [NodeAllocator.initialise, rassert, hN, NodeAllocator.zeroed, NodeAllocator.new]
  · exact absurd hb h

/-- C53, allocator: working on a buffer, reloaded for every call and moved in between, is working on the
allocator. -/
theorem C53_alloc_bytes {A : Rep T} (hA : A.Element) {M N : Nat} {z : T} {s : Slice}
    (h : load (nodeAllocator A M N) s = .ok (some (NodeAllocator.new z))) (hist : List ((Slice → Slice) × AllocSpec.Op T))
    (hk : ∀ x ∈ hist, Keeps (nodeAllocator A M N) x.1 ∧ x.2.InRange) :
    Shows (nodeAllocator A M N) (run AllocSpec.call (NodeAllocator.new z) (hist.map Prod.snd))
      (runAt (nodeAllocator A M N) AllocSpec.call s hist) :=
  runAt_shows (lawful_nodeAllocator hA.1 M N) (I := fun a => a.InRange (fun _ => True)) (D := AllocSpec.Op.InRange)
    (valid_alloc hA) AllocSpec.call_post hist s _ h (NodeAllocator.ok_new trivial) hk

/-- C59, deque: `new_from_slice`. -/
theorem C59_deque_new_from_slice {A : Rep T} (hA : A.Element) (M : Nat) (s : Slice) :
    MakesNew (deque A M) (A.Accepted 2) (Deque.new (A.read zeroMem)) s (dequeFromSlice A M s) := by
  refine makesNew_of (lawful_deque hA.1 M) (fun ha hb => ?_) (fun ha hb => ?_) (valid_deque hA _ (Deque.inRange_new _)) <;>
    rw [dequeInit_eq hA.1 ha, read_zero_deque] <;>
    rcases layout_cases hA.1 M 2 with ⟨h, e⟩ | ⟨h, e⟩
  · exact absurd h hb
  · rw [e]; rfl
  · rw [e]; rfl
  · exact absurd hb h

/-- C53, deque: working on a buffer, reloaded for every call and moved in between, is working on the
deque. -/
theorem C53_deque_bytes {A : Rep T} (hA : A.Element) {M : Nat} {z : T} {s : Slice}
    (h : load (deque A M) s = .ok (some (Deque.new z))) (hist : List ((Slice → Slice) × DequeSpec.Op T))
    (hk : ∀ x ∈ hist, Keeps (deque A M) x.1) :
    Shows (deque A M) (run DequeSpec.call (Deque.new z) (hist.map Prod.snd)) (runAt (deque A M) DequeSpec.call s hist) :=
  runAt_shows (lawful_deque hA.1 M) (I := Deque.InRange) (D := fun _ => True) (valid_deque hA)
    (fun t op ht _ => Deque.call_post t op ht) hist s _ h (Deque.inRange_new z) (fun x hx => ⟨hk x hx, trivial⟩)

/-- C59, deque: `new_from_slice` on a buffer with a deque that has been set up panics, whatever happened
to the deque. -/
theorem C59_deque_no_reuse {A : Rep T} (hA : A.Element) {M : Nat} (hM : M + 1 < 2 ^ 32) (z : T) (ops : List (DequeSpec.Op T))
    (hlen : ops.length < 2 ^ 64) {d : Deque T M} {outs : List (DequeSpec.Out T)}
    (hrun : run DequeSpec.call (Deque.new z) ops = .ok (d, outs)) {s : Slice} (h : load (deque A M) s = .ok (some d)) :
    ∃ e, dequeFromSlice A M s = .error e := by
  have hr := (C06_deque_initialize hM z).2 ops d outs hlen hrun
  rcases layout_cases hA.1 M 2 with ⟨_, e⟩ | ⟨_, e⟩
  · exact ⟨.reinit, newFromSlice_error h fun ha => by rw [dequeInit_eq hA.1 ha, e, hr]; rfl⟩
  · exact ⟨.assertion, newFromSlice_error h fun ha => by rw [dequeInit_eq hA.1 ha, e]; rfl⟩

/-- C59, hash table: `new_from_slice`; an odd number of buckets panics first. -/
theorem C59_hash_new_from_slice {A : Rep K} {C : Rep V} (hA : A.Element) (hC : C.Element) (B M : Nat) (s : Slice) :
    (B % 2 = 1 → hashFromSlice A C B M s = .error .assertion) ∧
    (B % 2 = 0 → MakesNew (hashTable A C B M) ((hashNode A C).Accepted 4)
      (HashTable.new ⟨A.read zeroMem, C.read zeroMem⟩) s (hashFromSlice A C B M s)) := by
  constructor
  · intro hB
    simp [hashFromSlice, HashTable.assertProperAlignment, rassert, hB]
  · intro hB
    have e0 : hashFromSlice A C B M s = newFromSlice (hashTable A C B M) (hashInit A C B M) s := by
      simp [hashFromSlice, HashTable.assertProperAlignment, rassert, hB]
    rw [e0]
    refine makesNew_of (lawful_hashTable hA.1 hC.1 B M) (fun ha hb => ?_) (fun ha hb => ?_)
      (valid_hashTable hA hC _ (HashTable.inRange_new _)) <;>
      rw [hashInit_eq hA.1 hC.1 ha, read_zero_hashTable] <;>
      rcases layout_cases (lawful_hashNode hA.1 hC.1) M 4 with ⟨h, e⟩ | ⟨h, e⟩
    · exact absurd h hb
    · rw [e]; rfl
    · rw [e]; rfl
    · exact absurd hb h

/-- C53, hash table: working on a buffer is working on the table. -/
theorem C53_hash_bytes [BEq K] {A : Rep K} {C : Rep V} (hA : A.Element) (hC : C.Element) {B M : Nat} (hash : K → Nat)
    {z : HashNode K V} {s : Slice} (h : load (hashTable A C B M) s = .ok (some (HashTable.new z)))
    (hist : List ((Slice → Slice) × Op K V)) (hk : ∀ x ∈ hist, Keeps (hashTable A C B M) x.1) :
    Shows (hashTable A C B M) (run (HashTableSpec.call hash) (HashTable.new z) (hist.map Prod.snd))
      (runAt (hashTable A C B M) (HashTableSpec.call hash) s hist) :=
  runAt_shows (lawful_hashTable hA.1 hC.1 B M) (I := HashTable.InRange) (D := fun _ => True) (valid_hashTable hA hC)
    (fun t op ht _ => HashTable.call_post hash t op ht) hist s _ h (HashTable.inRange_new z) (fun x hx => ⟨hk x hx, trivial⟩)

/-- C59, hash table: `new_from_slice` on a buffer in use panics. -/
theorem C59_hash_no_reuse [DecidableEq K] {A : Rep K} {C : Rep V} (hA : A.Element) (hC : C.Element) {B M : Nat}
    (hB : 0 < B) (hM : M + 1 < 2 ^ 32) (hash : K → Nat) (z : HashNode K V) (ops : List (Op K V))
    {t : HashTable K V B M} {outs : List (Out K V)}
    (hrun : run (HashTableSpec.call hash) (HashTable.new z) ops = .ok (t, outs)) {s : Slice}
    (h : load (hashTable A C B M) s = .ok (some t)) : ∃ e, hashFromSlice A C B M s = .error e := by
  have hr := ((C06_hash_initialize hB hM hash z).2 ops t outs hrun).1
  have : ∃ e, newFromSlice (hashTable A C B M) (hashInit A C B M) s = .error e := by
    rcases layout_cases (lawful_hashNode hA.1 hC.1) M 4 with ⟨_, e⟩ | ⟨_, e⟩
    · exact ⟨.reinit, newFromSlice_error h fun ha => by rw [hashInit_eq hA.1 hC.1 ha, e, hr]; rfl⟩
    · exact ⟨.assertion, newFromSlice_error h fun ha => by rw [hashInit_eq hA.1 hC.1 ha, e]; rfl⟩
  obtain ⟨e, he⟩ := this
  unfold hashFromSlice HashTable.assertProperAlignment rassert
  rw [he]
  split <;> exact ⟨_, rfl⟩

/-- C59, red-black tree: `new_from_slice`; its own layout assertion comes first. -/
theorem C59_rb_new_from_slice {A : Rep K} {C : Rep V} (hA : A.Element) (hC : C.Element) (M : Nat) (s : Slice) :
    (¬ (A.align ∣ C.size ∧ 8 ∣ (rbNode A C).size) → rbFromSlice A C M s = .error .assertion) ∧
    (A.align ∣ C.size ∧ 8 ∣ (rbNode A C).size → MakesNew (redBlackTree A C M) ((rbNode A C).Accepted 4)
      (RedBlackTree.new ⟨A.read zeroMem, C.read zeroMem⟩) s (rbFromSlice A C M s)) := by
  have hd := Nat.mod_eq_zero_of_dvd (lawful_rbNode hA.1 hC.1).dvd
  constructor
  · intro h
    unfold rbFromSlice rbAssert rassert
    by_cases h1 : C.size % A.align = 0
    · have h2 : ¬ (rbNode A C).size % 8 = 0 := fun e => h ⟨Nat.dvd_of_mod_eq_zero h1, Nat.dvd_of_mod_eq_zero e⟩
      simp [h1, h2, hd]
    · simp [h1]
  · rintro ⟨h1, h2⟩
    have e0 : rbFromSlice A C M s = newFromSlice (redBlackTree A C M) (rbInit A C M) s := by
      simp [rbFromSlice, rbAssert, rassert, Nat.mod_eq_zero_of_dvd h1, Nat.mod_eq_zero_of_dvd h2, hd]
    rw [e0]
    refine makesNew_of (lawful_redBlackTree hA.1 hC.1 M) (fun ha hb => ?_) (fun ha hb => ?_)
      (valid_redBlackTree hA hC _ (RedBlackTree.inRange_new _)) <;>
      rw [rbInit_eq hA.1 hC.1 ha, read_zero_redBlackTree] <;>
      rcases layout_cases (lawful_rbNode hA.1 hC.1) M 4 with ⟨h, e⟩ | ⟨h, e⟩
    · exact absurd h hb
    · rw [e]; rfl
    · rw [e]; rfl
    · exact absurd hb h

/-- C53, red-black tree: working on a buffer is working on the tree. -/
theorem C53_rb_bytes [Ord K] {A : Rep K} {C : Rep V} (hA : A.Element) (hC : C.Element) {M : Nat}
    {z : RBNode K V} {s : Slice} (h : load (redBlackTree A C M) s = .ok (some (RedBlackTree.new z)))
    (hist : List ((Slice → Slice) × RedBlackSpec.TOp K V)) (hk : ∀ x ∈ hist, Keeps (redBlackTree A C M) x.1) :
    Shows (redBlackTree A C M) (run RedBlackSpec.call (RedBlackTree.new z) (hist.map Prod.snd))
      (runAt (redBlackTree A C M) RedBlackSpec.call s hist) :=
  runAt_shows (lawful_redBlackTree hA.1 hC.1 M) (I := RedBlackTree.InRange) (D := fun _ => True) (valid_redBlackTree hA hC)
    (fun t op ht _ => RedBlackTree.call_post t op ht) hist s _ h (RedBlackTree.inRange_new z) (fun x hx => ⟨hk x hx, trivial⟩)

/-- C59, red-black tree: `new_from_slice` on a buffer in use panics. -/
theorem C59_rb_no_reuse [LinearOrder K] {A : Rep K} {C : Rep V} (hA : A.Element) (hC : C.Element)
    {M : Nat} (hM0 : 0 < M) (hM : M + 1 < 2 ^ 32) (z : RBNode K V) (ops : List (RedBlackSpec.TOp K V))
    {t : RedBlackTree K V M} {outs : List (RedBlackSpec.TOut K V)}
    (hrun : run RedBlackSpec.call (RedBlackTree.new z) ops = .ok (t, outs)) {s : Slice}
    (h : load (redBlackTree A C M) s = .ok (some t)) : ∃ e, rbFromSlice A C M s = .error e := by
  have hr := (C06_rb_initialize hM0 hM z).2 ops t outs hrun
  have : ∃ e, newFromSlice (redBlackTree A C M) (rbInit A C M) s = .error e := by
    rcases layout_cases (lawful_rbNode hA.1 hC.1) M 4 with ⟨_, e⟩ | ⟨_, e⟩
    · exact ⟨.reinit, newFromSlice_error h fun ha => by rw [rbInit_eq hA.1 hC.1 ha, e, hr]; rfl⟩
    · exact ⟨.assertion, newFromSlice_error h fun ha => by rw [rbInit_eq hA.1 hC.1 ha, e]; rfl⟩
  obtain ⟨e, he⟩ := this
  unfold rbFromSlice
  rw [he]
  cases rbAssert A C with
  | error p => exact ⟨_, rfl⟩
  | ok _ => exact ⟨_, rfl⟩

/-- C59, AVL tree: `new_from_slice`. -/
theorem C59_avl_new_from_slice {A : Rep K} {C : Rep V} (hA : A.Element) (hC : C.Element) (M : Nat) (s : Slice) :
    MakesNew (avlTree A C M) ((avlNode A C).Accepted 4)
      (AVLTree.new ⟨A.read zeroMem, C.read zeroMem⟩) s (avlFromSlice A C M s) := by
  refine makesNew_of (lawful_avlTree hA.1 hC.1 M) (fun ha hb => ?_) (fun ha hb => ?_)
    (valid_avlTree hA hC _ (AVLTree.inRange_new _)) <;>
    rw [avlInit_eq hA.1 hC.1 ha, read_zero_avlTree] <;>
    rcases layout_cases (lawful_avlNode hA.1 hC.1) M 4 with ⟨h, e⟩ | ⟨h, e⟩
  · exact absurd h hb
  · rw [e]; rfl
  · rw [e]; rfl
  · exact absurd hb h

/-- C53, AVL tree: working on a buffer is working on the tree, for any comparison. -/
theorem C53_avl_bytes [LT K] [DecidableLT K] [PartialGt K] {A : Rep K} {C : Rep V} (hA : A.Element) (hC : C.Element) {M : Nat}
    {z : AVLNode K V} {s : Slice} (h : load (avlTree A C M) s = .ok (some (AVLTree.new z)))
    (hist : List ((Slice → Slice) × Op K V)) (hk : ∀ x ∈ hist, Keeps (avlTree A C M) x.1) :
    Shows (avlTree A C M) (run AVLSpec.call (AVLTree.new z) (hist.map Prod.snd))
      (runAt (avlTree A C M) AVLSpec.call s hist) :=
  runAt_shows (lawful_avlTree hA.1 hC.1 M) (I := AVLTree.InRange) (D := fun _ => True) (valid_avlTree hA hC)
    (fun t op ht _ => AVLTree.call_post t op ht) hist s _ h (AVLTree.inRange_new z) (fun x hx => ⟨hk x hx, trivial⟩)

/-- C59, AVL tree: `new_from_slice` on a buffer in use panics. -/
theorem C59_avl_no_reuse [LinearOrder K] {A : Rep K} {C : Rep V} (hA : A.Element) (hC : C.Element)
    {M : Nat} (hM0 : 0 < M) (hM : M + 1 < 2 ^ 32) (z : AVLNode K V) (ops : List (Op K V))
    {t : AVLTree K V M} {outs : List (Out K V)}
    (hrun : run AVLSpec.call (AVLTree.new z) ops = .ok (t, outs)) {s : Slice}
    (h : load (avlTree A C M) s = .ok (some t)) : ∃ e, avlFromSlice A C M s = .error e := by
  have hr := (C06_avl_initialize hM0 hM z).2 ops t outs hrun
  rcases layout_cases (lawful_avlNode hA.1 hC.1) M 4 with ⟨_, e⟩ | ⟨_, e⟩
  · exact ⟨.reinit, newFromSlice_error h fun ha => by rw [avlInit_eq hA.1 hC.1 ha, e, hr]; rfl⟩
  · exact ⟨.assertion, newFromSlice_error h fun ha => by rw [avlInit_eq hA.1 hC.1 ha, e]; rfl⟩

/-- C59, critbit tree: `new_from_slice`; too few inner nodes panic first. -/
theorem C59_critbit_new_from_slice {a : Nat} (ha : IsAlign128 a) {C : Rep V} (hC : C.Element) (N M : Nat) (s : Slice) :
    (N < 2 * M → critbitFromSlice a C N M s = .error .assertion) ∧
    (2 * M ≤ N → MakesNew (critbit a C N M) (C.Accepted 4)
      (Critbit.new ⟨0, 0⟩ (C.read zeroMem)) s (critbitFromSlice a C N M s)) := by
  constructor
  · intro h
    have : ¬ 2 * M ≤ N := by omega
    simp [critbitFromSlice, rassert, this]
  · intro h
    have e0 : critbitFromSlice a C N M s = newFromSlice (critbit a C N M) (critbitInit a C N M) s := by
      simp [critbitFromSlice, rassert, h]
    rw [e0]
    refine makesNew_of (lawful_critbit ha hC.1 N M) (fun hb hc => ?_) (fun hb hc => ?_)
      (valid_critbit hC _ (Critbit.inRange_new _ _ (show 0 < _ by decide))) <;>
      rw [critbitInit_eq ha hC.1 hb, read_zero_critbit] <;>
      rcases layout_cases hC.1 M 4 with ⟨h, e⟩ | ⟨h, e⟩
    · exact absurd h hc
    · rw [e]; rfl
    · rw [e]; rfl
    · exact absurd hc h

/-- C53, critbit tree: working on a buffer is working on the tree. -/
theorem C53_critbit_bytes {a : Nat} (ha : IsAlign128 a) {C : Rep V} (hC : C.Element) {N M : Nat}
    {z : CritbitNode} (hz : z.prefixLen < 2 ^ 64) {w : V} {s : Slice}
    (h : load (critbit a C N M) s = .ok (some (Critbit.new z w)))
    (hist : List ((Slice → Slice) × Op (BitVec 128) V)) (hk : ∀ x ∈ hist, Keeps (critbit a C N M) x.1) :
    Shows (critbit a C N M) (run CritbitSpec.call (Critbit.new z w) (hist.map Prod.snd))
      (runAt (critbit a C N M) CritbitSpec.call s hist) :=
  runAt_shows (lawful_critbit ha hC.1 N M) (I := Critbit.InRange) (D := fun _ => True) (valid_critbit hC)
    (fun t op ht _ => Critbit.call_post t op ht) hist s _ h (Critbit.inRange_new z w hz) (fun x hx => ⟨hk x hx, trivial⟩)

/-- C59, critbit tree: `new_from_slice` on a buffer in use panics. -/
theorem C59_critbit_no_reuse {a : Nat} (ha : IsAlign128 a) {C : Rep V} (hC : C.Element) {N M : Nat} (hM0 : 0 < M)
    (hNM : 2 * M ≤ N) (hN : N + 1 < 2 ^ 32) (z : CritbitNode) (w : V) (ops : List (Op (BitVec 128) V))
    {t : Critbit V N M} {outs : List (Out (BitVec 128) V)}
    (hrun : run CritbitSpec.call (Critbit.new z w) ops = .ok (t, outs)) {s : Slice}
    (h : load (critbit a C N M) s = .ok (some t)) : ∃ e, critbitFromSlice a C N M s = .error e := by
  have hr := ((C06_critbit_initialize hM0 hNM hN z w).2 ops t outs hrun).1
  have e0 : critbitFromSlice a C N M s = newFromSlice (critbit a C N M) (critbitInit a C N M) s := by
    simp [critbitFromSlice, rassert, hNM]
  rw [e0]
  unfold Critbit.initialise at hr
  cases e1 : t.nodeAllocator.initialise with
  | error p => exact ⟨p, newFromSlice_error h fun hb => by rw [critbitInit_eq ha hC.1 hb, e1]; rfl⟩
  | ok n =>
    rw [e1] at hr
    cases e2 : t.leaves.initialise with
    | ok l => rw [e2] at hr; cases hr
    | error p =>
      rcases layout_cases hC.1 M 4 with ⟨_, e⟩ | ⟨_, e⟩
      · exact ⟨p, newFromSlice_error h fun hb => by rw [critbitInit_eq ha hC.1 hb, e1, e, e2]; rfl⟩
      · exact ⟨.assertion, newFromSlice_error h fun hb => by rw [critbitInit_eq ha hC.1 hb, e1, e]; rfl⟩

/-! ### non-vacuity -/

/-- Bit vectors are element types: `u64` on a 64-bit target. -/
theorem element_u64 : (uint 8 8).Element := ⟨lawful_uint ⟨3, rfl⟩ ⟨1, rfl⟩, fun _ => trivial⟩

/-- A zeroed buffer at address 4096 with seven bytes too many. -/
def exampleBuffer : Slice := ⟨4096, 279, zeroMem⟩

/-- The buffer fits a deque of eight `u64` (its size is 16 + 16 + 8 · 16 = 160 bytes with seven to spare);
`C59_deque_new_from_slice` therefore gives a fresh deque on it. -/
example : (deque (uint 8 8) 8).size = 160 ∧ (deque (uint 8 8) 8).align = 8 ∧
    exampleBuffer.Fits (deque (uint 8 8) 8) ∧ exampleBuffer.Zero (deque (uint 8 8) 8) ∧ (uint 8 8).Accepted 2 :=
  ⟨rfl, rfl, ⟨by decide, by decide⟩, fun _ _ => rfl, ⟨by decide, by decide, by decide⟩⟩

/-- Moving the buffer by 64 bytes and filling what is behind the structure with 255 keeps the
structure. -/
example : Keeps (deque (uint 8 8) 8) (fun s => ⟨s.addr + 64, s.len + 5, fun k => if k < 160 then s.mem k else 255⟩) := by
  intro s h
  refine ⟨⟨Nat.le_add_right_of_le h.1, Nat.dvd_add h.2 (by decide)⟩, fun k hk => ?_⟩
  exact if_pos hk

/-- A buffer of 70 bytes with a deque for two `u64`, set up by `new_from_slice`, then `push_back(0x0102)`,
a move, `push_front(7)`: the bytes. First `sequence_number`, `head`, `tail`; then `size`, `bump_index`,
`free_list_head`; then per node `PREV`, `NEXT`, value. -/
example : ((do
    let s ← dequeFromSlice (uint 8 8) 2 ⟨4096, 70, zeroMem⟩
    let (s, _) ← runAt (deque (uint 8 8) 2) DequeSpec.call s
      [(id, .pushBack 0x0102#64), (fun s => { s with addr := 512 }, .pushFront 7#64)]
    return (s.addr, (List.range 64).map fun k => (s.mem k).val) : R (Nat × List Nat))) =
    .ok (512, [2, 0, 0, 0, 0, 0, 0, 0, 2, 0, 0, 0, 1, 0, 0, 0,
      2, 0, 0, 0, 0, 0, 0, 0, 3, 0, 0, 0, 3, 0, 0, 0,
      2, 0, 0, 0, 0, 0, 0, 0, 2, 1, 0, 0, 0, 0, 0, 0,
      0, 0, 0, 0, 1, 0, 0, 0, 7, 0, 0, 0, 0, 0, 0, 0]) := rfl

/-! ### C58 -/

/-- C58: for a key and value type that pass the layout assertion of the red-black tree, its node has no
padding exactly when the value's alignment divides the key's size. The assertion does not ask for that. -/
theorem C58_rb_padding {A : Rep K} {C : Rep V} (hA : A.Lawful) (hC : C.Lawful) (h : rbAssert A C = .ok ()) :
    (rbNode A C).size = A.size + C.size ↔ C.align ∣ A.size := by
  have hd : A.align ∣ C.size := by
    unfold rbAssert rassert at h
    by_cases e : C.size % A.align = 0
    · exact Nat.dvd_of_mod_eq_zero e
    · simp [e] at h
  have e : (rbNode A C).size =
      Layout.roundUp (Layout.roundUp (Layout.roundUp 0 A.align + A.size) C.align + C.size) (max (max 1 A.align) C.align) := rfl
  have h0 : Layout.roundUp 0 A.align = 0 := Layout.roundUp_eq hA.pos (Nat.dvd_zero _)
  have h1 : max 1 A.align = A.align := Nat.max_eq_right hA.pos
  rw [e, h0, h1, Nat.zero_add]
  have hpos : 0 < max A.align C.align := Nat.lt_of_lt_of_le hA.pos (Nat.le_max_left _ _)
  constructor
  · intro hs
    have l1 := Layout.le_roundUp (x := A.size) hC.pos
    have l2 := Layout.le_roundUp (x := Layout.roundUp A.size C.align + C.size) hpos
    have : Layout.roundUp A.size C.align = A.size := by omega
    rw [← this]; exact Layout.dvd_roundUp _ _
  · intro hc
    rw [Layout.roundUp_eq hC.pos hc, Layout.roundUp_eq hpos]
    rcases Nat.le_total A.align C.align with l | l
    · rw [Nat.max_eq_right l]; exact Nat.dvd_add hc hC.dvd
    · rw [Nat.max_eq_left l]; exact Nat.dvd_add hA.dvd hd

/-- C58, what the assertion lets through: a `u32` key with a `u64` value passes both layout assertions,
and `new_from_slice` works, although the node, declared `Pod`, has four bytes of padding. -/
theorem C58_rb_accepts_padding :
    rbAssert (uint 4 4) (uint 8 8) = .ok () ∧ (rbNode (uint 4 4) (uint 8 8)).Accepted 4 ∧
    (rbNode (uint 4 4) (uint 8 8)).size = 16 ∧ (uint 4 4).size + (uint 8 8).size = 12 ∧
    ∀ (M : Nat) (s : Slice), s.Fits (redBlackTree (uint 4 4) (uint 8 8) M) → s.Zero (redBlackTree (uint 4 4) (uint 8 8) M) →
      ∃ s', rbFromSlice (uint 4 4) (uint 8 8) M s = .ok s' := by
  have hacc : (rbNode (uint 4 4) (uint 8 8)).Accepted 4 := ⟨by decide, by decide, by decide⟩
  refine ⟨rfl, hacc, rfl, rfl, fun M s hf hz => ?_⟩
  have h4 : (uint 4 4).Element := ⟨lawful_uint ⟨2, rfl⟩ ⟨1, rfl⟩, fun _ => trivial⟩
  obtain ⟨s', e, _⟩ := ((C59_rb_new_from_slice h4 element_u64 M s).2 ⟨by decide, by decide⟩).new hf hz hacc
  exact ⟨s', e⟩

/-- C58, a disagreement between the maps: a `u64` key with a `u32` value is refused by the red-black tree and
accepted, with four bytes of padding at the end of every node, by the AVL tree and the hash table. -/
theorem C58_accepted_types_differ (M : Nat) (s : Slice) :
    rbFromSlice (uint 8 8) (uint 4 4) M s = .error .assertion ∧
    (s.Fits (avlTree (uint 8 8) (uint 4 4) M) → s.Zero (avlTree (uint 8 8) (uint 4 4) M) →
      ∃ s', avlFromSlice (uint 8 8) (uint 4 4) M s = .ok s') ∧
    (∀ B, B % 2 = 0 → s.Fits (hashTable (uint 8 8) (uint 4 4) B M) → s.Zero (hashTable (uint 8 8) (uint 4 4) B M) →
      ∃ s', hashFromSlice (uint 8 8) (uint 4 4) B M s = .ok s') ∧
    (avlNode (uint 8 8) (uint 4 4)).size = 16 ∧ (hashNode (uint 8 8) (uint 4 4)).size = 16 := by
  have h4 : (uint 4 4).Element := ⟨lawful_uint ⟨2, rfl⟩ ⟨1, rfl⟩, fun _ => trivial⟩
  refine ⟨(C59_rb_new_from_slice element_u64 h4 M s).1 (by decide), fun hf hz => ?_, fun B hB hf hz => ?_, rfl, rfl⟩
  · obtain ⟨s', e, _⟩ := (C59_avl_new_from_slice element_u64 h4 M s).new hf hz ⟨by decide, by decide, by decide⟩
    exact ⟨s', e⟩
  · obtain ⟨s', e, _⟩ := ((C59_hash_new_from_slice element_u64 h4 B M s).2 hB).new hf hz ⟨by decide, by decide, by decide⟩
    exact ⟨s', e⟩

/-- The hypothesis of `C58_rb_padding` is met by `u64` keys with `u128` values of alignment 8, without
padding. -/
example : rbAssert (uint 8 8) (uint 16 8) = .ok () ∧ (rbNode (uint 8 8) (uint 16 8)).size = 24 := ⟨rfl, rfl⟩

end Sokoban.Props
