import Verif.Proof.BytesRun

namespace Sokoban.Bytes
open Layout Fields

variable {T K V : Type} {A : Rep T} {C : Rep K} {D : Rep V}

/-! ### States within the Rust types are representable -/

theorem valid_alloc (hA : A.Element) {M N : Nat} (a : NodeAllocator T M N) (h : a.InRange (fun _ => True)) :
    (nodeAllocator A M N).Valid a :=
  valid_nodeAllocator (fun v _ => hA.2 v) h

theorem valid_deque (hA : A.Element) {M : Nat} (d : Deque T M) (h : d.InRange) : (deque A M).Valid d :=
  ⟨⟨⟨⟨trivial, h.sequenceNumber⟩, h.head⟩, h.tail⟩, valid_alloc hA _ h.allocator⟩

theorem element_hashNode (hC : C.Element) (hD : D.Element) : (hashNode C D).Element :=
  ⟨lawful_hashNode hC.1 hD.1, fun v => ⟨⟨trivial, hC.2 v.key⟩, hD.2 v.value⟩⟩
theorem element_rbNode (hC : C.Element) (hD : D.Element) : (rbNode C D).Element :=
  ⟨lawful_rbNode hC.1 hD.1, fun v => ⟨⟨trivial, hC.2 v.key⟩, hD.2 v.value⟩⟩
theorem element_avlNode (hC : C.Element) (hD : D.Element) : (avlNode C D).Element :=
  ⟨lawful_avlNode hC.1 hD.1, fun v => ⟨⟨trivial, hC.2 v.key⟩, hD.2 v.value⟩⟩

theorem valid_hashTable (hC : C.Element) (hD : D.Element) {B M : Nat} (h : HashTable K V B M) (hr : h.InRange) :
    (hashTable C D B M).Valid h :=
  ⟨⟨trivial, fun i hi => hr.buckets i hi⟩, valid_alloc (element_hashNode hC hD) _ hr.allocator⟩

theorem valid_redBlackTree (hC : C.Element) (hD : D.Element) {M : Nat} (t : RedBlackTree K V M) (hr : t.InRange) :
    (redBlackTree C D M).Valid t :=
  ⟨⟨⟨trivial, hr.root⟩, trivial⟩, valid_alloc (element_rbNode hC hD) _ hr.allocator⟩

theorem valid_avlTree (hC : C.Element) (hD : D.Element) {M : Nat} (t : AVLTree K V M) (hr : t.InRange) :
    (avlTree C D M).Valid t :=
  ⟨⟨trivial, Nat.lt_trans hr.root (show 2 ^ 32 < 256 ^ 8 by decide)⟩, valid_alloc (element_avlNode hC hD) _ hr.allocator⟩

theorem valid_critbitNode (a : Nat) (n : CritbitNode) (h : n.prefixLen < 2 ^ 64) : (critbitNode a).Valid n :=
  ⟨⟨⟨trivial, trivial⟩, h⟩, trivial⟩

theorem valid_critbit {a : Nat} (hD : D.Element) {N M : Nat} (t : Critbit V N M) (hr : t.InRange) :
    (critbit a D N M).Valid t :=
  ⟨⟨⟨⟨⟨trivial, trivial⟩, hr.root⟩, trivial⟩,
    valid_nodeAllocator (P := fun n => n.prefixLen < 2 ^ 64) (valid_critbitNode a) hr.nodeAllocator⟩,
    valid_alloc hD _ hr.leaves⟩

/-! ### Zero bytes -/

theorem read_zero_deque (M : Nat) : (deque A M).read zeroMem = Deque.zeroed (A.read zeroMem) := by
  show Deque.mk _ _ _ ((nodeAllocator A M 2).read zeroMem) = _
  rw [read_zero_nodeAllocator]; rfl

theorem read_zero_hashTable (B M : Nat) :
    (hashTable C D B M).read zeroMem = HashTable.zeroed ⟨C.read zeroMem, D.read zeroMem⟩ := by
  show HashTable.mk _ ((nodeAllocator (hashNode C D) M 4).read zeroMem) = _
  rw [read_zero_nodeAllocator]
  show HashTable.mk _ _ = HashTable.mk _ _
  congr 1
  apply Vector.ext
  intro i hi
  simp only [hashHead, add, nil, array, Vector.getElem_ofFn, Vector.getElem_replicate]
  rfl

theorem read_zero_redBlackTree (M : Nat) :
    (redBlackTree C D M).read zeroMem = RedBlackTree.zeroed ⟨C.read zeroMem, D.read zeroMem⟩ := by
  show RedBlackTree.mk _ ((nodeAllocator (rbNode C D) M 4).read zeroMem) = _
  rw [read_zero_nodeAllocator]; rfl

theorem read_zero_avlTree (M : Nat) :
    (avlTree C D M).read zeroMem = AVLTree.zeroed ⟨C.read zeroMem, D.read zeroMem⟩ := by
  show AVLTree.mk _ ((nodeAllocator (avlNode C D) M 4).read zeroMem) = _
  rw [read_zero_nodeAllocator]; rfl

theorem readLE_zero : ∀ n, readLE zeroMem n = 0
  | 0 => rfl
  | n + 1 => by
    show 0 + 256 * readLE zeroMem n = 0
    rw [readLE_zero n]

theorem read_zero_critbitNode (a : Nat) : (critbitNode a).read zeroMem = ⟨0, 0⟩ := by
  show CritbitNode.mk (BitVec.ofNat 128 (readLE zeroMem 16)) (readLE zeroMem 8) = _
  rw [readLE_zero, readLE_zero]; rfl

theorem read_zero_critbit (a N M : Nat) :
    (critbit a D N M).read zeroMem = Critbit.zeroed ⟨0, 0⟩ (D.read zeroMem) := by
  show Critbit.mk _ ((nodeAllocator (critbitNode a) N 4).read zeroMem) ((nodeAllocator D M 4).read zeroMem) = _
  rw [read_zero_nodeAllocator, read_zero_nodeAllocator, read_zero_critbitNode]
  show Critbit.mk (readLE zeroMem 4) _ _ = _
  rw [readLE_zero]; rfl

/-! ### `initialize` -/

section Init
variable {addr : Nat}

theorem dequeInit_eq (hA : A.Lawful) {M : Nat} (ha : (deque A M).align ∣ addr) (d : Deque T M) :
    dequeInit A M addr d = ((params A M 2).assertProperAlignment 0 >>= fun _ => d.initialise) := by
  unfold dequeInit Deque.initialise
  have hd : (nodeAllocator A M 2).align ∣ addr + dequeHead.off (nodeAllocator A M 2) :=
    Nat.dvd_add (Nat.dvd_trans (dvd_add_align lawful_dequeHead (lawful_nodeAllocator hA M 2)).1 ha) (dvd_off _ _)
  rw [initialiseAt_eq hA (by omega) hd, bind_assoc]

theorem hashInit_eq (hC : C.Lawful) (hD : D.Lawful) {B M : Nat} (ha : (hashTable C D B M).align ∣ addr)
    (h : HashTable K V B M) :
    hashInit C D B M addr h = ((params (hashNode C D) M 4).assertProperAlignment 0 >>= fun _ => h.initialise) := by
  unfold hashInit HashTable.initialise
  have hd : (nodeAllocator (hashNode C D) M 4).align ∣ addr + (hashHead B).off (nodeAllocator (hashNode C D) M 4) :=
    Nat.dvd_add (Nat.dvd_trans (dvd_add_align (lawful_hashHead B) (lawful_nodeAllocator (lawful_hashNode hC hD) M 4)).1 ha)
      (dvd_off _ _)
  rw [initialiseAt_eq (lawful_hashNode hC hD) (by omega) hd, bind_assoc]

theorem rbInit_eq (hC : C.Lawful) (hD : D.Lawful) {M : Nat} (ha : (redBlackTree C D M).align ∣ addr)
    (t : RedBlackTree K V M) :
    rbInit C D M addr t = ((params (rbNode C D) M 4).assertProperAlignment 0 >>= fun _ => t.initialise) := by
  unfold rbInit RedBlackTree.initialise
  have hd : (nodeAllocator (rbNode C D) M 4).align ∣ addr + rbHead.off (nodeAllocator (rbNode C D) M 4) :=
    Nat.dvd_add (Nat.dvd_trans (dvd_add_align lawful_rbHead (lawful_nodeAllocator (lawful_rbNode hC hD) M 4)).1 ha)
      (dvd_off _ _)
  rw [initialiseAt_eq (lawful_rbNode hC hD) (by omega) hd, bind_assoc]

theorem avlInit_eq (hC : C.Lawful) (hD : D.Lawful) {M : Nat} (ha : (avlTree C D M).align ∣ addr)
    (t : AVLTree K V M) :
    avlInit C D M addr t = ((params (avlNode C D) M 4).assertProperAlignment 0 >>= fun _ => t.initialise) := by
  unfold avlInit AVLTree.initialise
  have hd : (nodeAllocator (avlNode C D) M 4).align ∣ addr + avlHead.off (nodeAllocator (avlNode C D) M 4) :=
    Nat.dvd_add (Nat.dvd_trans (dvd_add_align lawful_avlHead (lawful_nodeAllocator (lawful_avlNode hC hD) M 4)).1 ha)
      (dvd_off _ _)
  rw [initialiseAt_eq (lawful_avlNode hC hD) (by omega) hd, bind_assoc]

/-- The layout assertion of the inner nodes of a critbit tree holds for both alignments of `u128`. -/
theorem critbitNode_assert {a : Nat} (h : IsAlign128 a) (N : Nat) :
    (params (critbitNode a) N 4).assertProperAlignment 0 = .ok () := by
  rcases h with rfl | rfl
  · have e : params (critbitNode 8) N 4 = ⟨32, 8, 4, N⟩ := rfl
    rw [e, Params.assert_iff]
    simp [Params.selfAlign, Params.nodeAlign, Params.nodesOff, roundUp]
  · have e : params (critbitNode 16) N 4 = ⟨32, 16, 4, N⟩ := rfl
    rw [e, Params.assert_iff]
    simp [Params.selfAlign, Params.nodeAlign, Params.nodesOff, roundUp]

theorem critbitInit_eq {a : Nat} (h128 : IsAlign128 a) (hD : D.Lawful) {N M : Nat} (ha : (critbit a D N M).align ∣ addr)
    (t : Critbit V N M) :
    critbitInit a D N M addr t = (t.nodeAllocator.initialise >>= fun n =>
      (params D M 4).assertProperAlignment 0 >>= fun _ => t.leaves.initialise >>= fun l =>
        pure { t with nodeAllocator := n, leaves := l }) := by
  have hl := lawful_nodeAllocator (lawful_critbitNode h128) N 4
  have h1 := dvd_add_align lawful_critbitHead hl
  have h2 := dvd_add_align (lawful_add lawful_critbitHead hl) (lawful_nodeAllocator hD M 4)
  have ha : ((critbitHead.add (nodeAllocator (critbitNode a) N 4)).add (nodeAllocator D M 4)).align ∣ addr := ha
  unfold critbitInit
  rw [initialiseAt_eq (lawful_critbitNode h128) (by omega)
    (Nat.dvd_add (Nat.dvd_trans h1.1 (Nat.dvd_trans h2.2 ha)) (dvd_off _ _)), critbitNode_assert h128 N]
  have e : ∀ l, initialiseAt D (addr + (critbitHead.add (nodeAllocator (critbitNode a) N 4)).off (nodeAllocator D M 4)) l =
      ((params D M 4).assertProperAlignment 0 >>= fun _ => l.initialise) := fun l =>
    initialiseAt_eq hD (by omega) (Nat.dvd_add (Nat.dvd_trans h2.1 ha) (dvd_off _ _)) l
  simp only [e, except_bind_ok, bind_assoc]

end Init

end Sokoban.Bytes
