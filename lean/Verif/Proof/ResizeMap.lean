import Verif.Proof.Resize

/-
The structures of the crate, read from the same bytes with another capacity.
-/
namespace Sokoban.Bytes
open NodeAllocator Layout Fields MapSpec

/-! ### layout -/

section Alloc
variable {T : Type} {B : Rep T} {N : Nat}

/-- offset of the nodes in an allocator -/
def nodesOff (B : Rep T) (N : Nat) : Nat := roundUp 16 (node B N).align

/-- the fields of an allocator before the nodes -/
def allocHead : Fields (((Unit × Nat) × Nat) × Nat) := ((Fields.nil.add u64).add u32).add u32

theorem lawful_allocHead : allocHead.Lawful := lawful_add (lawful_add (lawful_add lawful_nil lawful_u64) lawful_u32) lawful_u32

theorem nodeAllocator_eq (M : Nat) : nodeAllocator B M N = (allocHead.add (array (node B N) M)).close
    (fun s => ⟨s.1.1.1.2, s.1.1.2, s.1.2, s.2⟩)
    (fun a => (((((), a.size), a.bumpIndex), a.freeListHead), a.nodes)) := rfl

theorem alloc_nodes (M : Nat) (m : Mem) {i : Nat} (h : i < M) : ((nodeAllocator B M N).read m).nodes[i] =
    (node B N).read (m.from (nodesOff B N + i * (node B N).size)) := by
  rw [nodeAllocator_eq]
  simp only [close, add, array, Vector.getElem_ofFn]
  congr 1
  funext k
  show m (roundUp 16 (node B N).align + (i * (node B N).size + k)) = m (roundUp 16 (node B N).align + i * (node B N).size + k)
  rw [Nat.add_assoc]

theorem nodesOff_ge (hB : B.Lawful) : 16 ≤ nodesOff B N := le_roundUp (lawful_node hB N).pos

theorem alloc_head (hB : B.Lawful) (M M' : Nat) (m m' : Mem) (h : ∀ k < nodesOff B N, m' k = m k) :
    ((nodeAllocator B M' N).read m').size = ((nodeAllocator B M N).read m).size ∧
    ((nodeAllocator B M' N).read m').bumpIndex = ((nodeAllocator B M N).read m).bumpIndex ∧
    ((nodeAllocator B M' N).read m').freeListHead = ((nodeAllocator B M N).read m).freeListHead := by
  have e : allocHead.read m' = allocHead.read m :=
    lawful_allocHead.congr _ _ fun k hk => h k (Nat.lt_of_lt_of_le hk (nodesOff_ge hB))
  refine ⟨?_, ?_, ?_⟩
  · show (allocHead.read m').1.1.2 = (allocHead.read m).1.1.2
    rw [e]
  · show (allocHead.read m').1.2 = (allocHead.read m).1.2
    rw [e]
  · show (allocHead.read m').2 = (allocHead.read m).2
    rw [e]

theorem add_frame {S : Type} {H : Fields S} {A : Rep T} (hH : H.Lawful) (hA : A.Lawful) {n : Nat}
    (h : ∀ t m k, n ≤ k → A.write t m k = m k) (v : S × T) (m : Mem) (k : Nat) (hk : H.off A + n ≤ k) :
    (H.add A).write v m k = m k := by
  have := stop_le_off (F := H) hA
  show (H.write v.1 m).patch (H.off A) (A.write v.2 ((H.write v.1 m).from (H.off A))) k = m k
  unfold Mem.patch
  rw [if_pos (by omega), h _ _ _ (by omega)]
  show H.write v.1 m (H.off A + (k - H.off A)) = m k
  rw [show H.off A + (k - H.off A) = k by omega, hH.frame _ _ _ (by omega)]

theorem alloc_frame (hB : B.Lawful) (M : Nat) (a : NodeAllocator T M N) (m : Mem) (k : Nat)
    (hk : nodesOff B N + M * (node B N).size ≤ k) : (nodeAllocator B M N).write a m k = m k :=
  add_frame lawful_allocHead (lawful_array (lawful_node hB N) M) (lawful_array (lawful_node hB N) M).frame _ m k hk

theorem alloc_size (hB : B.Lawful) (M : Nat) : nodesOff B N + M * (node B N).size ≤ (nodeAllocator B M N).size :=
  le_roundUp (by
    have := (lawful_nodeAllocator hB M N).pos
    exact this)

theorem alloc_range {M M' : Nat} (m m' : Mem) (hB : B.Lawful) (h : ∀ k < nodesOff B N, m' k = m k)
    (hr : ((nodeAllocator B M N).read m).InRange (fun _ => True)) : ((nodeAllocator B M' N).read m').InRange (fun _ => True) := by
  obtain ⟨h1, h2, h3⟩ := alloc_head hB M M' m m' h
  refine ⟨by rw [h1]; exact hr.size, by rw [h2]; exact hr.bumpIndex, by rw [h3]; exact hr.freeListHead, fun i hi => ?_⟩
  rw [alloc_nodes M' m' hi]
  refine ⟨fun r hr => ?_, trivial⟩
  rw [node_register _ hr]
  exact readLE_lt 4 _

/-- a structure that ends with an allocator -/
theorem flex_of {S : Nat → Type} {P : Type} {H : Fields P} (hH : H.Lawful) (hB : B.Lawful)
    (f : (M : Nat) → P × NodeAllocator T M N → S M) (g : (M : Nat) → S M → P × NodeAllocator T M N) (hfg : ∀ M t, f M (g M t) = t)
    (al : (M : Nat) → S M → NodeAllocator T M N) (hal : ∀ M x, al M (f M x) = x.2) (Same : (M M' : Nat) → S M → S M' → Prop)
    (hS : ∀ M M' p a a', Same M M' (f M (p, a)) (f M' (p, a'))) :
    Flex (fun M => (H.add (nodeAllocator B M N)).close (f M) (g M)) B al
      (roundUp H.stop (nodeAllocator B 0 N).align + nodesOff B N) Same where
  lawful M := lawful_close (lawful_add hH (lawful_nodeAllocator hB M N)) (hfg M)
  lawfulB := hB
  nodes M m i h := by
    have : al M (((H.add (nodeAllocator B M N)).close (f M) (g M)).read m) =
        (nodeAllocator B M N).read (m.from (roundUp H.stop (nodeAllocator B 0 N).align)) := hal M _
    simp only [this]
    rw [alloc_nodes M _ h]
    congr 1
    funext k
    show m _ = m _
    congr 1
    omega
  head M M' m m' h := by
    have e1 : al M (((H.add (nodeAllocator B M N)).close (f M) (g M)).read m) =
        (nodeAllocator B M N).read (m.from (roundUp H.stop (nodeAllocator B 0 N).align)) := hal M _
    have e2 : al M' (((H.add (nodeAllocator B M' N)).close (f M') (g M')).read m') =
        (nodeAllocator B M' N).read (m'.from (roundUp H.stop (nodeAllocator B 0 N).align)) := hal M' _
    have e3 : H.read m' = H.read m := hH.congr _ _ fun k hk => h k (by
      have : H.stop ≤ roundUp H.stop (nodeAllocator B 0 N).align := le_roundUp (lawful_nodeAllocator hB 0 N).pos
      omega)
    simp only [e1, e2]
    refine ⟨?_, alloc_head hB M M' _ _ fun k hk => h _ (by omega)⟩
    show Same M M' (f M (H.read m, _)) (f M' (H.read m', _))
    rw [e3]
    exact hS _ _ _ _ _
  frame M t m k hk := by
    refine add_frame hH (lawful_nodeAllocator hB M N) (alloc_frame hB M) _ m k ?_
    show roundUp H.stop (nodeAllocator B 0 N).align + _ ≤ k
    omega
  size M := by
    have h1 := alloc_size (N := N) hB M
    have h2 : (H.add (nodeAllocator B M N)).stop ≤ roundUp (H.add (nodeAllocator B M N)).stop (H.add (nodeAllocator B M N)).align :=
      le_roundUp (by
        obtain ⟨k, hk⟩ := (lawful_add hH (lawful_nodeAllocator hB M N)).align
        rw [hk]; exact Nat.pow_pos (by omega))
    have h3 : (H.add (nodeAllocator B M N)).stop = roundUp H.stop (nodeAllocator B 0 N).align + (nodeAllocator B M N).size := rfl
    show _ ≤ roundUp (H.add (nodeAllocator B M N)).stop (H.add (nodeAllocator B M N)).align
    omega

/-- the part of the memory before the nodes decides the range of the words -/
theorem range_of {P : Type} {H : Fields P} (hB : B.Lawful) {M M' : Nat} {m m' : Mem}
    (h : ∀ k < roundUp H.stop (nodeAllocator B 0 N).align + nodesOff B N, m' k = m k)
    (hr : ((nodeAllocator B M N).read (m.from (roundUp H.stop (nodeAllocator B 0 N).align))).InRange (fun _ => True)) :
    ((nodeAllocator B M' N).read (m'.from (roundUp H.stop (nodeAllocator B 0 N).align))).InRange (fun _ => True) :=
  alloc_range _ _ hB (fun k hk => h _ (by omega)) hr

end Alloc

section
variable {K V T : Type} {C : Rep K} {D : Rep V} {A : Rep T}

theorem flex_deque (hA : A.Lawful) : Flex (fun M => deque A M) A (fun _ d => d.allocator)
    (roundUp dequeHead.stop (nodeAllocator A 0 2).align + nodesOff A 2)
    (fun _ _ d d' => d'.sequenceNumber = d.sequenceNumber ∧ d'.head = d.head ∧ d'.tail = d.tail) :=
  flex_of (S := fun M => Deque T M) lawful_dequeHead hA (fun _ s => ⟨s.1.1.1.2, s.1.1.2, s.1.2, s.2⟩)
    (fun _ d => (((((), d.sequenceNumber), d.head), d.tail), d.allocator)) (fun _ _ => rfl) (fun _ t => t.allocator) (fun _ _ => rfl) _
    (fun _ _ _ _ _ => ⟨rfl, rfl, rfl⟩)

theorem flex_hashTable (hC : C.Lawful) (hD : D.Lawful) (Bk : Nat) :
    Flex (fun M => hashTable C D Bk M) (hashNode C D) (fun _ h => h.allocator)
      (roundUp (hashHead Bk).stop (nodeAllocator (hashNode C D) 0 4).align + nodesOff (hashNode C D) 4)
      (fun _ _ h h' => h'.buckets = h.buckets) :=
  flex_of (S := fun M => HashTable K V Bk M) (lawful_hashHead Bk) (lawful_hashNode hC hD) (fun _ s => ⟨s.1.2, s.2⟩) (fun _ h => (((), h.buckets), h.allocator))
    (fun _ _ => rfl) (fun _ t => t.allocator) (fun _ _ => rfl) _ (fun _ _ _ _ _ => rfl)

theorem flex_redBlackTree (hC : C.Lawful) (hD : D.Lawful) :
    Flex (fun M => redBlackTree C D M) (rbNode C D) (fun _ t => t.allocator)
      (roundUp rbHead.stop (nodeAllocator (rbNode C D) 0 4).align + nodesOff (rbNode C D) 4)
      (fun _ _ t t' => t'.root = t.root) :=
  flex_of (S := fun M => RedBlackTree K V M) lawful_rbHead (lawful_rbNode hC hD) (fun _ s => ⟨s.1.1.2, s.2⟩) (fun _ t => ((((), t.root), ()), t.allocator))
    (fun _ _ => rfl) (fun _ t => t.allocator) (fun _ _ => rfl) _ (fun _ _ _ _ _ => rfl)

theorem flex_avlTree (hC : C.Lawful) (hD : D.Lawful) :
    Flex (fun M => avlTree C D M) (avlNode C D) (fun _ t => t.allocator)
      (roundUp avlHead.stop (nodeAllocator (avlNode C D) 0 4).align + nodesOff (avlNode C D) 4)
      (fun _ _ t t' => t'.root = t.root) :=
  flex_of (S := fun M => AVLTree K V M) lawful_avlHead (lawful_avlNode hC hD) (fun _ s => ⟨s.1.2, s.2⟩) (fun _ t => (((), t.root), t.allocator))
    (fun _ _ => rfl) (fun _ t => t.allocator) (fun _ _ => rfl) _ (fun _ _ _ _ _ => rfl)

/-- for the critbit tree it is the leaves that come last -/
theorem flex_critbit {a : Nat} (ha : IsAlign128 a) (hD : D.Lawful) (N : Nat) :
    Flex (fun M => critbit a D N M) D (fun _ t => t.leaves)
      (roundUp (critbitHead.add (nodeAllocator (critbitNode a) N 4)).stop (nodeAllocator D 0 4).align + nodesOff D 4)
      (fun _ _ t t' => t'.root = t.root ∧ t'.nodeAllocator = t.nodeAllocator) :=
  flex_of (S := fun M => Critbit V N M) (lawful_add lawful_critbitHead (lawful_nodeAllocator (lawful_critbitNode ha) N 4)) hD
    (fun _ s => ⟨s.1.1.1.2, s.1.2, s.2⟩) (fun _ t => (((((((), ()), t.root), ())), t.nodeAllocator), t.leaves))
    (fun _ _ => rfl) (fun _ t => t.leaves) (fun _ _ => rfl) _ (fun _ _ _ _ _ => ⟨rfl, rfl⟩)

end
end Sokoban.Bytes
