import Verif.Proof.ResizeMap
import Verif.Proof.PeakMap
import Verif.Proof.BytesTypes

/-
The structures keep what they hold when their capacity changes.
-/
namespace Sokoban
open NodeAllocator MapSpec

theorem Base.alike {K V T : Type} {M M' : Nat} {f : K → V → T} {S : Nat → Prop} {a : NodeAllocator T M 4}
    {a' : NodeAllocator T M' 4} {E : List (Nat × K × V)} (h : Base f S a E) (ha : Alike a a' S) (hM : M' + 1 < 2 ^ 32) :
    Base f S a' E where
  kept := fun _ h => nomatch h
  known := by obtain ⟨free, hf⟩ := h.inv; exact ⟨free, Known.nothing_ok _, ha.ainv hM hf⟩
  clean := ha.clean h.clean
  vals e he := by
    obtain ⟨free, hf⟩ := h.inv
    rw [ha.live_val hf (List.mem_map_of_mem he)]; exact h.vals e he

theorem Base.quiet {K V T : Type} {M : Nat} {f : K → V → T} {S : Nat → Prop} {a : NodeAllocator T M 4}
    {E : List (Nat × K × V)} (h : Base f S a E) (i r : Nat) (hr : S r) (hi : a.bumpIndex ≤ i) : a.reg i r = 0 := by
  obtain ⟨free, hf⟩ := h.inv
  refine h.clean i r (fun hc => ?_) hr (Or.inr hi)
  have := hf.live_lt hc
  omega

theorem NodeAllocator.AInv.bump_range {T : Type} {M N : Nat} {a : NodeAllocator T M N} {free live : List Nat} (h : AInv a free live) :
    1 ≤ a.bumpIndex ∧ a.bumpIndex ≤ M + 1 := by
  have := h.bump_le
  have := usable_le M
  exact ⟨h.bump_pos, by omega⟩

namespace RedBlackTree
variable {K V : Type} {M M' : Nat} {s : RedBlackTree K V M} {s' : RedBlackTree K V M'} {E : List (Nat × K × V)}

theorem Held.alike (h : Held s E) (hr : s'.root = s.root) (ha : Alike s.allocator s'.allocator (fun r => r < 4))
    (hM : M' + 1 < 2 ^ 32) : Held s' E := by
  have hb := h.base
  obtain ⟨t, hz, hg⟩ := h
  have hE := hz.ents
  simp only [Ctx.lft, Ctx.rgt, List.nil_append, List.append_nil] at hE
  refine ⟨t, ⟨hz.shape.frame0 fun i hi r => ha.reg i r (Or.inl ?_), ?_, hz.ents, hz.base.alike ha hM⟩, hg⟩
  · obtain ⟨free, hf⟩ := hb.inv
    refine hf.live_lt ?_
    rw [← hE]
    exact hi
  · exact hr.trans hz.cshape

end RedBlackTree

namespace AVLTree
variable {K V : Type} {M M' : Nat} {s : AVLTree K V M} {s' : AVLTree K V M'} {E : List (Nat × K × V)}

theorem Held.alike (h : Held s E) (hr : s'.root = s.root) (ha : Alike s.allocator s'.allocator (fun r => r < 3))
    (hM : M' + 1 < 2 ^ 32) : Held s' E := by
  have hb := h.base
  obtain ⟨t, hz, hg⟩ := h
  have hE := hz.ents
  simp only [Ctx.lft, Ctx.rgt, List.nil_append, List.append_nil] at hE
  refine ⟨t, ⟨hz.shape.frame fun i hi r => ha.reg i r (Or.inl ?_), ?_, hz.ents, hz.base.alike ha hM⟩, hg⟩
  · obtain ⟨free, hf⟩ := hb.inv
    refine hf.live_lt ?_
    rw [← hE]
    exact hi
  · exact hr.trans hz.cshape

end AVLTree

namespace HashTable
variable {K V : Type} {B M M' : Nat} {s : HashTable K V B M} {s' : HashTable K V B M'} {c : Nat → List (Ent K V)}
  {st : Prop} {hash : K → Nat}

theorem HHeld.alike (h : HHeld st hash s c) (hr : s'.buckets = s.buckets) (ha : Alike s.allocator s'.allocator (fun r => r < 2))
    (hM : M' + 1 < 2 ^ 32) : HHeld st hash s' c where
  pos := h.pos
  known := by obtain ⟨free, hf⟩ := h.inv; exact ⟨free, Known.nothing_ok _, ha.ainv hM hf⟩
  clean := ha.clean h.clean
  seg b hb := by
    obtain ⟨free, hf⟩ := h.inv
    refine (h.seg b hb).frame fun i hi => ?_
    obtain ⟨e, he, rfl⟩ := List.mem_map.1 hi
    have hlt : e.1 < s.allocator.bumpIndex := hf.live_lt (List.mem_map_of_mem (mem_all.2 ⟨b, hb, he⟩))
    exact ⟨ha.reg _ _ (Or.inl hlt), ha.reg _ _ (Or.inl hlt)⟩
  head b hb := by rw [← h.head b hb]; simp only [hr]
  vals b hb e he := by
    obtain ⟨free, hf⟩ := h.inv
    rw [ha.live_val hf (List.mem_map_of_mem (mem_all.2 ⟨b, hb, he⟩))]; exact h.vals b hb e he
  home := h.home
  kept := fun _ h => nomatch h

theorem HHeld.quiet (h : HHeld st hash s c) (i r : Nat) (hr : r < 2) (hi : s.allocator.bumpIndex ≤ i) : s.allocator.reg i r = 0 := by
  obtain ⟨free, hf⟩ := h.inv
  refine h.clean i r (fun hc => ?_) hr (Or.inr hi)
  have := hf.live_lt hc
  omega

end HashTable

namespace Deque
variable {T : Type} {M M' : Nat} {d : Deque T M} {d' : Deque T M'} {l : List (Nat × T)}

theorem DRep.alike (h : DRep d l) (hh : d'.head = d.head) (ht : d'.tail = d.tail)
    (ha : Alike d.allocator d'.allocator (fun r => r < 2)) (hM : M' + 1 < 2 ^ 32) : DRep d' l where
  inv := by obtain ⟨free, hf⟩ := h.inv; exact ⟨free, ha.ainv hM hf⟩
  clean := ha.clean h.clean
  seg := by
    obtain ⟨free, hf⟩ := h.inv
    refine h.seg.frame fun i hi => ?_
    have hlt : i < d.allocator.bumpIndex := hf.live_lt hi
    exact ⟨ha.reg _ _ (Or.inl hlt), ha.reg _ _ (Or.inl hlt)⟩
  vals e he := by
    obtain ⟨free, hf⟩ := h.inv
    rw [ha.live_val hf (List.mem_map_of_mem he)]; exact h.vals e he
  head := hh.trans h.head
  tail := ht.trans h.tail

theorem DRep.quiet (h : DRep d l) (i r : Nat) (hr : r < 2) (hi : d.allocator.bumpIndex ≤ i) : d.allocator.reg i r = 0 := by
  obtain ⟨free, hf⟩ := h.inv
  refine h.clean i r (fun hc => ?_) hr (Or.inr hi)
  have := hf.live_lt hc
  omega

end Deque

namespace Critbit
variable {V : Type} {N M M' : Nat} {s : Critbit V N M} {s' : Critbit V N M'} {E : List (Nat × BitVec 128 × V)}

theorem Sh.alike {t : CT V} (hn : s'.nodeAllocator = s.nodeAllocator) :
    ∀ {p : Nat}, (∀ j ∈ t.ents.map Prod.fst, s'.leaves.val? j = s.leaves.val? j) → Sh s p t → Sh s' p t := by
  induction t with
  | leaf i j k v =>
    rintro p hl ⟨h1, h2, h3, h4, h5, h6⟩
    have := hl j (by simp)
    exact ⟨by rw [hn]; exact h1, by rw [hn]; exact h2, by rw [hn]; exact h3, by rw [hn]; exact h4, by rw [hn]; exact h5,
      by rw [this]; exact h6⟩
  | inner i q k l r ihl ihr =>
    rintro p hl ⟨h1, h2, h3, h4, h5, h6, h7⟩
    refine ⟨by rw [hn]; exact h1, by rw [hn]; exact h2, by rw [hn]; exact h3, by rw [hn]; exact h4, by rw [hn]; exact h5,
      ihl (fun j hj => hl j ?_) h6, ihr (fun j hj => hl j ?_) h7⟩
    · simp only [CT.ents_inner, List.map_append, List.mem_append]; exact Or.inl hj
    · simp only [CT.ents_inner, List.map_append, List.mem_append]; exact Or.inr hj

theorem Inv.alike (h : Inv s E) (hr : s'.root = s.root) (hn : s'.nodeAllocator = s.nodeAllocator)
    (ha : Alike s.leaves s'.leaves (fun _ => False)) (hM : M' + 1 < 2 ^ 32) : Inv s' E := by
  rcases h with ⟨⟨h1, nf, lf, h2, h3, h4, h5⟩, rfl⟩ | ⟨t, h, rfl⟩
  · exact Or.inl ⟨⟨hr.trans h1, nf, lf, by rw [hn]; exact h2, by rw [hn]; exact h3, ha.ainv hM h4, by rw [hn]; exact h5⟩, rfl⟩
  · obtain ⟨nf, lf, g1, g2, g3⟩ := h.gi
    exact Or.inr ⟨t, ⟨hr.trans h.root, h.sh.alike hn fun j hj => ha.live_val g3 hj, h.rad,
      nf, lf, by rw [hn]; exact g1, by rw [hn]; exact g2, ha.ainv hM g3⟩, rfl⟩

end Critbit

namespace Bytes
open Layout Fields
variable {K V T : Type} {C : Rep K} {D : Rep V} {A : Rep T}

theorem works_redBlackTree [LinearOrder K] (hC : C.Element) (hD : D.Element) :
    Works (flex_redBlackTree hC.1 hD.1) (fun r => r < 4) (fun _ => RedBlackSpec.call) (fun M => RedBlackSpec.TStep M)
      (fun _ => RedBlackTree.len) (fun M => 0 < M ∧ M + 1 < 2 ^ 32) (fun _ => RedBlackTree.InRange)
      (fun _ _ t (m : FMap K V) => ∃ E, RedBlackTree.Inv t E ∧ m.Lists (E.map Prod.snd)) (fun _ _ _ => True) where
  valid _ := valid_redBlackTree hC hD
  range M M' m m' h hr := by
    refine ⟨?_, range_of (H := rbHead) (lawful_rbNode hC.1 hD.1) h hr.allocator⟩
    rw [((flex_redBlackTree hC.1 hD.1).head M M' m m' h).1]
    exact hr.root
  post _ := RedBlackTree.call_post
  sess n M t m ops hc hh _ := by
    obtain ⟨E, hi, hm⟩ := hh
    obtain ⟨t', os, E', m', e, h1, h2, h3, _⟩ := run_trace (gone := fun op o k => RedBlackSpec.Removes k (op, o))
      (RedBlackTree.call_spec hc.2 hc.1) ops t E m hi hm
    obtain ⟨_, hb, _⟩ := run_peak (fun _ (s : RedBlackTree K V M) => ∃ E, RedBlackTree.Held s E)
      (fun s => s.allocator.bumpIndex) RedBlackTree.len (fun s i => s.allocator.val? i)
      (fun _ s ⟨E, h⟩ => by obtain ⟨free, hf⟩ := h.base.inv; exact hf.size_lt)
      (fun _ => RedBlackTree.call_peak hc.2 hc.1) ops _ t' os (by obtain ⟨u, g1, g2, _⟩ := hi; exact ⟨E, u, g1, g2⟩) e
    exact ⟨t', os, m', e, ⟨E', h1, h2⟩, h3, hb⟩
  clean n M t m hh i r hr hi := by
    obtain ⟨E, ⟨u, g1, g2, _⟩, _⟩ := hh
    exact (RedBlackTree.Held.base ⟨u, g1, g2⟩).quiet i r hr hi
  bump n M t m hh := by
    obtain ⟨E, ⟨u, g1, g2, _⟩, _⟩ := hh
    obtain ⟨free, hf⟩ := (RedBlackTree.Held.base ⟨u, g1, g2⟩).inv
    exact hf.bump_range
  resize n M M' t t' m hc hh hs ha := by
    obtain ⟨E, ⟨u, g1, g2, g3⟩, hm⟩ := hh
    obtain ⟨u', g1', g2'⟩ := RedBlackTree.Held.alike ⟨u, g1, g2⟩ hs ha hc.2
    exact ⟨E, ⟨u', g1', g2', g3⟩, hm⟩

theorem works_avlTree [LinearOrder K] (hC : C.Element) (hD : D.Element) :
    Works (flex_avlTree hC.1 hD.1) (fun r => r < 3) (fun _ => AVLSpec.call) (fun M => Step (treeRules K V M))
      (fun _ => AVLTree.len) (fun M => 0 < M ∧ M + 1 < 2 ^ 32) (fun _ => AVLTree.InRange)
      (fun _ _ t (m : FMap K V) => ∃ E, AVLTree.Inv t E ∧ m.Lists (E.map Prod.snd)) (fun _ _ _ => True) where
  valid _ := valid_avlTree hC hD
  range M M' m m' h hr := by
    refine ⟨?_, range_of (H := avlHead) (lawful_avlNode hC.1 hD.1) h hr.allocator⟩
    rw [((flex_avlTree hC.1 hD.1).head M M' m m' h).1]
    exact hr.root
  post _ := AVLTree.call_post
  sess n M t m ops hc hh _ := by
    obtain ⟨E, hi, hm⟩ := hh
    obtain ⟨t', os, E', m', e, h1, h2, h3, _⟩ := run_trace (gone := fun op _ k => op = .remove k)
      (AVLTree.call_spec hc.2 hc.1) ops t E m hi hm
    obtain ⟨_, hb, _⟩ := run_peak (fun _ (s : AVLTree K V M) => ∃ E, AVLTree.Held s E)
      (fun s => s.allocator.bumpIndex) AVLTree.len (fun s i => s.allocator.val? i)
      (fun _ s ⟨E, h⟩ => by obtain ⟨free, hf⟩ := h.base.inv; exact hf.size_lt)
      (fun _ => AVLTree.call_peak hc.2 hc.1) ops _ t' os (by obtain ⟨u, g1, g2, _⟩ := hi; exact ⟨E, u, g1, g2⟩) e
    exact ⟨t', os, m', e, ⟨E', h1, h2⟩, h3, hb⟩
  clean n M t m hh i r hr hi := by
    obtain ⟨E, ⟨u, g1, g2, _⟩, _⟩ := hh
    exact (AVLTree.Held.base ⟨u, g1, g2⟩).quiet i r hr hi
  bump n M t m hh := by
    obtain ⟨E, ⟨u, g1, g2, _⟩, _⟩ := hh
    obtain ⟨free, hf⟩ := (AVLTree.Held.base ⟨u, g1, g2⟩).inv
    exact hf.bump_range
  resize n M M' t t' m hc hh hs ha := by
    obtain ⟨E, ⟨u, g1, g2, g3⟩, hm⟩ := hh
    obtain ⟨u', g1', g2'⟩ := AVLTree.Held.alike ⟨u, g1, g2⟩ hs ha hc.2
    exact ⟨E, ⟨u', g1', g2', g3⟩, hm⟩

theorem works_hashTable [DecidableEq K] (hC : C.Element) (hD : D.Element) (Bk : Nat) (hash : K → Nat) :
    Works (flex_hashTable hC.1 hD.1 Bk) (fun r => r < 2) (fun _ => HashTableSpec.call hash) (fun M => Step (hashRules K V M))
      (fun _ => HashTable.len) (fun M => M + 1 < 2 ^ 32) (fun _ => HashTable.InRange)
      (fun _ _ t (m : FMap K V) => ∃ E, HashTable.Rep hash t E ∧ m.Lists (E.map Prod.snd)) (fun _ _ _ => True) where
  valid _ := valid_hashTable hC hD
  range M M' m m' h hr := by
    refine ⟨?_, range_of (H := hashHead Bk) (lawful_hashNode hC.1 hD.1) h hr.allocator⟩
    rw [((flex_hashTable hC.1 hD.1 Bk).head M M' m m' h).1]
    exact hr.buckets
  post _ := HashTable.call_post hash
  sess n M t m ops hc hh _ := by
    obtain ⟨E, hi, hm⟩ := hh
    obtain ⟨t', os, E', m', e, h1, h2, h3, _⟩ := run_steps (HashTable.call_spec (hash := hash) hc) ops t E m hi hm
    obtain ⟨_, hb, _⟩ := run_peak (fun _ (s : HashTable K V Bk M) => ∃ c, HashTable.HHeld True hash s c)
      (fun s => s.allocator.bumpIndex) HashTable.len (fun s i => s.allocator.val? i)
      (fun _ s ⟨E, h⟩ => by obtain ⟨free, hf⟩ := h.inv; exact hf.size_lt)
      (fun _ => HashTable.call_peak hc) ops _ t' os (by obtain ⟨c, g, _⟩ := hi; exact ⟨c, g.toHHeld⟩) e
    exact ⟨t', os, m', e, ⟨E', h1, h2⟩, h3, hb⟩
  clean n M t m hh i r hr hi := by
    obtain ⟨E, ⟨c, g, _⟩, _⟩ := hh
    exact g.toHHeld.quiet i r hr hi
  bump n M t m hh := by
    obtain ⟨E, ⟨c, g, _⟩, _⟩ := hh
    obtain ⟨free, hf⟩ := g.inv
    exact hf.bump_range
  resize n M M' t t' m hc hh hs ha := by
    obtain ⟨E, ⟨c, g, hE⟩, hm⟩ := hh
    exact ⟨E, ⟨c, ⟨g.toHHeld.alike hs ha hc, g.keys⟩, hE⟩, hm⟩

theorem trace_of_specRun {X Op Out : Type} {step : X → Op → Option (X × Out)} : ∀ (ops : List Op) (x x' : X) (os : List Out),
    specRun step x ops = some (x', os) → Trace (fun x op o x' => step x op = some (x', o)) x ops os x'
  | [], x, x', os, h => by cases h; rfl
  | op :: ops, x, x', os, h => by
    unfold specRun at h
    cases h1 : step x op with
    | none => rw [h1] at h; cases h
    | some p =>
      rw [h1] at h
      cases h2 : specRun step p.1 ops with
      | none =>
        simp [h2] at h
      | some q =>
        have h : some (q.1, p.2 :: q.2) = some (x', os) := by simpa [h2] using h
        cases h
        exact ⟨p.1, h1, trace_of_specRun ops _ _ _ h2⟩

theorem works_deque (hA : A.Element) :
    Works (flex_deque hA.1) (fun r => r < 2) (fun _ => DequeSpec.call)
      (fun M (l : List T) op o l' => DequeSpec.step M l op = some (l', o))
      (fun _ => Deque.len) (fun M => M + 1 < 2 ^ 32) (fun _ => Deque.InRange)
      (fun n _ d (l : List T) => ∃ l2, Deque.DRep d l2 ∧ Deque.vals l2 = l ∧ d.sequenceNumber + n < 2 ^ 64)
      (fun M l ops => (specRun (DequeSpec.step M) l ops).isSome) where
  valid _ := valid_deque hA
  range M M' m m' h hr := by
    obtain ⟨h1, h2, h3⟩ := ((flex_deque hA.1).head M M' m m' h).1
    exact ⟨by rw [h1]; exact hr.sequenceNumber, by rw [h2]; exact hr.head, by rw [h3]; exact hr.tail,
      range_of (H := dequeHead) hA.1 h hr.allocator⟩
  post _ := Deque.call_post
  sess n M d l ops hc hh hab := by
    obtain ⟨l2, hd, rfl, hn⟩ := hh
    cases hs : specRun (DequeSpec.step M) (Deque.vals l2) ops with
    | none => rw [hs] at hab; cases hab
    | some q =>
      obtain ⟨d', l3, e, hd', hv, hsq⟩ := (Deque.run_spec hc ops hd (by omega)).1 q.1 q.2 hs
      obtain ⟨⟨l4, _, hn4⟩, hb, _⟩ := run_peak (fun k (d : Deque T M) => ∃ l, Deque.DRep d l ∧ d.sequenceNumber + (n + k) < 2 ^ 64)
        (fun s => s.allocator.bumpIndex) Deque.len (fun s i => s.allocator.val? i)
        (fun _ s ⟨c, h, _⟩ => by obtain ⟨free, hf⟩ := h.inv; exact hf.size_lt)
        (fun k d op d' o ⟨l, hd, hn⟩ e => by
          obtain ⟨c1, c2⟩ := Deque.call_spec hd hc (by omega) op
          cases hst : DequeSpec.step M (Deque.vals l) op with
          | none => rw [c2 hst] at e; cases e
          | some q =>
            obtain ⟨d2, l2, e2, hd2, _, hsq⟩ := c1 q.1 q.2 hst
            have hd' : d2 = d' := by rw [e2] at e; cases e; rfl
            subst hd'
            have := Deque.changed_le op q.2
            exact ⟨⟨l2, hd2, by omega⟩, Deque.call_peak d op d2 o hd hd2 e⟩)
        ops _ d' q.2 ⟨l2, hd, hn⟩ e
      exact ⟨d', q.2, q.1, e, ⟨l3, hd', hv, by omega⟩, trace_of_specRun ops _ _ _ hs, hb⟩
  clean n M t m hh i r hr hi := by
    obtain ⟨l2, hd, _⟩ := hh
    exact hd.quiet i r hr hi
  bump n M t m hh := by
    obtain ⟨l2, hd, _⟩ := hh
    obtain ⟨free, hf⟩ := hd.inv
    exact hf.bump_range
  resize n M M' t t' m hc hh hs ha := by
    obtain ⟨l2, hd, hv, hn⟩ := hh
    exact ⟨l2, hd.alike hs.2.1 hs.2.2 ha hc, hv, by rw [hs.1]; exact hn⟩

theorem works_critbit {a N : Nat} (h128 : IsAlign128 a) (hD : D.Element) (hN : N + 1 < 2 ^ 32) :
    Works (flex_critbit h128 hD.1 N) (fun _ => False) (fun _ => CritbitSpec.call) (fun M => Step (critbitRules (BitVec 128) V M))
      (fun _ => Critbit.len) (fun M => 0 < M ∧ 2 * M ≤ N) (fun _ => Critbit.InRange)
      (fun _ _ t (m : FMap (BitVec 128) V) => ∃ E, Critbit.Inv t E ∧ m.Lists (E.map Prod.snd)) (fun _ _ _ => True) where
  valid _ := valid_critbit hD
  range M M' m m' h hr := by
    obtain ⟨h1, h2⟩ := ((flex_critbit h128 hD.1 N).head M M' m m' h).1
    exact ⟨by rw [h1]; exact hr.root, by rw [h2]; exact hr.nodeAllocator,
      range_of (H := critbitHead.add (nodeAllocator (critbitNode a) N 4)) hD.1 h hr.leaves⟩
  post _ := Critbit.call_post
  sess n M t m ops hc hh _ := by
    obtain ⟨E, hi, hm⟩ := hh
    obtain ⟨t', os, E', m', e, h1, h2, h3, _⟩ := run_trace (gone := fun op _ k => op = .remove k)
      (Critbit.call_spec hN hc.2 hc.1) ops t E m hi hm
    obtain ⟨_, hb, _⟩ := run_peak
      (fun _ (s : Critbit V N M) => ∃ E m, Critbit.Inv s E ∧ FMap.Lists m (E.map Prod.snd))
      (fun s => s.leaves.bumpIndex) Critbit.len (fun s i => s.leaves.val? i)
      (fun _ s ⟨E, m, h, _⟩ => by obtain ⟨free, hf⟩ := h.live; exact hf.size_lt)
      (fun _ => Critbit.call_peak hN hc.2 hc.1) ops _ t' os ⟨E, m, hi, hm⟩ e
    exact ⟨t', os, m', e, ⟨E', h1, h2⟩, h3, hb⟩
  clean n M t m hh i r hr hi := hr.elim
  bump n M t m hh := by
    obtain ⟨E, hi, _⟩ := hh
    obtain ⟨free, hf⟩ := hi.live
    exact hf.bump_range
  resize n M M' t t' m hc hh hs ha := by
    obtain ⟨E, hi, hm⟩ := hh
    exact ⟨E, hi.alike hs.1 hs.2 ha (by omega), hm⟩

theorem specRun_of_trace {X Op Out : Type} {step : X → Op → Option (X × Out)} : ∀ (ops : List Op) (x x' : X) (os : List Out),
    Trace (fun x op o x' => step x op = some (x', o)) x ops os x' → specRun step x ops = some (x', os)
  | [], x, x', [], h => by cases h; rfl
  | [], _, _, _ :: _, h => h.elim
  | _ :: _, _, _, [], h => h.elim
  | op :: ops, x, x', o :: os, ⟨x1, h1, h2⟩ => by
    simp [specRun, h1, specRun_of_trace ops _ _ _ h2]

/-- sessions of a specification by a function -/
theorem able_of_specSessions {X Op Out : Type} {step : Nat → X → Op → Option (X × Out)} : ∀ (xs : List (Session Op)) (x x' : X)
    (outs : List (List Out)), specSessions step x xs = some (x', outs) →
    Able (fun M x op o x' => step M x op = some (x', o)) (fun M x ops => (specRun (step M) x ops).isSome) x xs ∧
    ∀ x2 outs2, SessTrace (fun M x op o x' => step M x op = some (x', o)) x xs outs2 x2 → outs2 = outs
  | [], x, x', outs, h => by
    cases h
    refine ⟨trivial, fun x2 outs2 h => ?_⟩
    cases outs2 with
    | nil => rfl
    | cons => exact h.elim
  | s :: ss, x, x', outs, h => by
    unfold specSessions at h
    cases h1 : specRun (step s.cap) x s.ops with
    | none => rw [h1] at h; cases h
    | some p =>
      rw [h1] at h
      cases h2 : specSessions step p.1 ss with
      | none => simp [h2] at h
      | some q =>
        have h : some (q.1, p.2 :: q.2) = some (x', outs) := by simpa [h2] using h
        cases h
        obtain ⟨i1, i2⟩ := able_of_specSessions ss p.1 _ _ h2
        refine ⟨⟨by simp only [h1]; rfl, fun os x1 ht => ?_⟩, fun x2 outs2 ht => ?_⟩
        · have := specRun_of_trace _ _ _ _ ht
          rw [h1] at this
          cases this
          exact i1
        · cases outs2 with
          | nil => exact ht.elim
          | cons o os =>
            obtain ⟨x1, t1, t2⟩ := ht
            have := specRun_of_trace _ _ _ _ t1
            rw [h1] at this
            cases this
            rw [i2 _ _ t2]

theorem able_true {X Op Out : Type} {spec : Nat → X → Op → Out → X → Prop} : ∀ (xs : List (Session Op)) (x : X),
    Able spec (fun _ _ _ => True) x xs
  | [], _ => trivial
  | _ :: ss, _ => ⟨trivial, fun _ x1 _ => able_true ss x1⟩

/-- a structure made by `new_from_slice` in a zeroed buffer -/
theorem Works.made {S : Nat → Type} {A : (M : Nat) → Rep (S M)} {T : Type} {N : Nat} {B : Rep T}
    {al : (M : Nat) → S M → NodeAllocator T M N} {base : Nat} {Same : (M M' : Nat) → S M → S M' → Prop}
    {F : Flex A B al base Same} {X Op Out : Type} {Rg : Nat → Prop} {step : (M : Nat) → S M → Op → R (S M × Out)}
    {spec : Nat → X → Op → Out → X → Prop} {len : (M : Nat) → S M → Nat} {Cap : Nat → Prop} {I : (M : Nat) → S M → Prop}
    {H : Nat → (M : Nat) → S M → X → Prop} {able : Nat → X → List Op → Prop}
    (W : Works F Rg step spec len Cap I H able) {n M : Nat} {s0 s : Slice} {acc : Prop} {new : S M} {x : X}
    {init : Nat → S M → R (S M)} (hz : ∀ k < s0.len, s0.mem k = 0)
    (hn : MakesNew (A M) acc new s0 (newFromSlice (A M) init s0)) (he : newFromSlice (A M) init s0 = .ok s)
    (hi : I M new) (hh : H n M new x) (hb : (al M new).bumpIndex = 1) : W.In n 1 s x := by
  by_cases h1 : s0.len < (A M).size
  · rw [hn.short h1] at he; cases he
  by_cases h2 : (A M).align ∣ s0.addr
  swap
  · rw [hn.misaligned (by omega) h2] at he; cases he
  have hf : s0.Fits (A M) := ⟨by omega, h2⟩
  have hz' : s0.Zero (A M) := fun k hk => hz k (by omega)
  by_cases h3 : acc
  swap
  · rw [hn.refused hf hz' h3] at he; cases he
  obtain ⟨s', e, hl, _, hlen, _⟩ := hn.new hf hz' h3
  rw [he] at e
  cases e
  refine W.fresh hz hl hlen (fun k hk => ?_) hi hh hb
  rw [newFromSlice_fits init hf] at he
  cases e2 : init s0.addr ((A M).read s0.mem) with
  | error p => rw [e2] at he; cases he
  | ok t =>
    rw [e2] at he
    cases he
    exact F.frame M t s0.mem k hk

end Bytes
end Sokoban
