import Verif.Proof.Nav
import Verif.Proof.AnyEq
import Verif.Proof.AnyOrder
import Verif.Proof.CritbitShape

/-
Property theorems C69: the public functions for children, parents and neighbours describe one consistent
structure. `Linked` and `climb` are in Spec/Nav.lean.
-/
namespace Sokoban.Props
open MapSpec Nav
variable {K V : Type} {B N M : Nat}

section rb
open RedBlackSpec RedBlackTree

/-- C69 for the red-black tree, whatever the comparison of keys: after every history `get_left`, `get_right`
and `get_parent` describe, from the root down, one finite binary tree without repeated nodes. Its nodes from
left to right hold what `iter` yields, and from each of them repeated `get_parent` reaches the root after
fewer than `2 * log2 (len + 1)` steps. -/
theorem C69_rb_links [Ord K] (hM0 : 0 < M) (hM : M + 1 < 2 ^ 32) (z : RBNode K V) (ops : List (TOp K V)) :
    ∃ (t : RedBlackTree K V M) (outs : List (TOut K V)) (L : List Nat) (es : List (K × V)),
      run call (RedBlackTree.new z) ops = .ok (t, outs) ∧
      Linked t.getLeft t.getRight t.getParent SENTINEL t.root L ∧ L.Nodup ∧ L.length = t.len ∧
      (∀ i ∈ L, 1 ≤ i ∧ i ≤ M) ∧
      L.map t.getNode = es.map (fun e => .ok ⟨e.1, e.2⟩) ∧
      (∀ ds, ∃ it', drive (Iter.next t) (Iter.nextBack t) t.iter ds = .ok (it', consume es ds)) ∧
      ∀ i ∈ L, ∃ d, d < 2 * (t.len + 1).log2 ∧ climb t.getParent d i = .ok t.root := by
  obtain ⟨t, os, E, e, h, hs⟩ := RedBlackTree.run_any hM hM0 z ops
  have hl : t.len = E.length := h.base.size
  obtain ⟨h1, h2, h3, h4, h5⟩ := h.linked
  rw [← hl] at h5
  refine ⟨t, os, E.map Prod.fst, E.map Prod.snd, e, h1, h2, by simp [hl], h3, ?_, (loose hM hM0).drive h, h5⟩
  rw [List.map_map, List.map_map]
  exact List.map_congr_left h4

/-- C69: what the navigation functions say at the node of a key. The parent of the root, and of it alone, is
`SENTINEL`; the parent of another node is the node of a key, greater exactly if the node is its left child;
children are nodes of lesser and greater keys that name the node as their parent; `get_child`, `get_dir`,
`is_leaf` and `is_root` agree. -/
theorem C69_rb_neighbours [LinearOrder K] (hM0 : 0 < M) (hM : M + 1 < 2 ^ 32) (z : RBNode K V)
    (ops : List (TOp K V)) {t : RedBlackTree K V M} {outs : List (TOut K V)}
    (hrun : run call (RedBlackTree.new z) ops = .ok (t, outs)) (k : K) (i : Nat) (hk : t.getAddr k = .ok i)
    (hi : i ≠ SENTINEL) :
    ∃ p l r, t.getParent i = .ok p ∧ t.getLeft i = .ok l ∧ t.getRight i = .ok r ∧
      (p = SENTINEL ↔ i = t.root) ∧
      (p ≠ SENTINEL → ∃ k', t.getAddr k' = .ok p ∧
        ((k < k' ∧ t.getLeft p = .ok i) ∨ (k' < k ∧ t.getRight p = .ok i))) ∧
      (l ≠ SENTINEL → t.getParent l = .ok i ∧ ∃ k', t.getAddr k' = .ok l ∧ k' < k) ∧
      (r ≠ SENTINEL → t.getParent r = .ok i ∧ ∃ k', t.getAddr k' = .ok r ∧ k < k') ∧
      t.isRoot i = decide (p = SENTINEL) ∧ t.isLeaf i = .ok (decide (l = SENTINEL ∧ r = SENTINEL)) ∧
      t.getChild i LEFT = .ok l ∧ t.getChild i RIGHT = .ok r ∧
      ∀ d, t.getDir i d = .ok (if d = LEFT then l else r) := by
  obtain ⟨t0, os, E, m, e, h, hm, hs⟩ := RedBlackTree.run_new hM hM0 z ops
  rw [hrun] at e; cases e
  have hH : Held t E := by obtain ⟨T, a, b, _⟩ := h; exact ⟨T, a, b⟩
  obtain ⟨h1, h2, h3, -, -⟩ := hH.linked
  obtain ⟨v, hE⟩ := (h.getAddr_iff hi).1 hk
  have hsort : E.Pairwise fun a b => a.2.1 < b.2.1 := by
    obtain ⟨_, _, _, hs⟩ := h; exact hs
  -- the order of nodes is the order of keys
  have hord : ∀ {x y : Nat}, (∃ a b c, E.map Prod.fst = a ++ x :: (b ++ y :: c)) →
      ∃ kx ky, t.getAddr kx = .ok x ∧ t.getAddr ky = .ok y ∧ kx < ky := by
    rintro x y ⟨a, b, c, e⟩
    obtain ⟨A, C, rfl, -, e1⟩ := List.map_eq_append_iff.1 e
    obtain ⟨ex, C, rfl, rfl, e2⟩ := List.map_eq_cons_iff.1 e1
    obtain ⟨B, D, rfl, -, e3⟩ := List.map_eq_append_iff.1 e2
    obtain ⟨ey, D, rfl, rfl, e4⟩ := List.map_eq_cons_iff.1 e3
    refine ⟨ex.2.1, ey.2.1, h.getAddr_some (v := ex.2.2) (by simp), h.getAddr_some (v := ey.2.2) (by simp), ?_⟩
    rw [List.pairwise_append, List.pairwise_cons] at hsort
    exact hsort.2.1.1 ey (by simp)
  have huniq : ∀ {k' : K}, t.getAddr k' = .ok i → k' = k := by
    intro k' hk'
    obtain ⟨v', hE'⟩ := (h.getAddr_iff hi).1 hk'
    have := (getNode_ok h.base hE').symm.trans (getNode_ok h.base hE)
    cases this; rfl
  have hmem : i ∈ E.map Prod.fst := List.mem_map.2 ⟨_, hE, rfl⟩
  obtain ⟨p, l, r, e1, e2, e3, e4, e5, e6⟩ := h1.at h2 hmem
  have hp : p = SENTINEL ↔ i = t.root := by
    rcases e6 with ⟨a, b⟩ | ⟨a, b⟩
    · simp [a, b]
    · refine ⟨fun hp => ?_, fun hc => absurd hc a⟩
      exfalso
      have : p ∈ E.map Prod.fst := by
        rcases b with ⟨_, a, b, c, e⟩ | ⟨_, a, b, c, e⟩ <;> rw [e] <;> simp
      have := (h3 p this).1
      rw [hp] at this; simp [SENTINEL] at this
  refine ⟨p, l, r, e1, e2, e3, hp, ?_, ?_, ?_, ?_, ?_, e2, e3, ?_⟩
  · intro hne
    rcases e6 with ⟨_, b⟩ | ⟨_, ⟨a, b⟩ | ⟨a, b⟩⟩
    · exact absurd b hne
    · obtain ⟨kx, ky, f1, f2, f3⟩ := hord b
      rw [huniq f1] at f3
      exact ⟨ky, f2, Or.inl ⟨f3, a⟩⟩
    · obtain ⟨kx, ky, f1, f2, f3⟩ := hord b
      rw [huniq f2] at f3
      exact ⟨kx, f1, Or.inr ⟨f3, a⟩⟩
  · intro hne
    obtain ⟨a, b⟩ := e4 hne
    obtain ⟨kx, ky, f1, f2, f3⟩ := hord b
    rw [huniq f2] at f3
    exact ⟨a, kx, f1, f3⟩
  · intro hne
    obtain ⟨a, b⟩ := e5 hne
    obtain ⟨kx, ky, f1, f2, f3⟩ := hord b
    rw [huniq f1] at f3
    exact ⟨a, ky, f2, f3⟩
  · unfold isRoot
    simp only [hp, eq_comm]
  · unfold isLeaf
    rw [e2, e3]
    simp only [except_bind_ok]
    by_cases hl : l = SENTINEL <;> simp [hl]
  · intro d
    unfold getDir
    split
    · exact e2
    · exact e3

end rb

section critbit
open CritbitSpec Critbit

/-- C69 for the critbit tree: after every history `get_left`, `get_right` and `get_parent` describe, from the
root down, one finite binary tree with `2 * len - 1` nodes, none repeated. Each of them is an inner node with
two children, or a leaf without children; the leaves are exactly the nodes of the keys, in ascending order
from left to right. -/
theorem C69_critbit_links (hM0 : 0 < M) (hNM : 2 * M ≤ N) (hN : N + 1 < 2 ^ 32) (z : CritbitNode) (w : V)
    (ops : List (Op (BitVec 128) V)) {t : Critbit V N M} {outs : List (Out (BitVec 128) V)}
    (hrun : run call (Critbit.new z w) ops = .ok (t, outs)) :
    ∃ L : List Nat, Linked t.getLeft t.getRight t.getParent SENTINEL t.root L ∧ L.Nodup ∧
      L.length = 2 * t.len - 1 ∧ (∀ i ∈ L, 1 ≤ i ∧ i ≤ N) ∧
      (∀ i ∈ L,
        (t.isInnerNode i = .ok true ∧
          ∃ l r, t.getLeft i = .ok l ∧ t.getRight i = .ok r ∧ l ≠ SENTINEL ∧ r ≠ SENTINEL) ∨
        (t.isInnerNode i = .ok false ∧ t.getLeft i = .ok SENTINEL ∧ t.getRight i = .ok SENTINEL ∧
          ∃ k, t.getKey i = .ok k ∧ t.getAddr k = .ok i)) ∧
      (∀ k, t.contains k = .ok true → ∃ i ∈ L, t.getAddr k = .ok i ∧ t.isInnerNode i = .ok false) ∧
      L.Pairwise fun i j => t.isInnerNode i = .ok false → t.isInnerNode j = .ok false →
        ∀ k k', t.getKey i = .ok k → t.getKey j = .ok k' → k < k' := by
  obtain ⟨t0, os, E, m, e, h, -, -⟩ := Critbit.run_new hN hNM hM0 z w ops
  rw [hrun] at e; cases e
  have hc := h.contains_iff
  have hlen := h.len
  rcases h with ⟨h, rfl⟩ | ⟨T, h, rfl⟩
  · refine ⟨[], ?_, List.nodup_nil, by simp [hlen], by simp, by simp, fun k hk => ?_, List.Pairwise.nil⟩
    · rw [h.1]; exact Linked.none _
    · have := (hc k).1 hk; simp at this
  · have hp := inord_perm T
    refine ⟨inord T, by rw [h.root]; exact h.sh.linked, hp.nodup_iff.2 h.nodup, ?_,
      fun i hi => h.sh.range (hp.mem_iff.1 hi), ?_, ?_, h.sh.ascending h.rad⟩
    · have := T.ids_length
      rw [hp.length_eq, hlen]; omega
    · intro i hi
      rcases h.sh.kind hi with h' | ⟨a, b, c, j, k, v, d, e⟩
      · exact Or.inl h'
      · exact Or.inr ⟨a, b, c, k, d, h.getAddr_some e⟩
    · intro k hk
      obtain ⟨⟨j, k', v⟩, he, hk0⟩ := List.mem_map.1 ((hc k).1 hk)
      simp only at hk0; subst hk0
      obtain ⟨n, hn⟩ := CT.mem_ents he
      have hj := h.sh.slot_range (j := j) (List.mem_map.2 ⟨_, he, rfl⟩)
      have hl : t.nodeAllocator.getRegister n VALUE = .ok j := (h.leaf hn).1
      refine ⟨n, mem_inord hn, h.getAddr_some hn, ?_⟩
      unfold isInnerNode
      rw [hl]
      have : j ≠ SENTINEL := by simp [SENTINEL]; omega
      simp [this]

end critbit

section hash
open HashTableSpec HashTable AnyEq
variable [BEq K]

/-- C69 for the hash table, whatever `==` says and whatever the hash function is: the nodes in use fall into
one list for each bucket, that starts at the head of the bucket; `get_next` and `get_prev` step along it and end
at `SENTINEL`; no node is in two lists or twice in one; the nodes hold the entries of the rows of `C68`. -/
theorem C69_hash_chains (hB : 0 < B) (hM : M + 1 < 2 ^ 32) (hash : K → Nat) (z : HashNode K V) (ops : List (Op K V))
    {h : HashTable K V B M} {outs : List (Out K V)} (hrun : run (call hash) (HashTable.new z) ops = .ok (h, outs)) :
    ∃ A : List (List Nat), A.length = B ∧ A.flatten.Nodup ∧ A.flatten.length = h.len ∧
      (∀ i ∈ A.flatten, 1 ≤ i ∧ i ≤ M) ∧
      ∀ (b : Nat) (is : List Nat) (l : List (K × V)), A[b]? = some is → (steps hash M (List.replicate B []) ops).1[b]? = some l →
        h.buckets[b]? = some (is.headD SENTINEL) ∧
        is.map h.getNode = l.map (fun e => .ok ⟨e.1, e.2⟩) ∧
        (∀ n i, is[n]? = some i → h.getNext i = .ok (is[n + 1]?.getD SENTINEL)) ∧
        (∀ n i, is[n]? = some i → h.getPrev i = .ok (if n = 0 then SENTINEL else is[n - 1]?.getD SENTINEL)) := by
  have hrep : (HashTable.rowsOf B fun _ => ([] : List (HashTable.Ent K V))) = List.replicate B [] := by
    rw [List.eq_replicate_iff]; simp
  obtain ⟨h0, c, e, H, hr⟩ := HashTable.run_any (st := True) hM ops (HashTable.new z : HashTable K V B M) (fun _ => [])
    (HashTable.new_HHeld hB hash z)
  rw [hrep] at e hr
  rw [hrun] at e; cases e
  have hA : ((List.range B).map fun b => ids (c b)).flatten = ids (all B c) := by
    simp only [all, ids, List.flatMap_def, List.map_flatten, List.map_map]; rfl
  obtain ⟨free, hf⟩ := H.inv
  refine ⟨(List.range B).map fun b => ids (c b), by simp, ?_, ?_, ?_, ?_⟩
  · rw [hA]; exact (List.nodup_append.1 hf.nodup).2.1
  · rw [hA, H.len]; simp only [ids, List.length_map]
  · rw [hA]; exact fun i hi => hf.live_range hi
  · intro b is l h1 h2
    rw [← hr] at h2
    have hb : b < B := by
      have := (List.getElem?_eq_some_iff.1 h1).1
      simpa using this
    simp only [rowsOf, List.getElem?_map, List.getElem?_range hb, Option.map_some, Option.some.injEq] at h1 h2
    subst h1 h2
    refine ⟨?_, ?_, (H.links hb).1, (H.links hb).2⟩
    · rw [Vector.getElem?_eq_getElem hb, H.head b hb]; rfl
    · simp only [kvs, ids, List.map_map]
      exact List.map_congr_left fun e he => NodeAllocator.getValue_ok _ (H.vals b hb e he)

end hash

/-! ### non-vacuity -/

/-- `C69_rb_neighbours` at an inner node (key 2) of a tree of seven keys: parent, left and right child. -/
example : ∃ t outs, run RedBlackSpec.call (RedBlackTree.new ⟨0, 0⟩ : RedBlackTree Nat Nat 8)
    [.map (.insert 1 1), .map (.insert 2 2), .map (.insert 3 3), .map (.insert 4 4), .map (.insert 5 5),
      .map (.insert 6 6), .map (.insert 7 7), .map (.insert 8 8), .map (.remove 5)] = .ok (t, outs) ∧
    t.getAddr 2 = .ok 2 ∧ t.getParent 2 = .ok 4 ∧ t.getLeft 2 = .ok 1 ∧ t.getRight 2 = .ok 3 ∧
    t.root = 4 ∧ t.getParent 4 = .ok 0 ∧ t.isLeaf 3 = .ok true ∧ climb t.getParent 2 3 = .ok 4 := by
  refine ⟨_, _, rfl, rfl, rfl, rfl, rfl, rfl, rfl, rfl, rfl⟩

set_option maxRecDepth 100000 in
/-- `C69_critbit_links` on a tree of three keys: leaf 4, inner node, leaf 5, root, leaf 2^127. -/
example : ∃ t outs, run CritbitSpec.call (Critbit.new ⟨0, 0⟩ 0 : Critbit Nat 8 4)
    [.insert 5 50, .insert 4 40, .insert (1 <<< 127) 90] = .ok (t, outs) ∧ t.len = 3 ∧
    Linked t.getLeft t.getRight t.getParent SENTINEL t.root [2, 5, 3, 1, 4] := by
  refine ⟨_, _, rfl, rfl, ?_⟩
  refine .node (A := [2, 5, 3]) (B := [4]) (l := 5) (r := 4) (by decide) rfl rfl rfl ?_ ?_
  · refine .node (A := [2]) (B := [3]) (l := 2) (r := 3) (by decide) rfl rfl rfl ?_ ?_
    · exact .node (A := []) (B := []) (by decide) rfl rfl rfl (.none _) (.none _)
    · exact .node (A := []) (B := []) (by decide) rfl rfl rfl (.none _) (.none _)
  · exact .node (A := []) (B := []) (by decide) rfl rfl rfl (.none _) (.none _)

/-- `C69_hash_chains` with three entries in one bucket: the one inserted last is the head. -/
example : ∃ h outs, run (HashTableSpec.call (fun k => k)) (HashTable.new ⟨0, 0⟩ : HashTable Nat Nat 2 4)
    [.insert 1 10, .insert 3 30, .insert 2 20, .insert 5 50] = .ok (h, outs) ∧ h.buckets[1]? = some 4 ∧
    h.getNext 4 = .ok 2 ∧ h.getNext 2 = .ok 1 ∧ h.getNext 1 = .ok 0 ∧ h.getPrev 1 = .ok 2 ∧ h.getPrev 4 = .ok 0 := by
  refine ⟨_, _, rfl, rfl, rfl, rfl, rfl, rfl, rfl⟩

end Sokoban.Props
