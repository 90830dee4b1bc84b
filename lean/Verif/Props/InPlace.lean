import Verif.Proof.InPlaceCritbit
import Verif.Proof.AllocHist

/-
Property theorems C81 and C82: what a panic leaves behind when the client catches it, and a `Critbit` with fewer
nodes than `2 * MAX_SIZE`.

`U σ α` (Model/InPlace.lean) is a method that keeps the memory when it panics: `m s = .error p s'` says that `m`
called on the memory `s` panics with `p` and leaves `s'`. `runCaught step s ops` (Spec/InPlace.lean) makes the calls
`ops` one after the other, catching panics.
-/
namespace Sokoban.Props
open InPlace

section alloc
open AllocSpec NodeAllocator
variable {T : Type} {M N : Nat}

/-- C81 for the allocator: `add_node` on a full allocator panics before it has written anything. -/
theorem C81_alloc_full_unchanged (hN : 0 < N) {z : T} {a : NodeAllocator T M N} {tr : List (Event T)}
    (h : Reach z a tr) (hfull : a.size = usable M) (v : T) : Alloc.addNode v a = .error (fullPanic M) a := by
  have hh := h.hinv hN
  exact Alloc.addNode_caught hh.inv (by rw [← hh.inv.size]; exact hfull) v

/-- An allocator with `MAX_SIZE = 2` and two nodes in use: the next `add_node` fails and changes nothing. -/
example : ∃ a i j, addAll (NodeAllocator.new 0 : NodeAllocator Nat 2 2) [7, 8] = .ok (a, [i, j]) ∧ a.size = usable 2 ∧
    Alloc.addNode 9 a = .error .bufferFull a := ⟨_, _, _, rfl, rfl, rfl⟩

end alloc

section deque
open DequeSpec
variable {T : Type} {M : Nat}

/-- The calls on a deque of which C81 speaks are those of C09: they differ in what is known of the memory after a
panic only. -/
theorem C81_deque_calls (op : Op T) (d : Deque T M) :
    DequeSpec.call d op = match Deq.call op d with
      | .ok o d' => .ok (d', o)
      | .error p _ => .error p := by
  rw [← Deq.func_call]; unfold func forget; cases Deq.call op d <;> rfl

/-- C81 for the deque: a client that catches panics sees a plain bounded queue in which a push into the full queue
fails and does nothing, in every history, however many pushes fail on the way. Afterwards `front`, `back`, `len`,
`is_empty` and iteration from both ends agree with that queue. -/
theorem C81_deque_caught (hM : M + 1 < 2 ^ 32) (z : T) (ops : List (Op T)) (hlen : ops.length < 2 ^ 64) :
    ∃ (d : Deque T M) (l : List T) (outs : List (Except Panic (Out T))),
      runCaught Deq.call (Deque.new z) ops = (d, outs) ∧ specCaught (Deq.step M) [] ops = (l, outs) ∧
      d.front = .ok l.head? ∧ d.back = .ok l.getLast? ∧ d.len = l.length ∧ d.isEmpty = l.isEmpty ∧
      ∀ es, ∃ it' items, drive (Deque.Iter.next d) (Deque.Iter.nextBack d) d.iter es = .ok (it', items) ∧
        items.map (Option.map Prod.snd) = consume l es := by
  obtain ⟨l2, hr, e⟩ := Deq.runCaught_spec hM ops (Deque.new_DRep z) (by simpa [Deque.new] using hlen)
  refine ⟨_, Deque.vals l2, _, rfl, e, ?_, ?_, ?_, ?_, fun es => ?_⟩
  · rw [Deque.front_spec hr]; simp
  · rw [Deque.back_spec hr]; simp
  · rw [hr.len]; simp
  · unfold Deque.isEmpty; rw [hr.len]; cases l2 <;> simp
  · obtain ⟨it', e'⟩ := Deque.drive_iter hr es
    exact ⟨it', _, e', (consume_map Prod.snd es l2).symm⟩

/-- C81 for the deque: after every history, with or without caught panics, a push into the full deque leaves the memory
exactly as it was. -/
theorem C81_deque_full_unchanged (hM : M + 1 < 2 ^ 32) (z : T) (ops : List (Op T)) (hlen : ops.length < 2 ^ 64)
    {d : Deque T M} {outs : List (Except Panic (Out T))} (hrun : runCaught Deq.call (Deque.new z) ops = (d, outs))
    (hfull : d.len = M) (v : T) :
    Deq.call (.pushBack v) d = .error .bufferFull d ∧ Deq.call (.pushFront v) d = .error .bufferFull d := by
  obtain ⟨l2, hr, e⟩ := Deq.runCaught_spec hM ops (Deque.new_DRep z) (by simpa [Deque.new] using hlen)
  rw [hrun] at hr
  obtain ⟨e1, e2⟩ := Deq.push_caught hr hM (by rw [← hr.len]; exact hfull) v
  constructor
  · simp only [Deq.call_pushBack, run_bind, e1]
  · simp only [Deq.call_pushFront, run_bind, e2]

/-- A queue of capacity 2: the third push fails, the history goes on. -/
example : (runCaught Deq.call (Deque.new 0 : Deque Nat 2)
    [.pushBack 1, .pushFront 2, .pushBack 3, .pushFront 4, .popBack, .pushBack 5]).2.map
      (fun | .ok (.popped x) => some x | .ok _ => some none | .error _ => none) =
    [some none, some none, none, none, some (some 1), some none] := by decide +kernel

end deque

section trees
variable {K V : Type}

/-- C81 for the red-black tree: with `MAX_SIZE = 0`, the only case in which `insert` panics (C27, C31), the panic
comes before the first write, however often it is repeated. -/
theorem C81_rb_caught [Ord K] (z : RBNode K V) (es : List (K × V)) :
    runCaught (fun e : K × V => rbInsert e.1 e.2) (RedBlackTree.new z : RedBlackTree K V 0) es =
      (RedBlackTree.new z, es.map fun _ => .error .bufferFull) :=
  runCaught_const (step := fun e : K × V => rbInsert e.1 e.2) (fun _ => rfl) es

/-- C81 for the AVL tree, as for the red-black tree. -/
theorem C81_avl_caught [LT K] [DecidableLT K] [PartialGt K] (z : AVLNode K V) (es : List (K × V)) :
    runCaught (fun e : K × V => avlInsert e.1 e.2) (AVLTree.new z : AVLTree K V 0) es =
      (AVLTree.new z, es.map fun _ => .error .bufferFull) :=
  runCaught_const (step := fun e : K × V => avlInsert e.1 e.2) (fun _ => rfl) es

end trees

section critbit
open MapSpec CritbitSpec Critbit
variable {V : Type} {N M : Nat}

/-- C81 for `Critbit`: with `MAX_SIZE = 0` every `insert` panics, and each of these panics leaves one node allocated
until none is left: `add_leaf` takes the node before it asks for the leaf. The root and the leaves stay as they
were. -/
theorem C81_critbit_capacity_zero (hN : N + 1 < 2 ^ 32) (z : CritbitNode) (w : V) (es : List (BitVec 128 × V)) :
    ∃ t : Critbit V N 0, runCaught (fun e : BitVec 128 × V => Crit.insert e.1 e.2) (Critbit.new z w) es =
        (t, es.map fun _ => .error .bufferFull) ∧
      t.root = SENTINEL ∧ t.leaves = NodeAllocator.new w ∧ t.len = 0 ∧ t.nodeAllocator.size = min es.length N := by
  obtain ⟨t, e, h1, h2, h3⟩ := Crit.runCaught_noLeaf (N := N) (lf := []) hN es (s := Critbit.new z w) rfl
    (NodeAllocator.new_AInv z) (NodeAllocator.new_AInv w)
  exact ⟨t, e, h1, h2, by unfold Critbit.len; rw [h2]; rfl, by simpa using h3⟩

/-- The calls on a `Critbit` of which C82 speaks are those of C42: they differ in what is known of the memory after a
panic only. -/
theorem C82_critbit_calls (op : Op (BitVec 128) V) (t : Critbit V N M) :
    call t op = match mapCall api Crit.insert Crit.remove op t with
      | .ok o t' => .ok (t', o)
      | .error p _ => .error p := by
  have := func_mapCall api (fun k v s => Crit.func_insert k v s) (fun k s => Crit.func_remove k s) op t
  rw [call, ← this]; unfold func forget; cases mapCall api Crit.insert Crit.remove op t <;> rfl

/-- `initialize` on zeroed memory makes no demand on `NUM_NODES` (critbit.rs:216-219): the check of C51 is only in
`new` and `new_from_slice`. -/
theorem C82_critbit_initialize_any_nodes (z : CritbitNode) (w : V) :
    (Critbit.zeroed z w : Critbit V N M).initialise = .ok (Critbit.new z w) := rfl

/-- C82: with any number of nodes, also fewer than `2 * MAX_SIZE`, a history that returns has the results of a finite
map as in C42; and of the calls that can follow exactly those panic that insert a new key below capacity while
`NUM_NODES < 2 * len() + 1`. -/
theorem C82_critbit_any_nodes (hM0 : 0 < M) (hN : N + 1 < 2 ^ 32) (hM : M + 1 < 2 ^ 32) (z : CritbitNode) (w : V)
    (ops : List (Op (BitVec 128) V)) {t : Critbit V N M} {outs : List (Out (BitVec 128) V)}
    (hrun : run call (Critbit.new z w) ops = .ok (t, outs)) :
    ∃ m : FMap (BitVec 128) V, Steps (critbitRules (BitVec 128) V M) FMap.empty ops outs m ∧
      (∀ k, t.get k = .ok (m.get k)) ∧ t.len = m.len ∧
      (∀ es, ∃ it' L, m.Lists L ∧ L.Pairwise (fun a b => a.1 < b.1) ∧
        drive (Critbit.Iter.next t) (Critbit.Iter.nextBack t) t.iter es = .ok (it', consume L es)) ∧
      ∀ op p, call t op = .error p ↔
        p = .bufferFull ∧ ∃ k v, op = .insert k v ∧ m.get k = none ∧ m.len < M ∧ N < 2 * m.len + 1 := by
  obtain ⟨E, m, h, hm, hs⟩ := Crit.run_any hN hM hM0 ops (Inv.new z w)
    (m := FMap.empty) ⟨List.Pairwise.nil, by simp [FMap.empty], rfl⟩ hrun
  have L := Critbit.lawsRest (V := V) (N := N) (M := M)
  refine ⟨m, hs, L.get h hm, L.len' h hm, fun es => ?_, fun op p => ⟨fun he => ?_, ?_⟩⟩
  · obtain ⟨it', e⟩ := L.toWalks.drive h es
    exact ⟨it', _, hm, by rw [List.pairwise_map]; exact L.sorted h, e⟩
  · rcases Crit.call_any hN hM hM0 h hm op with ⟨_, s1, o, E1, m1, e1, _⟩ | ⟨k, v, h1, h2, h3, h4, e1⟩
    · rw [e1] at he; cases he
    · rw [e1] at he; cases he
      exact ⟨rfl, k, v, h1, h2, h3, h4⟩
  · rintro ⟨rfl, k, v, rfl, h2, h3, h4⟩
    rcases Crit.call_any hN hM hM0 h hm (.insert k v) with ⟨hn, _⟩ | ⟨_, _, _, _, _, _, e1⟩
    · exact absurd ⟨h2, h3, h4⟩ (hn k v rfl)
    · exact e1

/-- C82 (deviation): what a caught panic of `insert` leaves behind. No entry is lost, added or changed, as seen by
`get` and by iteration from both ends; but when exactly one node was free, that is `NUM_NODES = 2 * len()` with
`len() > 0`, then it has been taken together with a leaf: `len()` is one too high and no node is left. -/
theorem C82_critbit_caught_insert (hM0 : 0 < M) (hN : N + 1 < 2 ^ 32) (hM : M + 1 < 2 ^ 32) (z : CritbitNode) (w : V)
    (ops : List (Op (BitVec 128) V)) {t t' : Critbit V N M} {outs : List (Out (BitVec 128) V)}
    (hrun : run call (Critbit.new z w) ops = .ok (t, outs)) {k : BitVec 128} {v : V} {p : Panic}
    (hp : Crit.insert k v t = .error p t') :
    p = .bufferFull ∧ (∀ k', t'.get k' = t.get k') ∧
      (∀ es, (drive (Critbit.Iter.next t') (Critbit.Iter.nextBack t') t'.iter es).map Prod.snd =
        (drive (Critbit.Iter.next t) (Critbit.Iter.nextBack t) t.iter es).map Prod.snd) ∧
      (t' ≠ t ↔ N = 2 * t.len ∧ 0 < t.len) ∧
      (t' ≠ t → t'.len = t.len + 1 ∧ t'.nodeAllocator.size = N) := by
  obtain ⟨E, m, h, hm, hs⟩ := Crit.run_any hN hM hM0 ops (Inv.new z w)
    (m := FMap.empty) ⟨List.Pairwise.nil, by simp [FMap.empty], rfl⟩ hrun
  have hl : t.len = E.length := h.len
  rcases Crit.insert_any hN hM hM0 h k v with ⟨_, e⟩ | ⟨_, _, s', n, j, E', e, _⟩ | ⟨_, ha, hr, s', e, hs'⟩
  · rw [e] at hp; cases hp
  · rw [e] at hp; cases hp
  · rw [e] at hp; cases hp
    refine ⟨rfl, ?_⟩
    rcases hs' with ⟨rfl, h1⟩ | ⟨rfl, h1⟩ | ⟨h1, h2, h3, h4, T, r1, r2, rfl⟩
    · exact ⟨fun _ => rfl, fun _ => rfl, ⟨fun hc => absurd rfl hc, fun hc => by omega⟩, fun hc => absurd rfl hc⟩
    · exact ⟨fun _ => rfl, fun _ => rfl, ⟨fun hc => absurd rfl hc, fun hc => by omega⟩, fun hc => absurd rfl hc⟩
    · have hne : t' ≠ t := fun hc => by rw [hc, hl] at h3; omega
      have hpos := List.length_pos_iff.2 h2
      refine ⟨fun k' => r1.get r2 k', fun es => ?_, ⟨fun _ => ⟨by omega, by omega⟩, fun _ => hne⟩,
        fun _ => ⟨by omega, h4⟩⟩
      obtain ⟨i1, e1⟩ := r1.drive es
      obtain ⟨i2, e2⟩ := r2.drive es
      rw [e1, e2]; rfl

/-- C82 (deviation): such a caught panic can cost the data later. With `NUM_NODES = 2`, after the insertion of a
second key has panicked, `remove` of the first key panics too: the assertion that `len()` is 1 fails, and by then the
root has been cleared. The entry is gone although nothing was returned, `len()` is 2, iteration finds nothing, and
from then on every `get` panics. -/
theorem C82_critbit_caught_remove_loses (hM : M + 1 < 2 ^ 32) (hM2 : 2 ≤ M) (z : CritbitNode) (w : V) (k k' : BitVec 128)
    (hk : k ≠ k') (v v' : V) :
    ∃ t : Critbit V 2 M, runCaught (mapCall api Crit.insert Crit.remove) (Critbit.new z w)
        [.insert k v, .insert k' v', .remove k] =
          (t, [.ok (.inserted true), .error .bufferFull, .error .assertion]) ∧
      t.len = 2 ∧ (∀ x, t.get x = .error .indexOutOfBounds) ∧
      ∀ es, ∃ it', drive (Critbit.Iter.next t) (Critbit.Iter.nextBack t) t.iter es = .ok (it', consume [] es) := by
  obtain ⟨s1, n, j, E1, e1, h1, i1⟩ : ∃ s' n j E', Crit.insert k v (Critbit.new z w : Critbit V 2 M) = .ok (some n) s' ∧
      Inv s' E' ∧ Ents.Ins [] k v j E' := by
    rcases Crit.insert_any (by decide) hM (by omega) (Inv.new z w : Inv (Critbit.new z w : Critbit V 2 M) []) k v with
      ⟨h, _⟩ | ⟨_, _, h⟩ | ⟨_, _, h, _⟩
    · simp at h; omega
    · exact h
    · simp at h
  have hE1 : E1 = [(j, k, v)] := by
    rcases i1 with ⟨L1, v0, L2, h, _⟩ | ⟨_, _, L1, L2, h, h'⟩
    · simp at h
    · rw [List.nil_eq_append_iff] at h
      obtain ⟨rfl, rfl⟩ := h
      simpa using h'
  subst hE1
  obtain ⟨s2, e2, hl2, T, r2, hT⟩ : ∃ s', Crit.insert k' v' s1 = .error .bufferFull s' ∧ s'.len = 2 ∧
      ∃ T, Crit.Reads s' T ∧ [(j, k, v)] = T.ents := by
    rcases Crit.insert_any (by decide) hM (by omega) h1 k' v' with ⟨h, _⟩ | ⟨_, h, _⟩ | ⟨_, _, _, s', e, hs⟩
    · simp at h; omega
    · have := h (by intro x hx; simp at hx; subst hx; exact hk)
      simp at this
    · rcases hs with ⟨_, h⟩ | ⟨_, h⟩ | ⟨_, _, h3, _, T, _, h5, h6⟩
      · simp at h
      · simp at h
      · exact ⟨s', e, by simpa using h3, T, h5, h6⟩
  have hleaf : ∃ x, T = .leaf x j k v := by
    cases T with
    | leaf x j' k' v' => simp at hT; obtain ⟨rfl, rfl, rfl⟩ := hT; exact ⟨x, rfl⟩
    | inner i p q l r =>
      have hl := congrArg List.length hT
      have h1 := List.length_pos_iff.2 l.ents_ne
      have h2 := List.length_pos_iff.2 r.ents_ne
      simp at hl; omega
  obtain ⟨x, rfl⟩ := hleaf
  have e3 := Crit.remove_last r2 (by omega) rfl
  refine ⟨{ s2 with root := SENTINEL }, ?_, hl2, fun x => ?_, fun es => ?_⟩
  · simp only [runCaught, mapCall, run_bind, e1, e2, e3, run_pure, Option.isSome_some]
  · unfold Critbit.get
    rw [if_neg (by simp only [Critbit.isEmpty, decide_eq_true_eq]; show ¬ s2.len = 0; omega)]
    rfl
  · have hit : It ({ s2 with root := SENTINEL } : Critbit V 2 M) _ [] := It.new (Or.inl ⟨rfl, rfl⟩) (by simp)
    refine drive_spec (Inv := fun it (l : List (BitVec 128 × V)) => l = [] ∧ It ({ s2 with root := SENTINEL } : Critbit V 2 M) it [])
      ?_ ?_ es _ _ ⟨rfl, hit⟩
    · rintro it l ⟨rfl, hi⟩
      obtain ⟨it', e, hi'⟩ := hi.nextMut
      exact ⟨it', by rw [next_item, e]; rfl, rfl, hi'⟩
    · rintro it l ⟨rfl, hi⟩
      obtain ⟨it', e, hi'⟩ := hi.nextBackMut
      exact ⟨it', by rw [nextBack_item, e]; rfl, rfl, hi'⟩

/-- `NUM_NODES = 4`, `MAX_SIZE = 4`: two entries go in, the third insertion panics half-way, with `len()` three
although two entries are found; overwriting an entry still works. -/
example :
    let r := runCaught (mapCall api Crit.insert Crit.remove) (Critbit.new ⟨0, 0⟩ 0 : Critbit Nat 4 4)
      [.insert 1 10, .insert 2 20, .insert 3 30, .insert 2 21]
    r.2.map (fun | .ok _ => true | .error _ => false) = [true, true, false, true] ∧
    r.1.len = 3 ∧ r.1.get 1 = .ok (some 10) ∧ r.1.get 2 = .ok (some 21) ∧ r.1.get 3 = .ok none := by
  decide +kernel

/-- The hypothesis of `C82_critbit_any_nodes` with too few nodes. -/
example : (do
    let (t, _) ← run call (Critbit.new ⟨0, 0⟩ 0 : Critbit Nat 4 4) [.insert 1 10, .insert 2 20]
    .ok (t.len, match call t (.insert 3 30) with | .error .bufferFull => true | _ => false)) =
      (.ok (2, true) : R (Nat × Bool)) := by decide +kernel

end critbit

end Sokoban.Props
