import Verif.Proof.AnyEq
import Verif.Spec.Poke
import Verif.Proof.RBAny
import Verif.Proof.AVLAny

/-
Histories with writes of whole nodes through `get_node_mut`.
-/
namespace Sokoban
open MapSpec NodeAllocator
variable {K V : Type}

/-- write key and value of node `i` -/
def GN.poke (i : Nat) (k : K) (w : V) (x : GN K V) : GN K V := if x.idx = i then { x with key := k, val := w } else x

@[simp] theorem GN.idx_poke (i : Nat) (k : K) (w : V) (x : GN K V) : (x.poke i k w).idx = x.idx := by
  unfold poke; split <;> rfl
@[simp] theorem GN.tag_poke (i : Nat) (k : K) (w : V) (x : GN K V) : (x.poke i k w).tag = x.tag := by
  unfold poke; split <;> rfl

namespace BT

/-- the same in a tree -/
def poke (i : Nat) (k : K) (w : V) : BT K V → BT K V
  | .nil => .nil
  | .node l x r => .node (poke i k w l) (x.poke i k w) (poke i k w r)

@[simp] theorem root_poke (i : Nat) (k : K) (w : V) (t : BT K V) : (t.poke i k w).root = t.root := by
  cases t <;> simp [poke]

theorem tag_poke (i : Nat) (k : K) (w : V) (t : BT K V) : (t.poke i k w).tag = t.tag := by
  cases t <;> simp [poke]

theorem height_poke (i : Nat) (k : K) (w : V) (t : BT K V) : (t.poke i k w).height = t.height := by
  induction t with
  | nil => rfl
  | node l x r ihl ihr => simp only [poke, height, ihl, ihr]

theorem ents_poke (i : Nat) (k : K) (w : V) (t : BT K V) : (t.poke i k w).ents = Poke.overwrite i k w t.ents := by
  induction t with
  | nil => rfl
  | node l x r ihl ihr =>
    simp only [poke, ents_node, ihl, ihr, Poke.overwrite, List.map_append, List.map_cons]
    congr 2
    unfold GN.poke GN.ent
    simp only
    split <;> simp_all

end BT

theorem RBShape.poke {reg : Nat → Nat → Nat} (i : Nat) (k : K) (w : V) : ∀ {t : BT K V} {p : Nat},
    RBShape reg p t → RBShape reg p (t.poke i k w)
  | .nil, _, _ => trivial
  | .node _ _ _, _, ⟨h1, h2, h3, h4, h5, h6⟩ => by
    refine ⟨?_, ?_, ?_, ?_, ?_, ?_⟩ <;> simp only [BT.root_poke, GN.idx_poke, GN.tag_poke]
    exacts [h1, h2, h3, h4, h5.poke i k w, h6.poke i k w]

theorem RB.poke (i : Nat) (k : K) (w : V) : ∀ {t : BT K V} {n : Nat}, RB t n → RB (t.poke i k w) n
  | .nil, _, h => h
  | .node l x r, n, h => by
    simp only [BT.poke, RB, GN.tag_poke, BT.tag_poke] at h ⊢
    rcases h with ⟨h1, h2, h3, h4, h5⟩ | ⟨h1, m, h2, h3, h4⟩
    · exact Or.inl ⟨h1, h2, h3, h4.poke i k w, h5.poke i k w⟩
    · exact Or.inr ⟨h1, m, h2, h3.poke i k w, h4.poke i k w⟩

theorem AShape.poke {reg : Nat → Nat → Nat} (i : Nat) (k : K) (w : V) : ∀ {t : BT K V},
    AShape reg t → AShape reg (t.poke i k w)
  | .nil, _ => trivial
  | .node _ _ _, ⟨h1, h2, h3, h4, h5⟩ => by
    refine ⟨?_, ?_, ?_, h4.poke i k w, h5.poke i k w⟩ <;> simp only [BT.root_poke, GN.idx_poke, GN.tag_poke]
    exacts [h1, h2, h3]

theorem AVL.poke (i : Nat) (k : K) (w : V) : ∀ {t : BT K V}, AVL t → AVL (t.poke i k w)
  | .nil, h => h
  | .node l x r, ⟨h1, h2, h3, h4, h5⟩ => by
    refine ⟨?_, ?_, ?_, h4.poke i k w, h5.poke i k w⟩ <;> simp only [GN.tag_poke, BT.height_poke]
    exacts [h1, h2, h3]

theorem fst_overwrite (i : Nat) (k : K) (v : V) (E : List (Nat × K × V)) :
    (Poke.overwrite i k v E).map Prod.fst = E.map Prod.fst := by
  unfold Poke.overwrite
  rw [List.map_map]
  refine List.map_congr_left fun e _ => ?_
  simp only [Function.comp]
  split
  · next h => exact h.symm
  · rfl

theorem Base.poke {T : Type} {M : Nat} {f : K → V → T} {S : Nat → Prop} {a : NodeAllocator T M 4}
    {E : List (Nat × K × V)} (h : Base f S a E) {i : Nat} (h1 : 1 ≤ i) (h2 : i ≤ M) (k : K) (w : V) :
    Base f S (a.setVal i (f k w)) (Poke.overwrite i k w E) where
  kept := fun _ h => nomatch h
  known := by
    obtain ⟨free, hf⟩ := h.inv
    exact ⟨free, Known.nothing_ok _, by rw [fst_overwrite]; exact hf.setVal i _⟩
  clean := by rw [fst_overwrite]; exact h.clean.setVal i _
  vals e he := by
    obtain ⟨e', he', rfl⟩ := List.mem_map.1 he
    rw [val?_setVal]
    by_cases hi : e'.1 = i
    · simp only [if_pos hi]
      rw [if_pos ⟨trivial, h1, h2⟩]
    · simp only [if_neg hi]
      rw [if_neg (fun hc => hi hc.1)]
      exact h.vals e' he'

namespace RedBlackTree
variable {M : Nat} {s : RedBlackTree K V M} {E : Ents K V}

theorem Held.poke (h : Held s E) {i : Nat} (h1 : 1 ≤ i) (h2 : i ≤ M) (k : K) (v : V) :
    ∃ s', s.setNode i ⟨k, v⟩ = .ok s' ∧ Held s' (Poke.overwrite i k v E) := by
  have hb := h.base
  obtain ⟨t, hz, n, g1, g2, g3, g4⟩ := h
  have hrg : (s.allocator.setVal i ⟨k, v⟩).reg = s.allocator.reg := by
    funext j q; exact reg_setVal _ _ _ _ _
  refine ⟨⟨s.root, s.allocator.setVal i ⟨k, v⟩⟩, ?_, t.poke i k v, ⟨?_, ?_, ?_, ?_⟩,
    ⟨n, g1.poke _ _ _, trivial, by simp [Ctx.ctag], fun _ => by rw [BT.tag_poke]; exact g4 rfl⟩⟩
  · unfold setNode
    rw [setValue_ok _ _ h1 h2]; rfl
  · show RBShape (s.allocator.setVal i ⟨k, v⟩).reg _ _
    rw [hrg]; exact hz.shape.poke i k v
  · show s.root = _
    rw [BT.root_poke]; exact hz.root
  · have he := hz.ents
    simp only [Ctx.lft, Ctx.rgt, List.nil_append, List.append_nil] at he ⊢
    rw [BT.ents_poke, he]
  · exact hb.poke h1 h2 k v

end RedBlackTree

namespace AVLTree
variable {M : Nat} {s : AVLTree K V M} {E : Ents K V}

theorem Held.poke (h : Held s E) {i : Nat} (h1 : 1 ≤ i) (h2 : i ≤ M) (k : K) (v : V) :
    ∃ s', s.setNode i ⟨k, v⟩ = .ok s' ∧ Held s' (Poke.overwrite i k v E) := by
  have hb := h.base
  obtain ⟨t, hz, hg⟩ := h
  have hrg : (s.allocator.setVal i ⟨k, v⟩).reg = s.allocator.reg := by
    funext j q; exact reg_setVal _ _ _ _ _
  refine ⟨⟨s.root, s.allocator.setVal i ⟨k, v⟩⟩, ?_, t.poke i k v, ⟨?_, ?_, ?_, ?_⟩, hg.poke _ _ _⟩
  · unfold setNode
    rw [setValue_ok _ _ h1 h2]; rfl
  · show AShape (s.allocator.setVal i ⟨k, v⟩).reg _
    rw [hrg]; exact hz.shape.poke i k v
  · show s.root = _
    rw [BT.root_poke]; exact hz.cshape
  · have he := hz.ents
    simp only [Ctx.lft, Ctx.rgt, List.nil_append, List.append_nil] at he ⊢
    rw [BT.ents_poke, he]
  · exact hb.poke h1 h2 k v

end AVLTree

/-! ### histories -/

namespace Api
variable {S : Type} {same : K → K → Prop} {A : Api S K V} {M : Nat} {Rep : S → Ents K V → Prop}
  {It : S → A.Iter → List A.Ref → Prop} (H : Loose A same M Rep It)
include H

/-- one call, with addresses -/
theorem Loose.call_at (s : S) (E : Ents K V) (op : Op K V) (h : Rep s E) :
    ∃ s' o E', A.call s op = .ok (s', o) ∧ Rep s' E' ∧ Poke.Step same M E op o E' := by
  cases op with
  | insert k v =>
    rcases H.find h k with ⟨_, _, _, hi⟩ | ⟨L1, i, k', w, L2, rfl, hs, _, _, _, hi⟩
    · rcases hi v with ⟨hf, e⟩ | ⟨hf, s', j, i, L1, L2, rfl, e, h'⟩
      · exact ⟨s, .inserted false, E, by simp only [call, e]; rfl, h, Or.inr (Or.inr ⟨hf, rfl, rfl⟩)⟩
      · refine ⟨s', .inserted true, _, by simp only [call, e]; rfl, h',
          Or.inr (Or.inl ⟨hf, L1, i, L2, ?_, rfl, rfl, rfl⟩)⟩
        have hn := H.slots h'
        rw [List.map_append, List.map_cons] at hn
        rw [List.map_append]
        exact (List.nodup_cons.1 (List.perm_middle.nodup_iff.1 hn)).1
    · obtain ⟨s', j, e, h'⟩ := hi v
      exact ⟨s', .inserted true, _, by simp only [call, e]; rfl, h', Or.inl ⟨L1, i, k', w, L2, hs, rfl, rfl, rfl⟩⟩
  | remove k =>
    rcases H.find h k with ⟨_, _, e, _⟩ | ⟨L1, i, k', w, L2, rfl, hs, _, _, ⟨s', e, h'⟩, _⟩
    · exact ⟨s, .removed none, E, by simp only [call, e]; rfl, h, Or.inr ⟨rfl, rfl⟩⟩
    · exact ⟨s', .removed (some w), _, by simp only [call, e]; rfl, h', Or.inl ⟨L1, i, k', w, L2, hs, rfl, rfl, rfl⟩⟩
  | getMut k f =>
    rcases H.find h k with ⟨_, e, _⟩ | ⟨L1, i, k', w, L2, rfl, hs, _, e, _⟩
    · exact ⟨s, .got none, E, by simp only [call, getMutWrite, e]; rfl, h, Or.inr ⟨rfl, rfl⟩⟩
    · obtain ⟨s', ew, h', _⟩ := H.write h (f w)
      refine ⟨s', .got (some w), _, ?_, h', Or.inl ⟨L1, i, k', w, L2, hs, rfl, rfl, rfl⟩⟩
      simp only [call, getMutWrite, e, except_bind_ok, H.readVal h (i := i) (k := k') (v := w) (by simp), ew]
      rfl
  | iterMut es =>
    obtain ⟨s', it', e, h'⟩ := H.iterMut h es
    have hmap := consumeMut_map (Prod.snd : Nat × K × V → K × V)
      (fun f => updV (MapSpec.upd f)) (fun f => MapSpec.upd f) (fun _ _ => rfl) es E
    have hfst := consumeMut_snd_map (Prod.fst : Nat × K × V → Nat) (es.map fun e => (e.1, updV (MapSpec.upd e.2))) E (by
      intro e he x
      obtain ⟨e', _, rfl⟩ := List.mem_map.1 he
      rfl)
    refine ⟨s', _, _, by simp only [call, e]; rfl, h', ?_, ?_, hfst⟩
    · unfold script; rw [hmap.1]
    · unfold script; rw [hmap.2]

end Api

/-- histories with writes of nodes -/
theorem Poke.run {S Op Out : Type} {step : Ents K V → Op → Out → Ents K V → Prop}
    {call : S → Op → R (S × Out)} {set : S → Nat → K → V → R S} {M : Nat} {Rep : S → Ents K V → Prop}
    (hcall : ∀ s E op, Rep s E → ∃ s' o E', call s op = .ok (s', o) ∧ Rep s' E' ∧ step E op o E')
    (hset : ∀ s E i k v, Rep s E → 1 ≤ i → i ≤ M → ∃ s', set s i k v = .ok s' ∧ Rep s' (Poke.overwrite i k v E)) :
    ∀ (ops : List (Poke.POp Op K V)) (s : S) (E : Ents K V), Rep s E → Poke.InRange M ops →
      ∃ s' os E', Sokoban.run (Poke.call call set) s ops = .ok (s', os) ∧ Rep s' E' ∧
        Trace (Poke.PStep step) E ops os E'
  | [], s, E, h, _ => ⟨s, [], E, rfl, h, rfl⟩
  | op :: ops, s, E, h, hr => by
    have hr' : Poke.InRange M ops := fun i k v hm => hr i k v (List.mem_cons_of_mem _ hm)
    obtain ⟨s1, o, E1, e1, h1, hs1⟩ : ∃ s1 o E1, Poke.call call set s op = .ok (s1, o) ∧ Rep s1 E1 ∧
        Poke.PStep step E op o E1 := by
      cases op with
      | op op =>
        obtain ⟨s1, o, E1, e1, h1, hs1⟩ := hcall s E op h
        exact ⟨s1, .op o, E1, by simp only [Poke.call, e1]; rfl, h1, hs1⟩
      | put i k v =>
        obtain ⟨h1, h2⟩ := hr i k v (by simp)
        obtain ⟨s1, e1, h1⟩ := hset s E i k v h h1 h2
        exact ⟨s1, .put, _, by simp only [Poke.call, e1]; rfl, h1, rfl⟩
    obtain ⟨s2, os, E2, e2, h2, hs2⟩ := Poke.run hcall hset ops s1 E1 h1 hr'
    exact ⟨s2, o :: os, E2, by simp [Sokoban.run, e1, e2], h2, ⟨_, hs1, hs2⟩⟩

namespace RedBlackTree
open RedBlackSpec BT
variable {M : Nat} [Ord K]

theorem call_at (hM : M + 1 < 2 ^ 32) (hM0 : 0 < M) (s : RedBlackTree K V M) (E : Ents K V) (op : TOp K V)
    (h : Held s E) : ∃ s' o E', call s op = .ok (s', o) ∧ Held s' E' ∧
      Poke.TStep (fun k k' => compare k k' = .eq) M E op o E' := by
  cases op with
  | map op =>
    obtain ⟨s', o, E', e, h', hs⟩ := (loose hM hM0).call_at s E op h
    exact ⟨s', .map o, E', by simp only [call, e]; rfl, h', hs⟩
  | removeRoot =>
    obtain ⟨t, hz, hg, hE, hroot, hnil, hr0, hh, _⟩ := h.tree
    by_cases hne : E = []
    · subst hne
      refine ⟨s, .root none, [], ?_, h, rfl, rfl⟩
      have e : s.removeRoot = .ok (s, none) := by
        unfold RedBlackTree.removeRoot
        rw [if_pos (show s.root = SENTINEL from hr0.2 rfl)]; rfl
      simp only [call, e]; rfl
    · cases t with
      | nil => exact absurd (hnil.1 rfl) hne
      | node l x r =>
        obtain ⟨s', t', e, hz', hg', _⟩ := removeTreeNode_spec (lim := M + 2) hz hg (by have := hz.lim_ok; omega)
        have e' : s.removeRoot = .ok (s', some ⟨x.key, x.val⟩) := by
          unfold RedBlackTree.removeRoot
          rw [if_neg (show ¬ s.root = SENTINEL from fun hc => hne (hr0.1 hc)), hroot, root_node, hz.getNode,
            except_bind_ok, e]; rfl
        refine ⟨s', .root (some (x.key, x.val)), l.ents ++ r.ents, by simp only [call, e']; rfl,
          ⟨t', by simpa [Ctx.lft, Ctx.rgt] using hz', hg'⟩, l.ents, x.idx, r.ents, ?_, rfl⟩
        rw [← hE]; simp [GN.ent]

end RedBlackTree

namespace HashTable
open HashTableSpec
variable {B M : Nat} {hash : K → Nat} {h : HashTable K V B M} {c : Nat → List (Ent K V)}

theorem poke_all (i : Nat) (k : K) (v : V) :
    all B (fun b => Poke.overwrite i k v (c b)) = Poke.overwrite i k v (all B c) := by
  simp only [all, Poke.overwrite, List.map_flatMap]

theorem HHeld.poke (H : HHeld False hash h c) {i : Nat} (h1 : 1 ≤ i) (h2 : i ≤ M) (k : K) (v : V) :
    ∃ h', h.setNode i ⟨k, v⟩ = .ok h' ∧ HHeld False hash h' (fun b => Poke.overwrite i k v (c b)) := by
  have hids : ∀ b, ids (Poke.overwrite i k v (c b)) = ids (c b) := fun b => fst_overwrite i k v (c b)
  have hall : ids (all B fun b => Poke.overwrite i k v (c b)) = ids (all B c) := by
    rw [poke_all]; exact fst_overwrite i k v (all B c)
  refine ⟨{ h with allocator := h.allocator.setVal i ⟨k, v⟩ }, ?_, H.pos, ?_, ?_, ?_, ?_, ?_, nofun, fun _ h => nomatch h⟩
  · unfold setNode
    rw [setValue_ok _ _ h1 h2]; rfl
  · obtain ⟨free, hf⟩ := H.inv
    exact ⟨free, Known.nothing_ok _, by rw [hall]; exact hf.setVal _ _⟩
  · rw [hall]; exact H.clean.setVal _ _
  · intro b hb
    rw [hids]; exact DSeg.frame (fun j _ => by simp) (H.seg b hb)
  · intro b hb
    rw [hids]; exact H.head b hb
  · intro b hb e he
    obtain ⟨e', he', rfl⟩ := List.mem_map.1 he
    show (h.allocator.setVal i ⟨k, v⟩).val? _ = _
    rw [val?_setVal]
    by_cases hi : e'.1 = i
    · simp only [if_pos hi]
      rw [if_pos ⟨trivial, h1, h2⟩]
    · simp only [if_neg hi]
      rw [if_neg (fun hc => hi hc.1)]
      exact H.vals b hb e' he'

theorem HHeld.loose {st : Prop} (H : HHeld st hash h c) : HHeld False hash h c where
  pos := H.pos
  known := H.known
  clean := H.clean
  seg := H.seg
  head := H.head
  vals := H.vals
  home := nofun
  kept := H.kept

/-- the rows with addresses -/
abbrev rowsAt (B : Nat) (c : Nat → List (Ent K V)) : List (List (Ent K V)) := (List.range B).map c

theorem bare_rowsAt : Poke.bare (rowsAt B c) = rowsOf B c := by
  simp only [Poke.bare, rowsAt, List.map_map]; rfl

theorem rowsAt_flatten : (rowsAt B c).flatten = all B c := by
  simp only [rowsAt, all, List.flatMap_def]

theorem run_poke [BEq K] (hM : M + 1 < 2 ^ 32) : ∀ (ops : List (Poke.POp (Op K V) K V)) (h : HashTable K V B M)
    (c : Nat → List (Ent K V)), HHeld False hash h c → Poke.InRange M ops →
    ∃ h' c' outs, run (Poke.call (call hash) fun h i k v => h.setNode i ⟨k, v⟩) h ops = .ok (h', outs) ∧
      HHeld False hash h' c' ∧ Trace (Poke.HPStep hash M) (rowsAt B c) ops outs (rowsAt B c')
  | [], h, c, H, _ => ⟨h, c, [], rfl, H, rfl⟩
  | op :: ops, h, c, H, hr => by
    have hr' : Poke.InRange M ops := fun i k v hm => hr i k v (List.mem_cons_of_mem _ hm)
    obtain ⟨s1, c1, o, e1, h1, hs1⟩ : ∃ s1 c1 o, Poke.call (call hash) (fun h i k v => h.setNode i ⟨k, v⟩) h op =
        .ok (s1, o) ∧ HHeld False hash s1 c1 ∧ Poke.HPStep hash M (rowsAt B c) op o (rowsAt B c1) := by
      cases op with
      | op op =>
        obtain ⟨s1, c1, e1, h1, h2, h3⟩ := call_at hM H op
        refine ⟨s1, c1, .op _, by simp only [Poke.call, e1]; rfl, h1, ?_, ?_⟩
        · rw [bare_rowsAt, bare_rowsAt, h2]
        · rw [rowsAt_flatten, rowsAt_flatten]; exact h3
      | put i k v =>
        obtain ⟨h1, h2⟩ := hr i k v (by simp)
        obtain ⟨s1, e1, h1⟩ := H.poke h1 h2 k v
        refine ⟨s1, _, .put, by simp only [Poke.call, e1]; rfl, h1, ?_⟩
        simp only [Poke.HPStep, rowsAt, List.map_map]; rfl
    obtain ⟨s2, c2, os, e2, h2, hs2⟩ := run_poke hM ops s1 c1 h1 hr'
    exact ⟨s2, c2, o :: os, by simp [run, e1, e2], h2, ⟨_, hs1, hs2⟩⟩

end HashTable
end Sokoban
