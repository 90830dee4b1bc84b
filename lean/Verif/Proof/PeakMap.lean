import Verif.Proof.Peak
import Verif.Proof.RBAny
import Verif.Proof.AVLAny
import Verif.Proof.AnyEq
import Verif.Proof.CritbitLaws
import Verif.Proof.DequeHist

/-
One call of each structure: the bump index of its allocator and the slots beyond it.
-/
namespace Sokoban
open NodeAllocator MapSpec

namespace Api
variable {S K V T : Type} {A : Api S K V} {M M' r : Nat} {Rep : S → Ents K V → Prop} {It : S → A.Iter → List A.Ref → Prop}

/-- one call of a map -/
theorem Walks.call_peak (H : A.Walks M' Rep It) (al : S → NodeAllocator T M r) (hr : 0 < r)
    (inv : ∀ {s E}, Rep s E → ∃ free, AInv (al s) free (E.map Prod.fst))
    (hins : ∀ {s E k v s' o}, Rep s E → A.insert s k v = .ok (s', o) → AllocStep (al s) (al s') ∧
      ∀ i, (al s').bumpIndex ≤ i → (al s').val? i = (al s).val? i)
    (hrem : ∀ {s k s' o}, A.remove s k = .ok (s', o) → (al s').bumpIndex = (al s).bumpIndex ∧
      ∀ i, (al s').val? i = (al s).val? i)
    (hwr : ∀ {s i v s'}, A.write s i v = .ok s' → (al s').bumpIndex = (al s).bumpIndex ∧
      ∀ j, j ≠ i → (al s').val? j = (al s).val? j)
    (hget : ∀ {s E k i}, Rep s E → A.getMut s k = .ok (some i) → i ∈ E.map Prod.fst)
    {s s' : S} {E E' : Ents K V} {op : Op K V} {o : Out K V} (h : Rep s E) (h' : Rep s' E')
    (e : A.call s op = .ok (s', o)) :
    (al s').bumpIndex = max (al s).bumpIndex ((al s').size + 1) ∧
      ∀ i, (al s').bumpIndex ≤ i → (al s').val? i = (al s).val? i := by
  obtain ⟨free, hf⟩ := inv h
  obtain ⟨free', hf'⟩ := inv h'
  have hsame : (al s').bumpIndex = (al s).bumpIndex → (al s').bumpIndex = max (al s).bumpIndex ((al s').size + 1) := by
    intro hb
    have := hf'.size_lt
    omega
  unfold call at e
  cases op with
  | insert k v =>
    dsimp only at e
    cases h1 : A.insert s k v with
    | error _ => rw [h1] at e; cases e
    | ok p =>
      rw [h1] at e
      cases e
      obtain ⟨g, hv⟩ := hins h h1
      exact ⟨g.peak hf hr, hv⟩
  | remove k =>
    dsimp only at e
    cases h1 : A.remove s k with
    | error _ => rw [h1] at e; cases e
    | ok p =>
      rw [h1] at e
      cases e
      obtain ⟨hb, hv⟩ := hrem h1
      exact ⟨hsame hb, fun i _ => hv i⟩
  | getMut k f =>
    dsimp only at e
    unfold getMutWrite at e
    cases h1 : A.getMut s k with
    | error _ => rw [h1] at e; cases e
    | ok o =>
      rw [h1] at e
      cases o with
      | none =>
        cases e
        exact ⟨hsame rfl, fun _ _ => rfl⟩
      | some i =>
        simp only [except_bind_ok] at e
        cases h2 : A.readVal s i with
        | error _ => rw [h2] at e; cases e
        | ok v =>
          rw [h2] at e
          simp only [except_bind_ok] at e
          cases h3 : A.write s i (f v) with
          | error _ => rw [h3] at e; cases e
          | ok s1 =>
            rw [h3] at e
            cases e
            obtain ⟨hb, hv⟩ := hwr h3
            have := hf.live_lt (hget h h1)
            exact ⟨hsame hb, fun j hj => hv j (by dsimp only at hj; omega)⟩
  | iterMut es =>
    dsimp only at e
    cases h1 : A.iterMut s es with
    | error _ => rw [h1] at e; cases e
    | ok p =>
      obtain ⟨s1, it, items⟩ := p
      rw [h1] at e
      cases e
      have hb := iterMut_frame (fun s => (al s).bumpIndex) (fun s i v s' e => (hwr e).1) es s h1
      refine ⟨hsame hb, fun i hi => iterMut_off (fun s i => (al s).val? i) (fun s p v s' e => (hwr e).2) es s h1 i ?_⟩
      intro w hw
      obtain ⟨s2, it2, e2, _⟩ := H.iterMut h es
      rw [e2] at h1
      cases h1
      have := hf.live_lt (List.mem_map_of_mem (f := Prod.fst) (mem_consumeMut hw))
      dsimp only at this hi
      omega
end Api

namespace RedBlackTree
variable {K V : Type} {M : Nat} {s s' : RedBlackTree K V M} {E : Ents K V}
open RedBlackSpec

theorem write_kept {i : Nat} {v : V} (e : s.setNodeValue i v = .ok s') :
    s'.allocator.bumpIndex = s.allocator.bumpIndex ∧ ∀ j, j ≠ i → s'.allocator.val? j = s.allocator.val? j := by
  refine ⟨(sizes_setNodeValue e).2, fun j hj => ?_⟩
  obtain ⟨n, _, h'⟩ := kept_setNodeValue (f := s.allocator.val?) (fun _ => rfl) e
  rw [h' j, updAt, if_neg hj]

variable [Ord K]

theorem insert_kept (hM : M + 1 < 2 ^ 32) (hM0 : 0 < M) (h : Held s E) {k : K} {v : V} {o : Option Nat}
    (e : s.insert k v = .ok (s', o)) : AllocStep s.allocator s'.allocator ∧
      (∀ i, s'.allocator.bumpIndex ≤ i → s'.allocator.val? i = s.allocator.val? i) ∧
      ∀ i, o = some i → i < s'.allocator.bumpIndex := by
  refine ⟨allocStep_insert _ _ e, ?_⟩
  have hlive : ∀ i, o = some i → i < s'.allocator.bumpIndex := by
    intro i hi
    subst hi
    rcases h.find hM hM0 k with ⟨_, _, hi⟩ | ⟨L1, j, k', w, L2, _, _, _, _, hi⟩
    · rcases hi v with ⟨_, e'⟩ | ⟨_, s1, j, L1, L2, _, e', h'⟩
      · rw [e'] at e; cases e
      · rw [e'] at e; cases e
        obtain ⟨free, hf⟩ := h'.base.inv
        exact hf.live_lt (by simp)
    · obtain ⟨s1, e', h'⟩ := hi v
      rw [e'] at e; cases e
      obtain ⟨free, hf⟩ := h'.base.inv
      exact hf.live_lt (by simp)
  refine ⟨fun i hi => ?_, hlive⟩
  obtain ⟨g, hg, hoff, _⟩ := off_insert (f := s.allocator.val?) (fun _ => rfl) _ _ e
  rw [hg i, hoff i (fun hc => by have := hlive i hc; omega)]

theorem call_peak (hM : M + 1 < 2 ^ 32) (hM0 : 0 < M) (s : RedBlackTree K V M) (op : TOp K V) (s' : RedBlackTree K V M)
    (o : TOut K V) (h : ∃ E, Held s E) (e : RedBlackSpec.call s op = .ok (s', o)) :
    (∃ E, Held s' E) ∧ s'.allocator.bumpIndex = max s.allocator.bumpIndex (s'.len + 1) ∧
      ∀ i, s'.allocator.bumpIndex ≤ i → s'.allocator.val? i = s.allocator.val? i := by
  obtain ⟨E, h⟩ := h
  obtain ⟨s1, o1, E', e1, h', _⟩ := call_any hM hM0 s E op h
  rw [e1] at e
  cases e
  refine ⟨⟨E', h'⟩, ?_⟩
  cases op with
  | map op =>
    obtain ⟨s2, o2, E2, e2, h2, _⟩ := (loose hM hM0).call_spec s E op h
    have : RedBlackSpec.call s (.map op) = .ok (s2, .map o2) := by simp only [RedBlackSpec.call, e2]; rfl
    rw [this] at e1
    cases e1
    refine (loose hM hM0).call_peak (fun s => s.allocator) (by omega) (fun h => h.base.inv)
      (fun h e => ⟨(insert_kept hM hM0 h e).1, (insert_kept hM hM0 h e).2.1⟩)
      (fun {s k s' o} e => ?_) (fun e => write_kept e) (fun {s E k i} h e => ?_) h h2 e2
    · exact ⟨(keep_remove (f := Frame.bump _ s.allocator.bumpIndex) (t := s) rfl _ e).1,
        fun i => (keep_remove (f := Frame.vals s.allocator.val?) (t := s) (fun _ => rfl) _ e).1 i⟩
    · rcases (loose hM hM0).find h k with ⟨_, e', _⟩ | ⟨L1, j, k', w, L2, rfl, _, _, e', _⟩
      · rw [e'] at e; cases e
      · rw [e'] at e; cases e; simp
  | removeRoot =>
    obtain ⟨free, hf⟩ := h'.base.inv
    cases h2 : s.removeRoot with
    | error _ => simp only [RedBlackSpec.call, h2] at e1; cases e1
    | ok p =>
      simp only [RedBlackSpec.call, h2] at e1
      cases e1
      have hb : p.1.allocator.bumpIndex = s.allocator.bumpIndex :=
        (keep_removeRoot (f := Frame.bump _ s.allocator.bumpIndex) (t := s) rfl _ h2).1
      have hs : p.1.allocator.size + 1 ≤ p.1.allocator.bumpIndex := hf.size_lt
      refine ⟨?_, fun i _ => (keep_removeRoot (f := Frame.vals s.allocator.val?) (t := s) (fun _ => rfl) _ h2).1 i⟩
      show _ = max _ (p.1.allocator.size + 1)
      omega
end RedBlackTree

namespace AVLTree
variable {K V : Type} {M : Nat} {s s' : AVLTree K V M} {E : Ents K V}
open AVLSpec

theorem write_kept {i : Nat} {v : V} (e : s.setNodeValue i v = .ok s') :
    s'.allocator.bumpIndex = s.allocator.bumpIndex ∧ ∀ j, j ≠ i → s'.allocator.val? j = s.allocator.val? j := by
  refine ⟨(sizes_setNodeValue e).2, fun j hj => ?_⟩
  obtain ⟨n, _, h'⟩ := kept_setNodeValue (f := s.allocator.val?) (fun _ => rfl) e
  rw [h' j, updAt, if_neg hj]

variable [LT K] [DecidableLT K] [PartialGt K]

theorem insert_kept (hM : M + 1 < 2 ^ 32) (hM0 : 0 < M) (h : Held s E) {k : K} {v : V} {o : Option Nat}
    (e : s.insert k v = .ok (s', o)) : AllocStep s.allocator s'.allocator ∧
      (∀ i, s'.allocator.bumpIndex ≤ i → s'.allocator.val? i = s.allocator.val? i) ∧
      ∀ i, o = some i → i < s'.allocator.bumpIndex := by
  refine ⟨allocStep_insert _ _ e, ?_⟩
  have hlive : ∀ i, o = some i → i < s'.allocator.bumpIndex := by
    intro i hi
    subst hi
    rcases h.find hM hM0 k with ⟨_, _, hi⟩ | ⟨L1, j, k', w, L2, _, _, _, _, hi⟩
    · rcases hi v with ⟨_, e'⟩ | ⟨_, s1, j, L1, L2, _, e', h'⟩
      · rw [e'] at e; cases e
      · rw [e'] at e; cases e
        obtain ⟨free, hf⟩ := h'.base.inv
        exact hf.live_lt (by simp)
    · obtain ⟨s1, e', h'⟩ := hi v
      rw [e'] at e; cases e
      obtain ⟨free, hf⟩ := h'.base.inv
      exact hf.live_lt (by simp)
  refine ⟨fun i hi => ?_, hlive⟩
  obtain ⟨g, hg, hoff, _⟩ := off_insert (f := s.allocator.val?) (fun _ => rfl) _ _ e
  rw [hg i, hoff i (fun hc => by have := hlive i hc; omega)]

theorem call_peak (hM : M + 1 < 2 ^ 32) (hM0 : 0 < M) (s : AVLTree K V M) (op : Op K V) (s' : AVLTree K V M)
    (o : Out K V) (h : ∃ E, Held s E) (e : AVLSpec.call s op = .ok (s', o)) :
    (∃ E, Held s' E) ∧ s'.allocator.bumpIndex = max s.allocator.bumpIndex (s'.len + 1) ∧
      ∀ i, s'.allocator.bumpIndex ≤ i → s'.allocator.val? i = s.allocator.val? i := by
  obtain ⟨E, h⟩ := h
  obtain ⟨s2, o2, E2, e2, h2, _⟩ := (loose hM hM0).call_spec s E op h
  rw [show AVLSpec.call s op = _ from e2] at e
  cases e
  refine ⟨⟨E2, h2⟩, ?_⟩
  refine (loose hM hM0).call_peak (fun s => s.allocator) (by omega) (fun h => h.base.inv)
    (fun h e => ⟨(insert_kept hM hM0 h e).1, (insert_kept hM hM0 h e).2.1⟩)
    (fun {s k s' o} e => ?_) (fun e => write_kept e) (fun {s E k i} h e => ?_) h h2 e2
  · exact ⟨(keep_remove (f := Frame.bump _ s.allocator.bumpIndex) (t := s) rfl _ e).1,
      fun i => (keep_remove (f := Frame.vals s.allocator.val?) (t := s) (fun _ => rfl) _ e).1 i⟩
  · rcases (loose hM hM0).find h k with ⟨_, e', _⟩ | ⟨L1, j, k', w, L2, rfl, _, _, e', _⟩
    · rw [e'] at e; cases e
    · rw [e'] at e; cases e; simp
end AVLTree

namespace HashTable
variable {K V : Type} {B M : Nat} {st : Prop} {hash : K → Nat} {s s' : HashTable K V B M} {c : Nat → List (Ent K V)}
open HashTableSpec

theorem write_kept {i : Nat} {v : V} (e : s.setNodeValue i v = .ok s') :
    s'.allocator.bumpIndex = s.allocator.bumpIndex ∧ ∀ j, j ≠ i → s'.allocator.val? j = s.allocator.val? j := by
  refine ⟨(sizes_setNodeValue e).2, fun j hj => ?_⟩
  obtain ⟨n, _, h'⟩ := kept_setNodeValue (f := s.allocator.val?) (fun _ => rfl) e
  rw [h' j, updAt, if_neg hj]

theorem HHeld.live_lt (H : HHeld st hash s c) {b : Nat} (hb : b < B) {x : Ent K V} (hx : x ∈ c b) :
    x.1 < s.allocator.bumpIndex := by
  obtain ⟨free, hf⟩ := H.inv
  exact hf.live_lt (List.mem_map_of_mem (mem_all.2 ⟨b, hb, hx⟩))

variable [BEq K]

theorem insert_kept (hM : M + 1 < 2 ^ 32) (H : HHeld st hash s c) {k : K} {v : V} {o : Option Nat}
    (e : s.insert hash k v = .ok (s', o)) : AllocStep s.allocator s'.allocator ∧
      (∀ i, s'.allocator.bumpIndex ≤ i → s'.allocator.val? i = s.allocator.val? i) ∧
      ∀ i, o = some i → i < s'.allocator.bumpIndex := by
  refine ⟨allocStep_insert _ _ e, ?_⟩
  have hb : hash k % B < B := Nat.mod_lt _ H.pos
  have hlive : ∀ i, o = some i → i < s'.allocator.bumpIndex := by
    intro i hi
    subst hi
    rcases find_held H k with ⟨hf, _⟩ | ⟨l1, j, k', v0, l2, hc, _, _, _, _, hf⟩
    · by_cases hlt : (all B c).length < M
      · obtain ⟨s1, j, e', H'⟩ := insert_new_held H hM v hlt hf
        rw [e'] at e; cases e
        exact H'.live_lt hb (x := (i, k, v)) (by simp [updB])
      · rw [insert_full_held H v (by have := H.le; omega) hf] at e; cases e
    · obtain ⟨s1, e', H'⟩ := insert_old_held H v hc hf
      rw [e'] at e; cases e
      exact H'.live_lt hb (x := (i, k', v)) (by simp [updB])
  refine ⟨fun i hi => ?_, hlive⟩
  obtain ⟨g, hg, hoff, _⟩ := off_insert (f := s.allocator.val?) (fun _ => rfl) _ _ e
  rw [hg i, hoff i (fun hc => by have := hlive i hc; omega)]

theorem call_peak (hM : M + 1 < 2 ^ 32) (s : HashTable K V B M) (op : Op K V) (s' : HashTable K V B M)
    (o : Out K V) (h : ∃ c, HHeld st hash s c) (e : HashTableSpec.call hash s op = .ok (s', o)) :
    (∃ c, HHeld st hash s' c) ∧ s'.allocator.bumpIndex = max s.allocator.bumpIndex (s'.len + 1) ∧
      ∀ i, s'.allocator.bumpIndex ≤ i → s'.allocator.val? i = s.allocator.val? i := by
  obtain ⟨c, H⟩ := h
  obtain ⟨s1, c1, e1, H1, _⟩ := call_any hM H op
  have hs1 : s1 = s' := by rw [e1] at e; cases e; rfl
  subst hs1
  clear e1
  refine ⟨⟨c1, H1⟩, ?_⟩
  obtain ⟨free, hf⟩ := H.inv
  obtain ⟨free', hf'⟩ := H1.inv
  have hsame : s1.allocator.bumpIndex = s.allocator.bumpIndex →
      s1.allocator.bumpIndex = max s.allocator.bumpIndex (s1.allocator.size + 1) := by
    intro hb
    have := hf'.size_lt
    omega
  cases op with
  | insert k v =>
    cases h1 : s.insert hash k v with
    | error _ => simp only [HashTableSpec.call, h1] at e; cases e
    | ok p =>
      simp only [HashTableSpec.call, h1, except_bind_ok] at e
      have e2 : p.1 = s1 := by cases e; rfl
      obtain ⟨g, hv, _⟩ := insert_kept hM H h1
      rw [e2] at g hv
      exact ⟨g.peak hf (by omega), hv⟩
  | remove k =>
    cases h1 : s.remove hash k with
    | error _ => simp only [HashTableSpec.call, h1] at e; cases e
    | ok p =>
      simp only [HashTableSpec.call, h1, except_bind_ok] at e
      have e2 : p.1 = s1 := by cases e; rfl
      have hb : p.1.allocator.bumpIndex = s.allocator.bumpIndex :=
        (keep_remove (f := Frame.bump _ s.allocator.bumpIndex) (t := s) rfl _ h1).1
      have hv : ∀ i, p.1.allocator.val? i = s.allocator.val? i :=
        fun i => (keep_remove (f := Frame.vals s.allocator.val?) (t := s) (fun _ => rfl) _ h1).1 i
      rw [e2] at hb hv
      exact ⟨hsame hb, fun i _ => hv i⟩
  | getMut k f =>
    cases h1 : s.getMut hash k with
    | error _ => simp only [HashTableSpec.call, getMutWrite, h1] at e; cases e
    | ok p =>
      obtain ⟨s2, o⟩ := p
      simp only [HashTableSpec.call, getMutWrite, h1, except_bind_ok] at e
      have hb : s2.allocator.bumpIndex = s.allocator.bumpIndex :=
        (keep_getMut (f := Frame.bump _ s.allocator.bumpIndex) (t := s) rfl _ h1).1
      have hv : ∀ i, s2.allocator.val? i = s.allocator.val? i :=
        fun i => (keep_getMut (f := Frame.vals s.allocator.val?) (t := s) (fun _ => rfl) _ h1).1 i
      cases o with
      | none =>
        have e2 : s2 = s1 := by cases e; rfl
        rw [e2] at hb hv
        exact ⟨hsame hb, fun i _ => hv i⟩
      | some j =>
        simp only at e
        cases h2 : s2.getNode j with
        | error _ => rw [h2] at e; cases e
        | ok n =>
          rw [h2] at e
          simp only [except_bind_ok] at e
          cases h3 : s2.setNodeValue j (f n.value) with
          | error _ => rw [h3] at e; cases e
          | ok s3 =>
            rw [h3] at e
            have e2 : s3 = s1 := by cases e; rfl
            obtain ⟨hb3, hv3⟩ := write_kept h3
            rw [e2] at hb3 hv3
            have hj : j < s.allocator.bumpIndex := by
              rcases find_held H k with ⟨hf, _⟩ | ⟨l1, i, k', v0, l2, hc, _, _, _, _, hf⟩
              · rw [getMut_none_held H hf] at h1; cases h1
              · obtain ⟨h', e', _⟩ := getMut_old_held H hc hf
                rw [e'] at h1; cases h1
                exact H.live_lt (Nat.mod_lt _ H.pos) (x := (j, k', v0)) (by rw [hc]; simp)
            refine ⟨hsame (hb3.trans hb), fun i hi => ?_⟩
            rw [hv3 i (by omega), hv]
  | iterMut es =>
    cases h1 : iterMut s es with
    | error _ => simp only [HashTableSpec.call, h1] at e; cases e
    | ok p =>
      obtain ⟨s2, it, items⟩ := p
      simp only [HashTableSpec.call, h1, except_bind_ok] at e
      have e2 : s2 = s1 := by cases e; rfl
      subst e2
      obtain ⟨s3, c3, it3, e3, _⟩ := iterMut_held H es
      rw [e3] at h1
      have hit : (consumeMutFwd (all B c) (es.map fun e => (e.1, updE (MapSpec.upd e.2)))).1 = items := by cases h1; rfl
      rw [← e3] at h1
      unfold iterMut at h1
      cases h4 : s.iter with
      | error _ => rw [h4] at h1; cases h1
      | ok it0 =>
        rw [h4] at h1
        simp only [except_bind_ok] at h1
        have hb : s2.allocator.bumpIndex = s.allocator.bumpIndex :=
          driveMut_frame (fun s : HashTable K V B M => s.allocator.bumpIndex) (fun s i v s' e => (write_kept e).1) _ _ _ h1
        refine ⟨hsame hb, fun i hi => ?_⟩
        refine driveMut_off (fun (s : HashTable K V B M) i => s.allocator.val? i) id (fun s i v s' e => (write_kept e).2) _ _ _ h1 i ?_
        rintro p w hp rfl
        rw [← hit] at hp
        have : p < s.allocator.bumpIndex := hf.live_lt (List.mem_map_of_mem (f := Prod.fst) (mem_consumeMutFwd hp))
        simp only [id] at hi
        omega
end HashTable

namespace Deque
variable {T : Type} {M : Nat} {d d' : Deque T M} {l : List (Nat × T)}
open DequeSpec

theorem allocStep_pushBack {v : T} (e : d.pushBack v = .ok d') : ∃ a i, d.allocator.addNode v = .ok (a, i) ∧
    d'.allocator.size = a.size ∧ d'.allocator.bumpIndex = a.bumpIndex ∧ ∀ j, d'.allocator.val? j = a.val? j := by
  unfold pushBack at e
  cases ha : d.allocator.addNode v with
  | error p => rw [ha] at e; cases e
  | ok p =>
    obtain ⟨a, n⟩ := p
    rw [ha] at e
    have h1 : Kept.ok (Frame.like a.size a.bumpIndex a.val?) a := ⟨rfl, rfl, fun _ => rfl⟩
    simp only [except_bind_ok] at e
    refine ⟨a, n, rfl, ?_⟩
    revert e
    have : Keep (Frame.like a.size a.bumpIndex a.val?) (do
      let d : Deque T M := { d with allocator := a }
      let d := if d.head = SENTINEL then { d with head := n } else d
      let a ← (if d.tail ≠ SENTINEL then d.allocator.connect n d.tail PREV NEXT
               else pure d.allocator)
      let d := { d with allocator := a }
      let d := { d with tail := n }
      d.bumpSeq : R (Deque T M)) := by
      have h2 : Kept.ok (Frame.like a.size a.bumpIndex a.val?)
          (if d.head = SENTINEL then { d with allocator := a, head := n } else { d with allocator := a } : Deque T M) :=
        Kept.ite h1 h1
      refine Keep.bind (α := NodeAllocator T M 2) ?_ (fun b hb => keep_bumpSeq hb)
      exact Keep.mk_ite (fun _ => keep_connect h2) (fun _ => Keep.mk_pure h2)
    exact this d'

theorem allocStep_pushFront {v : T} (e : d.pushFront v = .ok d') : ∃ a i, d.allocator.addNode v = .ok (a, i) ∧
    d'.allocator.size = a.size ∧ d'.allocator.bumpIndex = a.bumpIndex ∧ ∀ j, d'.allocator.val? j = a.val? j := by
  unfold pushFront at e
  cases ha : d.allocator.addNode v with
  | error p => rw [ha] at e; cases e
  | ok p =>
    obtain ⟨a, n⟩ := p
    rw [ha] at e
    have h1 : Kept.ok (Frame.like a.size a.bumpIndex a.val?) a := ⟨rfl, rfl, fun _ => rfl⟩
    simp only [except_bind_ok] at e
    refine ⟨a, n, rfl, ?_⟩
    revert e
    have : Keep (Frame.like a.size a.bumpIndex a.val?) (do
      let d : Deque T M := { d with allocator := a }
      let d := if d.tail = SENTINEL then { d with tail := n } else d
      let a ← (if d.head ≠ SENTINEL then d.allocator.connect n d.head NEXT PREV
               else pure d.allocator)
      let d := { d with allocator := a }
      let d := { d with head := n }
      d.bumpSeq : R (Deque T M)) := by
      have h2 : Kept.ok (Frame.like a.size a.bumpIndex a.val?)
          (if d.tail = SENTINEL then { d with allocator := a, tail := n } else { d with allocator := a } : Deque T M) :=
        Kept.ite h1 h1
      refine Keep.bind (α := NodeAllocator T M 2) ?_ (fun b hb => keep_bumpSeq hb)
      exact Keep.mk_ite (fun _ => keep_connect h2) (fun _ => Keep.mk_pure h2)
    exact this d'

theorem write_kept {i : Nat} {v : T} (e : d.writeSlot i v = .ok d') :
    d'.allocator.bumpIndex = d.allocator.bumpIndex ∧ ∀ j, j ≠ i → d'.allocator.val? j = d.allocator.val? j := by
  unfold writeSlot at e
  cases h : d.allocator.setValue i v with
  | error _ => rw [h] at e; cases e
  | ok a =>
    rw [h] at e
    cases e
    refine ⟨(sizes_setValue h).2, fun j hj => ?_⟩
    rw [show a.val? j = _ from (vals_setValue h).2 j, if_neg hj]

theorem call_peak (d : Deque T M) (op : Op T) (d' : Deque T M) (o : Out T) {l l' : List (Nat × T)} (h : DRep d l)
    (h' : DRep d' l') (e : DequeSpec.call d op = .ok (d', o)) :
    d'.allocator.bumpIndex = max d.allocator.bumpIndex (d'.len + 1) ∧
      ∀ i, d'.allocator.bumpIndex ≤ i → d'.allocator.val? i = d.allocator.val? i := by
  obtain ⟨free, hf⟩ := h.inv
  obtain ⟨free', hf'⟩ := h'.inv
  have hsame : d'.allocator.bumpIndex = d.allocator.bumpIndex →
      d'.allocator.bumpIndex = max d.allocator.bumpIndex (d'.allocator.size + 1) := by
    intro hb
    have := hf'.size_lt
    omega
  cases op with
  | pushBack v =>
    cases h1 : d.pushBack v with
    | error _ => simp only [DequeSpec.call, h1] at e; cases e
    | ok p =>
      simp only [DequeSpec.call, h1] at e
      cases e
      obtain ⟨a, i, e1, e2, e3, e4⟩ := allocStep_pushBack h1
      exact ⟨AllocStep.peak hf (by omega) (.inr ⟨v, a, i, e1, e2, e3, e4⟩), fun i hi => addNode_past hf (by omega) e1 e3 e4 hi⟩
  | pushFront v =>
    cases h1 : d.pushFront v with
    | error _ => simp only [DequeSpec.call, h1] at e; cases e
    | ok p =>
      simp only [DequeSpec.call, h1] at e
      cases e
      obtain ⟨a, i, e1, e2, e3, e4⟩ := allocStep_pushFront h1
      exact ⟨AllocStep.peak hf (by omega) (.inr ⟨v, a, i, e1, e2, e3, e4⟩), fun i hi => addNode_past hf (by omega) e1 e3 e4 hi⟩
  | popBack =>
    cases h1 : d.popBack with
    | error _ => simp only [DequeSpec.call, h1] at e; cases e
    | ok p =>
      simp only [DequeSpec.call, h1, except_bind_ok] at e
      have e2 : p.1 = d' := by cases e; rfl
      have hb : p.1.allocator.bumpIndex = d.allocator.bumpIndex :=
        (keep_popBack (f := Frame.bump _ d.allocator.bumpIndex) (t := d) rfl _ h1).1
      have hv : ∀ i, p.1.allocator.val? i = d.allocator.val? i :=
        fun i => (keep_popBack (f := Frame.vals d.allocator.val?) (t := d) (fun _ => rfl) _ h1).1 i
      rw [e2] at hb hv
      exact ⟨hsame hb, fun i _ => hv i⟩
  | popFront =>
    cases h1 : d.popFront with
    | error _ => simp only [DequeSpec.call, h1] at e; cases e
    | ok p =>
      simp only [DequeSpec.call, h1, except_bind_ok] at e
      have e2 : p.1 = d' := by cases e; rfl
      have hb : p.1.allocator.bumpIndex = d.allocator.bumpIndex :=
        (keep_popFront (f := Frame.bump _ d.allocator.bumpIndex) (t := d) rfl _ h1).1
      have hv : ∀ i, p.1.allocator.val? i = d.allocator.val? i :=
        fun i => (keep_popFront (f := Frame.vals d.allocator.val?) (t := d) (fun _ => rfl) _ h1).1 i
      rw [e2] at hb hv
      exact ⟨hsame hb, fun i _ => hv i⟩
  | iterMut es =>
    cases h1 : iterMut d es with
    | error _ => simp only [DequeSpec.call, h1] at e; cases e
    | ok p =>
      obtain ⟨d2, it, items⟩ := p
      simp only [DequeSpec.call, h1, except_bind_ok] at e
      have e2 : d2 = d' := by cases e; rfl
      subst e2
      obtain ⟨s3, it3, e3, _⟩ := iterMut_spec h es
      rw [e3] at h1
      have hit : (consumeMut l (es.map fun e => (e.1, updVal e.2))).1 = items := by cases h1; rfl
      rw [← e3] at h1
      unfold iterMut at h1
      have hb : d2.allocator.bumpIndex = d.allocator.bumpIndex :=
        driveMut_frame (fun s : Deque T M => s.allocator.bumpIndex) (fun s i v s' e => (write_kept e).1) _ _ _ h1
      refine ⟨hsame hb, fun i hi => ?_⟩
      refine driveMut_off (fun (s : Deque T M) i => s.allocator.val? i) id (fun s i v s' e => (write_kept e).2) _ _ _ h1 i ?_
      rintro p w hp rfl
      rw [← hit] at hp
      have : p < d.allocator.bumpIndex := hf.live_lt (List.mem_map_of_mem (f := Prod.fst) (mem_consumeMut hp))
      simp only [id] at hi
      omega
end Deque

namespace Critbit
variable {V : Type} {N M : Nat} {s s' : Critbit V N M} {E : Ents (BitVec 128) V}
open CritbitSpec

theorem allocStep_addLeaf {k : BitVec 128} {v : V} {i j : Nat} (e : s.addLeaf k v = .ok (s', i, j)) :
    ∃ a, s.leaves.addNode v = .ok (a, j) ∧ Kept.ok (Frame.like a.size a.bumpIndex a.val?) s' := by
  unfold addLeaf at e
  cases h1 : s.nodeAllocator.addNode { key := k, prefixLen := 128 } with
  | error p => rw [h1] at e; cases e
  | ok p =>
    obtain ⟨na, n⟩ := p
    rw [h1] at e; simp only [except_bind_ok] at e
    cases h2 : s.leaves.addNode v with
    | error p => rw [h2] at e; cases e
    | ok p =>
      obtain ⟨lv, l⟩ := p
      rw [h2] at e; simp only [except_bind_ok] at e
      cases h3 : na.setRegister n l VALUE with
      | error p => rw [h3] at e; cases e
      | ok na' =>
        rw [h3] at e; simp only [except_bind_ok] at e
        cases h4 : lv.setValue l v with
        | error p => rw [h4] at e; cases e
        | ok lv' =>
          rw [h4] at e
          cases e
          refine ⟨lv, rfl, (sizes_setValue h4).1, (sizes_setValue h4).2, fun i => ?_⟩
          rw [(vals_setValue h4).2 i]
          split
          · rename_i hi
            rw [(vals_addNode h2).2.2 i, if_pos hi]
          · rfl

theorem allocStep_insertSplit {k : BitVec 128} {v : V} {i p : Nat} : AllocSteps leaves s.leaves (s.insertSplit k v i p) := by
  unfold insertSplit
  refine AllocSteps.bind fun m _ => AllocSteps.bind fun q e => ?_
  obtain ⟨t1, n, j⟩ := q
  obtain ⟨a, ea, h1⟩ := allocStep_addLeaf e
  refine AllocSteps.bindK (f := Frame.like a.size a.bumpIndex a.val?) (γ := Critbit V N M × Nat) (keep_duplicate h1) fun q hq => ?_
  obtain ⟨t2, n2⟩ := q
  refine AllocSteps.bindK (f := Frame.like a.size a.bumpIndex a.val?) (γ := Critbit V N M) ?_ fun t3 h3 =>
    AllocSteps.mk_pure (allocStep_add ea h3)
  exact Keep.mk_ite (fun _ => keep_replaceNode hq.1) (fun _ => keep_replaceNode hq.1)

theorem sizes_replaceLeaf {i : Nat} {v : V} (e : s.replaceLeaf i v = .ok s') :
    s'.leaves.size = s.leaves.size ∧ s'.leaves.bumpIndex = s.leaves.bumpIndex ∧
      ∀ j, j ≠ i → s'.leaves.val? j = s.leaves.val? j := by
  unfold replaceLeaf at e
  cases h : s.leaves.setValue i v with
  | error _ => rw [h] at e; cases e
  | ok a =>
    rw [h] at e
    cases e
    refine ⟨(sizes_setValue h).1, (sizes_setValue h).2, fun j hj => ?_⟩
    rw [show a.val? j = _ from (vals_setValue h).2 j, if_neg hj]

theorem allocStep_insertLoop {k : BitVec 128} {v : V} {fuel i : Nat} : AllocSteps leaves s.leaves (s.insertLoop k v fuel i) := by
  induction fuel generalizing i with
  | zero => exact AllocSteps.mk_error
  | succ fuel ih =>
    unfold insertLoop
    refine AllocSteps.bind fun n _ => AllocSteps.bind fun b _ => ?_
    refine AllocSteps.mk_ite (fun _ => ?_) (fun _ => AllocSteps.mk_ite (fun _ => AllocSteps.bind fun _ _ => ih)
      (fun _ => allocStep_insertSplit))
    refine AllocSteps.bind fun l _ => AllocSteps.bind fun t' e => ?_
    obtain ⟨h1, h2, _⟩ := sizes_replaceLeaf e
    exact AllocSteps.mk_pure (.inl ⟨h1, h2⟩)

theorem allocStep_insert {k : BitVec 128} {v : V} : AllocSteps leaves s.leaves (s.insert k v) := by
  unfold insert
  refine AllocSteps.mk_ite (fun _ => AllocSteps.bind fun q e => ?_)
    (fun _ => AllocSteps.mk_ite (fun _ => AllocSteps.mk_pure (allocStep_refl _)) (fun _ => allocStep_insertLoop))
  obtain ⟨t1, n, j⟩ := q
  obtain ⟨a, ea, h1⟩ := allocStep_addLeaf e
  exact AllocSteps.mk_pure (allocStep_add ea h1)

theorem Inv.live (h : Inv s E) : ∃ free, AInv s.leaves free (E.map Prod.fst) := by
  rcases h with ⟨⟨_, nf, lf, _, _, h, _⟩, rfl⟩ | ⟨t, h, rfl⟩
  · exact ⟨lf, h⟩
  · obtain ⟨nf, lf, _, _, h⟩ := h.gi
    exact ⟨lf, h⟩

theorem insert_kept (hN : N + 1 < 2 ^ 32) (hNM : 2 * M ≤ N) (hM0 : 0 < M) (h : Inv s E) {k : BitVec 128} {v : V}
    {o : Option Nat} (e : s.insert k v = .ok (s', o)) : AllocStep s.leaves s'.leaves ∧
      ∀ i, s'.leaves.bumpIndex ≤ i → s'.leaves.val? i = s.leaves.val? i := by
  have hst : AllocStep s.leaves s'.leaves := allocStep_insert _ _ e
  refine ⟨hst, ?_⟩
  obtain ⟨free, hf⟩ := h.live
  -- an allocation
  have hadd : s'.leaves.size ≠ s.leaves.size → ∀ i, s'.leaves.bumpIndex ≤ i → s'.leaves.val? i = s.leaves.val? i := by
    intro hne i hi
    rcases hst with ⟨h1, _⟩ | ⟨w, c, j, e1, _, e3, e4⟩
    · exact absurd h1 hne
    · exact addNode_past hf (by omega) e1 e3 e4 hi
  rcases h with ⟨hE, rfl⟩ | ⟨t, h, rfl⟩
  · refine hadd ?_
    rcases Inv.insert hN hNM hM0 (Or.inl ⟨hE, rfl⟩ : Inv s []) k v with ⟨h1, _⟩ | ⟨_, s1, n, j, t', e1, h1, _, hi, _⟩
    · simp at h1; omega
    · rw [e1] at e; cases e
      have := hf.size
      have := h1.lsize
      rcases hi with ⟨v0, L1, L2, hh, _⟩ | ⟨_, _, L1, L2, hh, hh'⟩
      · simp at hh
      · rw [hh'] at this
        simp at *; omega
  · by_cases hl : t.ents.length = M
    · have : s.insert k v = .ok (s, none) := by
        unfold Critbit.insert
        rw [if_neg h.root_ne, if_pos (show s.len ≥ s.capacity by
          show s.leaves.size ≥ M
          rw [h.lsize, hl])]
        rfl
      rw [this] at e; cases e
      exact fun _ _ => rfl
    · have hle := h.le
      have hhe := h.height
      have hids := t.ids_length
      have hins : s.insert k v = s.insertLoop k v (N + 1) t.root := by
        unfold Critbit.insert
        rw [if_neg h.root_ne, if_neg (show ¬ s.len ≥ s.capacity by
          show ¬ s.leaves.size ≥ M
          rw [h.lsize]; omega), h.root]
      rw [hins] at e
      rcases insertLoop_spec h.gi hN (by omega) (by omega) (by simp; omega) k v h.sh h.rad h.nodup (fun _ hx => hx)
        (fun _ hx => hx) (by omega : t.height ≤ N + 1) with ⟨n, j, v0, hm, e1⟩ | ⟨ha, s1, t', a, b, j, e1, g⟩
      · rw [e1] at e; cases e
        intro i hi
        have hj : j < s.leaves.bumpIndex := hf.live_lt (List.mem_map_of_mem (f := Prod.fst) (CT.mem_nents hm).1)
        have hb : (s.leaves.setVal j v).bumpIndex = s.leaves.bumpIndex := by
          unfold NodeAllocator.setVal
          split <;> rfl
        show (s.leaves.setVal j v).val? i = _
        dsimp only at hi
        rw [NodeAllocator.val?_setVal, if_neg (by omega)]
      · refine hadd ?_
        rw [e1] at e; cases e
        obtain ⟨_, _, _, _, hg⟩ := g.gi
        have h1 := hg.size
        have h2 := hf.size
        simp only [List.length_cons] at h1
        omega

theorem call_peak (hN : N + 1 < 2 ^ 32) (hNM : 2 * M ≤ N) (hM0 : 0 < M) (s : Critbit V N M) (op : Op (BitVec 128) V)
    (s' : Critbit V N M) (o : Out (BitVec 128) V) (h : ∃ E m, Inv s E ∧ FMap.Lists m (E.map Prod.snd))
    (e : CritbitSpec.call s op = .ok (s', o)) :
    (∃ E m, Inv s' E ∧ FMap.Lists m (E.map Prod.snd)) ∧ s'.leaves.bumpIndex = max s.leaves.bumpIndex (s'.len + 1) ∧
      ∀ i, s'.leaves.bumpIndex ≤ i → s'.leaves.val? i = s.leaves.val? i := by
  obtain ⟨E, m, h, hm⟩ := h
  obtain ⟨s2, o2, E2, m2, e2, h2, hm2, _⟩ := call_spec hN hNM hM0 s E m op h hm
  rw [show CritbitSpec.call s op = _ from e2] at e
  cases e
  refine ⟨⟨E2, m2, h2, hm2⟩, ?_⟩
  refine (laws hN hNM hM0).call_peak (fun s => s.leaves) (by omega) (fun h => h.live)
    (fun h e => insert_kept hN hNM hM0 h e)
    (fun {s k s' o} e => ?_) (fun e => (sizes_replaceLeaf e).2) (fun {s E k i} h e => ?_) h h2 e2
  · exact ⟨(keep_remove (f := Frame.bump _ s.leaves.bumpIndex) (t := s) rfl _ e).1,
      fun i => (keep_remove (f := Frame.vals s.leaves.val?) (t := s) (fun _ => rfl) _ e).1 i⟩
  · by_cases ha : Ents.Absent E k
    · rw [(laws hN hNM hM0).getMut_none h ha] at e; cases e
    · unfold Ents.Absent at ha
      push Not at ha
      obtain ⟨x, hx, hk⟩ := ha
      obtain ⟨j, k', v⟩ := x
      dsimp only at hk
      subst hk
      rw [(laws hN hNM hM0).getMut_some h hx] at e; cases e
      exact List.mem_map_of_mem (f := Prod.fst) hx

theorem replaceLeaf_nodes {i : Nat} {v : V} (e : s.replaceLeaf i v = .ok s') : s'.nodeAllocator = s.nodeAllocator := by
  unfold replaceLeaf at e
  cases h : s.leaves.setValue i v with
  | error _ => rw [h] at e; cases e
  | ok a => rw [h] at e; cases e; rfl

/-- one node less than twice the number of entries -/
theorem Inv.nodes (h : Inv s E) : s.nodeAllocator.size = 2 * s.len - 1 := by
  rcases h with ⟨⟨_, nf, lf, h, _, h', _⟩, rfl⟩ | ⟨t, h, rfl⟩
  · show _ = 2 * s.leaves.size - 1
    rw [h.size, h'.size]; rfl
  · have := h.nsize
    have := h.lsize
    show _ = 2 * s.leaves.size - 1
    omega

/-- the nodes of a state that changed in no node -/
theorem Inv.past (h : Inv s E) (e : s'.nodeAllocator = s.nodeAllocator) : Past s s' := by
  have : s.nodeAllocator.size + 1 ≤ s.nodeAllocator.bumpIndex := by
    rcases h with ⟨⟨_, nf, lf, h, _, h', _⟩, rfl⟩ | ⟨t, h, rfl⟩
    · exact h.size_lt
    · obtain ⟨nf, lf, h, _⟩ := h.gi
      exact h.size_lt
  exact ⟨by rw [e]; omega, fun _ _ => by rw [e]⟩

theorem call_past (hN : N + 1 < 2 ^ 32) (hNM : 2 * M ≤ N) (hM0 : 0 < M) (h : Inv s E) {op : Op (BitVec 128) V}
    {o : Out (BitVec 128) V} (e : CritbitSpec.call s op = .ok (s', o)) : Past s s' := by
  unfold CritbitSpec.call Api.call at e
  cases op with
  | insert k v =>
    dsimp only at e
    rcases h.insert hN hNM hM0 k v with ⟨_, h1⟩ | ⟨_, s1, n, j, t', h1, _, _, _, _, hp, _⟩
    · rw [show (CritbitSpec.api : Api (Critbit V N M) _ _).insert s k v = _ from h1] at e
      cases e
      exact h.past rfl
    · rw [show (CritbitSpec.api : Api (Critbit V N M) _ _).insert s k v = _ from h1] at e
      cases e
      exact hp
  | remove k =>
    dsimp only at e
    rcases h.remove k with ⟨_, h1⟩ | ⟨s1, v, E', h1, _, _, _, hp, _⟩
    · rw [show (CritbitSpec.api : Api (Critbit V N M) _ _).remove s k = _ from h1] at e
      cases e
      exact h.past rfl
    · rw [show (CritbitSpec.api : Api (Critbit V N M) _ _).remove s k = _ from h1] at e
      cases e
      exact hp
  | getMut k f =>
    dsimp only at e
    unfold Api.getMutWrite at e
    cases h1 : (CritbitSpec.api : Api (Critbit V N M) _ _).getMut s k with
    | error _ => rw [h1] at e; cases e
    | ok o =>
      rw [h1] at e
      cases o with
      | none => cases e; exact h.past rfl
      | some i =>
        simp only [except_bind_ok] at e
        cases h2 : (CritbitSpec.api : Api (Critbit V N M) _ _).readVal s i with
        | error _ => rw [h2] at e; cases e
        | ok v =>
          rw [h2] at e
          simp only [except_bind_ok] at e
          cases h3 : (CritbitSpec.api : Api (Critbit V N M) _ _).write s i (f v) with
          | error _ => rw [h3] at e; cases e
          | ok s1 =>
            rw [h3] at e
            cases e
            exact h.past (replaceLeaf_nodes h3)
  | iterMut es =>
    dsimp only at e
    cases h1 : (CritbitSpec.api : Api (Critbit V N M) _ _).iterMut s es with
    | error _ => rw [h1] at e; cases e
    | ok p =>
      obtain ⟨s1, it, items⟩ := p
      rw [h1] at e
      cases e
      exact h.past (Api.iterMut_frame (fun s => s.nodeAllocator) (fun s i v s' e => replaceLeaf_nodes e) es s h1)

end Critbit

/-- A size that is a monotone function of another one has the peak that this function says. -/
theorem peak_comp {S Op Out : Type} {call : S → Op → R (S × Out)} (Inv : S → Prop) (len size : S → Nat) (f : Nat → Nat)
    (hf : ∀ a b, f (max a b) = max (f a) (f b)) (hlen : ∀ s, Inv s → size s = f (len s))
    (hstep : ∀ s op s' o, Inv s → call s op = .ok (s', o) → Inv s') :
    ∀ (ops : List Op) (s s' : S) (os : List Out), Inv s → run call s ops = .ok (s', os) →
      peak size call s ops = f (peak len call s ops) := by
  intro ops
  induction ops with
  | nil => intro s s' os h _; exact hlen s h
  | cons op ops ih =>
    intro s s' os h e
    unfold run at e
    cases h1 : call s op with
    | error _ => rw [h1] at e; cases e
    | ok p =>
      obtain ⟨s1, o⟩ := p
      rw [h1] at e
      simp only [except_bind_ok] at e
      cases h2 : run call s1 ops with
      | error _ => rw [h2] at e; cases e
      | ok q =>
        simp only [peak, h1]
        rw [ih s1 _ _ (hstep s op s1 o h h1) h2, hlen s h, hf]

end Sokoban
