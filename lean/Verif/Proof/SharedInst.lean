import Verif.Proof.Shared
import Verif.Model.Shared
import Verif.Proof.RBLaws
import Verif.Proof.AVLLaws
import Verif.Proof.HashTableHist

/-
The theory of several maps in one memory applies to the red-black tree, the AVL tree and the hash table.
-/
namespace Sokoban
open NodeAllocator MapSpec Shared

theorem Known.quiet_eq {kn : Known} (h : kn.list = none) : kn.quiet = kn := by
  obtain ⟨l, L, r, v⟩ := kn
  cases h; rfl

theorem Base.valsK {kn : Known} {K V T : Type} {M : Nat} {f : K → V → T} {S : Nat → Prop} {a : NodeAllocator T M 4}
    {E : List (Nat × K × V)} (h : Base (kn := kn) f S a E) : ∀ e ∈ E, a.val? e.1 = some (f e.2.1 e.2.2) := h.vals

theorem Base.shift {kn kn' : Known} {K V T : Type} {M : Nat} {f : K → V → T} {S : Nat → Prop} {a a' : NodeAllocator T M 4}
    {E : List (Nat × K × V)} (h : Base (kn := kn) f S a E) (hk : kn'.list = none)
    (hv : ∀ i ∈ E.map Prod.fst, a'.val? i = a.val? i)
    (hi : ∃ free, AInv a' free (kn'.lost ++ E.map Prod.fst)) (hc : Clean a' S (kn'.lost ++ E.map Prod.fst))
    (hx : kn'.Intact a') : Base (kn := kn') f S a' E :=
  @Base.mk kn' _ _ _ _ _ _ _ _ (let ⟨free, hf⟩ := hi; ⟨free, fun F hF => (by rw [hk] at hF; cases hF), hf⟩) hc
    (fun e he => (hv e.1 (List.mem_map_of_mem he)).trans (Base.valsK h e he)) hx

namespace Api
open Ents
variable {S K V : Type} [LinearOrder K]

/-- one call, from the laws of the softened structure -/
theorem soft_one {A : Api S K V} {M n : Nat} {Rep : S → Ents K V → Prop} {It : S → A.Iter → List A.Ref → Prop}
    (H : (A.less n).soft.Laws M (fun E k => Absent E k ∧ E.length + n = M) Rep It)
    (hle : ∀ {s E}, Rep s E → E.length + n ≤ M)
    (hf : ∀ {s E k v}, Rep s E → A.insert s k v = .error .bufferFull → E = [] ∧ n = M)
    {s : S} {E : Ents K V} (h : Rep s E) {m : FMap K V} (hm : m.Lists (E.map Prod.snd)) (op : Op K V) :
    (∃ s' o E' m', A.call s op = .ok (s', o) ∧ Rep s' E' ∧ m'.Lists (E'.map Prod.snd) ∧
        Step (treeRules K V (M - n)) m op o m') ∨
      (∃ k v, op = .insert k v ∧ E = [] ∧ n = M ∧ A.call s op = .error .bufferFull) := by
  rcases soft_call (A.less n) s op with e | ⟨k, v, rfl, e⟩
  · left
    have hn := hle h
    have : n ≤ M := by omega
    obtain ⟨s', o, E', m', e', h', hm', hst, _⟩ := H.call_spec (Rl := treeRules K V (M - n))
      (by
        intro E m k hm
        rw [absent_iff hm]
        simp only [treeRules, hm.len, List.length_map]
        constructor
        · rintro ⟨h1, h2⟩; exact ⟨h1, by omega⟩
        · rintro ⟨h1, h2⟩; exact ⟨h1, by omega⟩)
      (fun _ h => h) rfl s E m op h hm
    exact ⟨s', o, E', m', (show (A.less n).call s op = _ from e.trans e'), h', hm', hst⟩
  · right
    have e : A.insert s k v = .error .bufferFull := e
    obtain ⟨h1, h2⟩ := hf h e
    exact ⟨k, v, rfl, h1, h2, by simp only [call, e]; rfl⟩

theorem soft_shows {A : Api S K V} {M n : Nat} {Rep : S → Ents K V → Prop} {It : S → A.Iter → List A.Ref → Prop}
    {refuses : Ents K V → K → Prop} (H : (A.less n).soft.Laws M refuses Rep It)
    {s : S} {E : Ents K V} (h : Rep s E) {m : FMap K V} (hm : m.Lists (E.map Prod.snd)) : Shows A s m := by
  obtain ⟨h1, h2, h3, _⟩ := H.observe h hm
  exact ⟨h1, h2, h3, E.map Prod.snd, hm, by rw [List.pairwise_map]; exact H.sorted h, H.drive h⟩

end Api

namespace RedBlackTree
variable {K V : Type} {M : Nat} [LinearOrder K]
open RedBlackSpec (api)

theorem Inv.parts {kn : Known} {s : RedBlackTree K V M} {E : Ents K V} (h : Inv (kn := kn) s E) :
    ∃ t : BT K V, RBShape s.rg 0 t ∧ s.root = t.root ∧ t.ents = E ∧ Good [] t ∧ Ents.Sorted E ∧ t.ids = E.map Prod.fst := by
  obtain ⟨t, hz, hg, hs⟩ := h
  have hE := hz.ents
  simp only [Ctx.lft, Ctx.rgt, List.nil_append, List.append_nil] at hE
  exact ⟨t, hz.shape, hz.cshape, hE, hg, hs, by rw [← hE]; rfl⟩

theorem shared (hM : M + 1 < 2 ^ 32) : Theory (K := K) (V := V) M 4 RedBlackTree.allocator RedBlackTree.root setRoot
    (api : Api (RedBlackTree K V M) K V).call (treeRules K V) (fun kn => Inv (kn := kn)) (fun r => r < 4) (fun _ => True) where
  al_assign _ _ := rfl
  field_assign _ _ := rfl
  assign_assign _ _ _ := rfl
  assign_field _ := rfl
  base h := ⟨h.base.inv, h.base.clean, h.base.kept⟩
  tag _ _ _ := trivial
  shift {kn s E} h {kn' s'} hk hr hreg hv hi hc hx := by
    have hb := Base.shift (Inv.base h) hk hv hi hc hx
    obtain ⟨t, hsh, hroot, hE, hg, hs, hids⟩ := Inv.parts h
    exact ⟨t, @Z.mk _ _ _ kn' _ _ _ _ _ (hsh.frame0 fun i hi r => hreg i (hids ▸ hi) r) (hr.trans hroot)
      (by simp only [Ctx.lft, Ctx.rgt, List.nil_append, List.append_nil]; exact hE) (by simpa using hb), hg, hs⟩
  one {kn s E} hk _ h {m} hm op := by
    have hq := Known.quiet_eq hk
    have H := lawsS (K := K) (V := V) kn hM
    rw [hq] at H
    refine Api.soft_one (A := api) H (fun h => h.base.leL) (fun {s E k v} h e => ?_) h hm op
    have hle := h.base.leL
    rcases Nat.lt_or_ge kn.lost.length M with hM0 | hM0
    · exfalso
      have e : s.insert k v = _ := e
      rcases h.insert hM hM0 k v with ⟨_, _, e'⟩ | ⟨_, _, _, _, e', _⟩ <;> rw [e'] at e <;> cases e
    · exact ⟨List.length_eq_zero_iff.1 (by omega), by omega⟩

theorem Inv.shows {kn : Known} (hM : M + 1 < 2 ^ 32) {s : RedBlackTree K V M} {E : Ents K V} (h : Inv (kn := kn) s E) {m : FMap K V}
    (hm : m.Lists (E.map Prod.snd)) : Shows api s m :=
  Api.soft_shows (lawsS kn hM) h.forget hm

theorem shared_new (hM : M + 1 < 2 ^ 32) (z : RBNode K V) :
    Inv (kn := snap (new z : RedBlackTree K V M).allocator []) (new z : RedBlackTree K V M) [] :=
  (shared hM).shift (kn := .nothing) (Inv.new z) rfl rfl (fun _ _ _ => rfl) (fun _ _ => rfl)
    ((shared hM).base (kn := .nothing) (Inv.new z)).1 ((shared hM).base (kn := .nothing) (Inv.new z)).2.1 (snap_intact _ _)

end RedBlackTree

namespace AVLTree
variable {K V : Type} {M : Nat} [LinearOrder K]
open AVLSpec (api)

theorem Inv.parts {kn : Known} {s : AVLTree K V M} {E : Ents K V} (h : Inv (kn := kn) s E) :
    ∃ t : BT K V, AShape s.rg t ∧ s.root = t.root ∧ t.ents = E ∧ AVL t ∧ Ents.Sorted E ∧ t.ids = E.map Prod.fst := by
  obtain ⟨t, hz, hg, hs⟩ := h
  have hE := hz.ents
  simp only [Ctx.lft, Ctx.rgt, List.nil_append, List.append_nil] at hE
  exact ⟨t, hz.shape, hz.cshape, hE, hg, hs, by rw [← hE]; rfl⟩

theorem shared (hM : M + 1 < 2 ^ 32) : Theory (K := K) (V := V) M 4 AVLTree.allocator AVLTree.root setRoot
    (api : Api (AVLTree K V M) K V).call (treeRules K V) (fun kn => Inv (kn := kn)) (fun r => r < 3) (fun g => g 2 ≤ 64) where
  al_assign _ _ := rfl
  field_assign _ _ := rfl
  assign_assign _ _ _ := rfl
  assign_field _ := rfl
  base h := ⟨h.base.inv, h.base.clean, h.base.kept⟩
  tag {kn s E} h i hi := by
    obtain ⟨t, hz, ha, hs⟩ := h
    have hh := ha.height_lt (by have := hz.len_le; omega)
    have hE := hz.ents
    simp only [Ctx.lft, Ctx.rgt, List.nil_append, List.append_nil] at hE
    rw [← hE] at hi
    have := ha.tags hz.shape i hi
    simp only [rg] at this
    omega
  shift {kn s E} h {kn' s'} hk hr hreg hv hi hc hx := by
    have hb := Base.shift (Inv.base h) hk hv hi hc hx
    obtain ⟨t, hsh, hroot, hE, hg, hs, hids⟩ := Inv.parts h
    exact ⟨t, @Z.mk _ _ _ kn' _ _ _ _ _ _ (hsh.frame fun i hi r => hreg i (hids ▸ hi) r) (hr.trans hroot)
      (by simp only [Ctx.lft, Ctx.rgt, List.nil_append, List.append_nil]; exact hE) (by simpa using hb), hg, hs⟩
  one {kn s E} hk hl h {m} hm op := by
    have hq := Known.quiet_eq hk
    have _low : kn.Low := ⟨hl⟩
    have H := lawsS (K := K) (V := V) kn hM
    rw [hq] at H
    refine Api.soft_one (A := api) H (fun h => h.base.leL) (fun {s E k v} h e => ?_) h hm op
    have hle := h.base.leL
    rcases Nat.lt_or_ge kn.lost.length M with hM0 | hM0
    · exfalso
      have e : s.insert k v = _ := e
      rcases h.insert hM hM0 k v with ⟨_, _, e'⟩ | ⟨_, _, _, _, e', _⟩ <;> rw [e'] at e <;> cases e
    · exact ⟨List.length_eq_zero_iff.1 (by omega), by omega⟩

theorem Inv.shows {kn : Known} [kn.Low] (hM : M + 1 < 2 ^ 32) {s : AVLTree K V M} {E : Ents K V} (h : Inv (kn := kn) s E) {m : FMap K V}
    (hm : m.Lists (E.map Prod.snd)) : Shows api s m :=
  Api.soft_shows (lawsS kn hM) h.forget hm

theorem shared_new (hM : M + 1 < 2 ^ 32) (z : AVLNode K V) :
    Inv (kn := snap (new z : AVLTree K V M).allocator []) (new z : AVLTree K V M) [] :=
  (shared hM).shift (kn := .nothing) (Inv.new z) rfl rfl (fun _ _ _ => rfl) (fun _ _ => rfl)
    ((shared hM).base (kn := .nothing) (Inv.new z)).1 ((shared hM).base (kn := .nothing) (Inv.new z)).2.1 (snap_intact _ _)

end AVLTree

namespace HashTable
variable {K V : Type} {B M : Nat} [DecidableEq K] {hash : K → Nat}

omit [DecidableEq K] in
theorem Rep.parts {kn : Known} {h : HashTable K V B M} {E : Ents K V} (hR : Rep (kn := kn) hash h E) :
    ∃ c, 0 < B ∧ (∀ b, b < B → DSeg h.allocator.reg 0 (ids (c b)) 0) ∧
      (∀ b, (hb : b < B) → h.buckets[b] = (ids (c b)).headD 0) ∧
      (∀ b, b < B → ∀ e ∈ c b, h.allocator.val? e.1 = some ⟨e.2.1, e.2.2⟩) ∧
      (∀ b, b < B → ∀ e ∈ c b, hash e.2.1 % B = b) ∧ (∀ b, b < B → (keys (c b)).Nodup) ∧ E = all B c := by
  obtain ⟨c, H, rfl⟩ := hR
  exact ⟨c, H.pos, H.seg, H.head, H.vals, H.home trivial, H.keys, rfl⟩

theorem shared (hM : M + 1 < 2 ^ 32) : Theory (K := K) (V := V) M 4 HashTable.allocator HashTable.buckets setBuckets
    (HashTableSpec.call hash : HashTable K V B M → MapSpec.Op K V → _) (hashRules K V) (fun kn => Rep (kn := kn) hash) (fun r => r < 2) (fun _ => True) where
  al_assign _ _ := rfl
  field_assign _ _ := rfl
  assign_assign _ _ _ := rfl
  assign_field _ := rfl
  base := by rintro kn s E ⟨c, H, rfl⟩; exact ⟨H.inv, H.clean, H.kept⟩
  tag _ _ _ := trivial
  shift := by
    rintro kn s E hR kn' s' hk hr hreg hv ⟨free, hf⟩ hc hx
    obtain ⟨c, hpos, hseg, hhead, hvals, hhome, hkeys, rfl⟩ := Rep.parts hR
    refine ⟨c, @HRep.mk _ _ _ _ kn' _ _ _ (@HHeld.mk _ _ _ _ kn' _ _ _ _ hpos
      ⟨free, fun F hF => (by rw [hk] at hF; cases hF), hf⟩ hc ?_ ?_ ?_ (fun _ => hhome) hx) hkeys, rfl⟩
    · intro b hb
      refine (hseg b hb).frame fun i hi => ?_
      obtain ⟨e, he, rfl⟩ := List.mem_map.1 hi
      have := hreg e.1 (List.mem_map_of_mem (mem_all.2 ⟨b, hb, he⟩))
      exact ⟨this _, this _⟩
    · intro b hb
      rw [← hhead b hb]; simp only [hr]
    · intro b hb e he
      rw [hv e.1 (List.mem_map_of_mem (mem_all.2 ⟨b, hb, he⟩))]; exact hvals b hb e he
  one {kn s E} hk _ h {m} hm op := by
    have hq := Known.quiet_eq hk
    have H := call_specL (hash := hash) kn hM s E m op
    rw [hq] at H
    obtain ⟨s', o, E', m', e, h', hm', hst, _⟩ := H h hm
    exact Or.inl ⟨s', o, E', m', e, h', hm', hst⟩

theorem Rep.shows {kn : Known} {h : HashTable K V B M} {E : Ents K V} (hR : Rep (kn := kn) hash h E) {m : FMap K V}
    (hm : m.Lists (E.map Prod.snd)) : HashShows hash h m := by
  obtain ⟨c, H, rfl⟩ := hR
  obtain ⟨it, _, ei, _⟩ := drive_iter H.toHHeld []
  refine ⟨fun k => ?_, fun k => ?_, kvs (all B c), it, ei, hm, fun es => ?_⟩
  · rcases lookup_spec H hm k with ⟨hg, _, e1, e2⟩ | ⟨i, v, hg, _, _, _, _, _, e1, e2⟩ <;> rw [e1, hg]
  · rcases lookup_spec H hm k with ⟨hg, _, e1, e2⟩ | ⟨i, v, hg, _, _, _, _, _, e1, e2⟩ <;> rw [e2, hg] <;> rfl
  · obtain ⟨it1, it', e1, e2⟩ := drive_iter H.toHHeld es
    rw [ei] at e1; cases e1
    exact ⟨it', e2⟩

theorem shared_new (hB : 0 < B) (hM : M + 1 < 2 ^ 32) (z : HashNode K V) :
    Rep (kn := snap (new z : HashTable K V B M).allocator []) hash (new z : HashTable K V B M) [] :=
  have h0 : Rep (kn := .nothing) hash (new z : HashTable K V B M) [] := ⟨_, new_HRep hB hash z, by simp⟩
  (shared hM).shift h0 rfl rfl (fun _ _ _ => rfl) (fun _ _ => rfl) ((shared hM).base h0).1 ((shared hM).base h0).2.1 (snap_intact _ _)

end HashTable
end Sokoban
