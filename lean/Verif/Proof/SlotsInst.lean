import Verif.Proof.Slots
import Verif.Proof.RBLaws
import Verif.Proof.AVLLaws
import Verif.Proof.HashTableHist
import Verif.Proof.CritbitLaws
import Mathlib.Data.List.Perm.Subperm

/-
`Slots` for the red-black tree, the AVL tree and the hash table.
-/
namespace Sokoban
open MapSpec Ents NodeAllocator
variable {K V : Type}

namespace Slots
variable [DecidableEq K]

/-- what is needed of a map -/
structure SlotLaws {S : Type} (A : Api S K V) (M : Nat) (Rep : List Nat → S → Ents K V → Prop) : Prop where
  whole : ∀ {F s E}, Rep F s E → Whole F E
  walks : ∀ F, ∃ It, A.Walks M (Rep F) It
  insert : ∀ {F s E}, Rep F s E → ∀ k v, ∃ s' r F' E', A.insert s k v = .ok (s', r) ∧ Rep F' s' E' ∧
    Moves M (.put k) F E F' E'
  remove : ∀ {F s E}, Rep F s E → ∀ k, ∃ s' r F' E', A.remove s k = .ok (s', r) ∧ Rep F' s' E' ∧
    Moves M (.drop k) F E F' E'
  getMut_none : ∀ {F s E}, Rep F s E → ∀ {k}, Absent E k → A.getMut s k = .ok none
  getMut_some : ∀ {F s E}, Rep F s E → ∀ {i k v}, (i, k, v) ∈ E → A.getMut s k = .ok (some i)

theorem SlotLaws.call {S : Type} {A : Api S K V} {M : Nat} {Rep : List Nat → S → Ents K V → Prop} (H : SlotLaws A M Rep)
    (F : List Nat) (s : S) (E : Ents K V) (op : Op K V) (h : Rep F s E) :
    ∃ s' o F' E', A.call s op = .ok (s', o) ∧ Rep F' s' E' ∧ Moves M (MapSpec.act op) F E F' E' := by
  obtain ⟨It, W⟩ := H.walks F
  cases op with
  | insert k v =>
    obtain ⟨s', r, F', E', e, h', hm⟩ := H.insert h k v
    exact ⟨s', _, F', E', by simp only [Api.call, e]; rfl, h', hm⟩
  | remove k =>
    obtain ⟨s', r, F', E', e, h', hm⟩ := H.remove h k
    exact ⟨s', _, F', E', by simp only [Api.call, e]; rfl, h', hm⟩
  | getMut k f =>
    rcases Ents.cases E k with ha | ⟨L1, i, v, L2, rfl⟩
    · exact ⟨s, .got none, F, E, by simp only [Api.call, Api.getMutWrite, H.getMut_none h ha]; rfl, h, .keep (List.Perm.refl _)⟩
    · obtain ⟨s', e, h', _⟩ := W.write h (f v)
      refine ⟨s', .got (some v), F, _, ?_, h', .keep ((sl_mid ..).trans (sl_mid ..).symm)⟩
      have hv : (i, k, v) ∈ L1 ++ (i, k, v) :: L2 := by simp
      simp only [Api.call, Api.getMutWrite, H.getMut_some h hv, except_bind_ok, W.readVal h hv, e]
      rfl
  | iterMut es =>
    obtain ⟨s', it', e, h'⟩ := W.iterMut h es
    have hids := consumeMut_snd_map (fun e : Nat × K × V => (e.2.1, e.1))
      (es.map fun e => (e.1, Api.updV (MapSpec.upd e.2))) E (by
        intro e he x
        obtain ⟨e', _, rfl⟩ := List.mem_map.1 he
        rfl)
    exact ⟨s', _, F, _, by simp only [Api.call, e]; rfl, h', .keep (List.Perm.of_eq hids)⟩

omit [DecidableEq K] in
theorem zipWith_left {A B C : Type} {f : A → C} : ∀ {l : List A} {l' : List B}, l'.length = l.length →
    l.zipWith (fun a _ => f a) l' = l.map f
  | [], [], _ => rfl
  | a :: l, b :: l', h => by simp only [List.zipWith_cons_cons, List.map_cons, zipWith_left (by simpa using h)]

omit [DecidableEq K] in
theorem perm_of_sub {L L' : List (K × Nat)} (hn : L.Nodup) (hs : ∀ x ∈ L, x ∈ L') (hl : L'.length = L.length) : L'.Perm L :=
  ((List.subperm_of_subset hn hs).perm_of_length_le (by omega)).symm

end Slots

/-! ### red-black tree -/
namespace RedBlackTree
open RedBlackSpec Slots
variable {M : Nat} [LinearOrder K]

theorem Inv.whole {F : List Nat} {s : RedBlackTree K V M} {E : Ents K V} (h : Inv (kn := .exactly F) s E) : Whole F E := by
  obtain ⟨free, hok, hi⟩ := Base.known (kn := .exactly F) h.base
  obtain rfl := hok F rfl
  obtain ⟨_, _, _, hs⟩ := h
  exact whole_of hi hs.keys

theorem slots_insert (hM : M + 1 < 2 ^ 32) (hM0 : 0 < M) {F : List Nat} {s : RedBlackTree K V M} {E : Ents K V}
    (h : Inv (kn := .exactly F) s E) (k : K) (v : V) : ∃ s' r F' E', s.insert k v = .ok (s', r) ∧
      Inv (kn := .exactly F') s' E' ∧ Moves M (.put k) F E F' E' ∧
      ((r = none ∧ Absent E' k) ∨ ∃ i v, r = some i ∧ (i, k, v) ∈ E') := by
  rcases h.insert (kn := .exactly F) hM hM0 k v with ⟨h1, h2, e⟩ | ⟨h1, s', i, E', e, h', hi⟩
  · exact ⟨s, none, F, E, e, h, .full h1 h2, Or.inl ⟨rfl, h1⟩⟩
  · obtain ⟨_, rfl, hm⟩ := moves_ins (F := F) hi h1
    exact ⟨s', some i, _, E', e, h', hm, Or.inr ⟨i, v, rfl, hi.mem⟩⟩

theorem slotLaws (hM : M + 1 < 2 ^ 32) (hM0 : 0 < M) :
    SlotLaws (api : Api (RedBlackTree K V M) K V) M (fun F => Inv (kn := .exactly F)) where
  whole h := h.whole
  walks F := ⟨It, walks _⟩
  insert h k v := by
    obtain ⟨s', r, F', E', e, h', hm, _⟩ := slots_insert hM hM0 h k v
    exact ⟨s', r, F', E', e, h', hm⟩
  remove {F s E} h k := by
    rcases h.remove k with ⟨ha, e⟩ | ⟨s', v, E', i, e, h', hd, hi⟩
    · exact ⟨s, none, F, E, e, h, .none ha⟩
    · exact ⟨s', some v, _, E', e, h', moves_del hd hi h.whole.keys⟩
  getMut_none {F s E} h k ha := by
    have := (laws hM hM0).getMut_none h.forget ha
    exact this
  getMut_some {F s E} h i k v hv := (laws hM hM0).getMut_some h.forget hv

theorem slots_call (hM : M + 1 < 2 ^ 32) (hM0 : 0 < M) (F : List Nat) (s : RedBlackTree K V M) (E : Ents K V)
    (op : TOp K V) (h : Inv (kn := .exactly F) s E) :
    ∃ s' o F' E', call s op = .ok (s', o) ∧ Inv (kn := .exactly F') s' E' ∧ Moves M (act (op, o)) F E F' E' := by
  cases op with
  | map op =>
    obtain ⟨s', o, F', E', e, h', hm⟩ := (slotLaws hM hM0).call F s E op h
    exact ⟨s', .map o, F', E', by simp only [call, e]; rfl, h', hm⟩
  | removeRoot =>
    rcases h.removeRoot with ⟨rfl, e⟩ | ⟨s', k, v, E', i, e, h', hd, hi⟩
    · exact ⟨s, .root none, F, [], by simp only [call, e]; rfl, h, .keep (List.Perm.refl _)⟩
    · exact ⟨s', .root (some (k, v)), i :: F, E', by simp only [call, e]; rfl, h', moves_del hd hi h.whole.keys⟩

theorem slots_run (hM : M + 1 < 2 ^ 32) (hM0 : 0 < M) (z : RBNode K V) (ops : List (TOp K V)) :
    ∃ t outs, run call (new z : RedBlackTree K V M) ops = .ok (t, outs) ∧
      (∀ k, t.getAddr k = .ok (((after M ((ops.zip outs).map RedBlackSpec.act)).find k).getD 0)) ∧
      ∀ k v, ∃ t', t.insert k v = .ok (t', (after M ((ops.zip outs).map RedBlackSpec.act)).place M k) := by
  obtain ⟨t, outs, F, E, e, h, hl, hf⟩ := run_fits (M := M) (Rep := fun F => Inv (M := M) (K := K) (V := V) (kn := .exactly F))
    (act := fun op o => RedBlackSpec.act (op, o)) (fun h => Inv.whole h) (slots_call hM hM0) ops empty [] (new z) [] (Inv.newF z) fits_empty
  have hz : ops.zipWith (fun op o => RedBlackSpec.act (op, o)) outs = (ops.zip outs).map RedBlackSpec.act := by
    rw [List.zip, List.map_zipWith]
  rw [hz] at hf
  refine ⟨t, outs, e, fun k => find_of hf h.whole (h.getAddr k), fun k v => ?_⟩
  obtain ⟨s', r, F', E', e', h', hm, hr⟩ := slots_insert hM hM0 h k v
  exact ⟨s', e'.trans (by rw [place_of hm hf h.whole h'.whole hr]; rfl)⟩

end RedBlackTree

/-! ### AVL tree -/
namespace AVLTree
open AVLSpec Slots
variable {M : Nat} [LinearOrder K]

theorem Inv.whole {F : List Nat} {s : AVLTree K V M} {E : Ents K V} (h : Inv (kn := .exactly F) s E) : Whole F E := by
  obtain ⟨free, hok, hi⟩ := Base.known (kn := .exactly F) h.base
  obtain rfl := hok F rfl
  obtain ⟨_, _, _, hs⟩ := h
  exact whole_of hi hs.keys

theorem slots_insert (hM : M + 1 < 2 ^ 32) (hM0 : 0 < M) {F : List Nat} {s : AVLTree K V M} {E : Ents K V}
    (h : Inv (kn := .exactly F) s E) (k : K) (v : V) : ∃ s' r F' E', s.insert k v = .ok (s', r) ∧
      Inv (kn := .exactly F') s' E' ∧ Moves M (.put k) F E F' E' ∧
      ((r = none ∧ Absent E' k) ∨ ∃ i v, r = some i ∧ (i, k, v) ∈ E') := by
  rcases h.insert (kn := .exactly F) hM hM0 k v with ⟨h1, h2, e⟩ | ⟨h1, s', i, E', e, h', hi⟩
  · exact ⟨s, none, F, E, e, h, .full h1 h2, Or.inl ⟨rfl, h1⟩⟩
  · obtain ⟨_, rfl, hm⟩ := moves_ins (F := F) hi h1
    exact ⟨s', some i, _, E', e, h', hm, Or.inr ⟨i, v, rfl, hi.mem⟩⟩

theorem slotLaws (hM : M + 1 < 2 ^ 32) (hM0 : 0 < M) :
    SlotLaws (api : Api (AVLTree K V M) K V) M (fun F => Inv (kn := .exactly F)) where
  whole h := h.whole
  walks F := ⟨It, walks _⟩
  insert h k v := by
    obtain ⟨s', r, F', E', e, h', hm, _⟩ := slots_insert hM hM0 h k v
    exact ⟨s', r, F', E', e, h', hm⟩
  remove {F s E} h k := by
    rcases h.remove hM k with ⟨ha, e⟩ | ⟨s', v, E', i, e, h', hd, hi⟩
    · exact ⟨s, none, F, E, e, h, .none ha⟩
    · exact ⟨s', some v, _, E', e, h', moves_del hd hi h.whole.keys⟩
  getMut_none {F s E} h k ha := by
    have := (laws hM hM0).getMut_none h.forget ha
    exact this
  getMut_some {F s E} h i k v hv := (laws hM hM0).getMut_some h.forget hv

theorem slots_run (hM : M + 1 < 2 ^ 32) (hM0 : 0 < M) (z : AVLNode K V) (ops : List (Op K V)) :
    ∃ t outs, run call (new z : AVLTree K V M) ops = .ok (t, outs) ∧
      (∀ k, t.getAddr k = .ok (((after M (ops.map MapSpec.act)).find k).getD 0)) ∧
      ∀ k v, ∃ t', t.insert k v = .ok (t', (after M (ops.map MapSpec.act)).place M k) := by
  obtain ⟨t, outs, F, E, e, h, hl, hf⟩ := run_fits (M := M) (Rep := fun F => Inv (M := M) (K := K) (V := V) (kn := .exactly F))
    (act := fun op _ => MapSpec.act op) (fun h => Inv.whole h) (slotLaws hM hM0).call ops empty [] (new z) [] (Inv.newF z) fits_empty
  rw [zipWith_left hl] at hf
  refine ⟨t, outs, e, fun k => find_of hf h.whole (h.getAddr k), fun k v => ?_⟩
  obtain ⟨s', r, F', E', e', h', hm, hr⟩ := slots_insert hM hM0 h k v
  exact ⟨s', e'.trans (by rw [place_of hm hf h.whole h'.whole hr]; rfl)⟩

end AVLTree

/-! ### hash table -/
namespace HashTable
open HashTableSpec Slots
variable {B M : Nat} [DecidableEq K] {hash : K → Nat}

/-- representation with the free list -/
def RepF (hash : K → Nat) (F : List Nat) (h : HashTable K V B M) (E : Ents K V) : Prop :=
  ∃ c, HRep (kn := .exactly F) hash h c ∧ E = all B c

omit [DecidableEq K] in
theorem RepF.whole {F : List Nat} {h : HashTable K V B M} {E : Ents K V} (H : RepF hash F h E) : Whole F E := by
  obtain ⟨c, H, rfl⟩ := H
  obtain ⟨free, hok, hi⟩ := HHeld.known (kn := .exactly F) (HRep.toHHeld (kn := .exactly F) H)
  obtain rfl := hok F rfl
  have := H.keys_nodup
  rw [kvs, List.map_map] at this
  exact whole_of hi this

theorem slots_insert (hM : M + 1 < 2 ^ 32) {F : List Nat} {h : HashTable K V B M} {E : Ents K V} (H : RepF hash F h E)
    (k : K) (v : V) : ∃ h' r F' E', h.insert hash k v = .ok (h', r) ∧ RepF hash F' h' E' ∧ Moves M (.put k) F E F' E' ∧
      ((r = none ∧ Absent E' k) ∨ ∃ i v, r = some i ∧ (i, k, v) ∈ E') := by
  have w := H.whole
  obtain ⟨c, H, rfl⟩ := H
  have hm := FMap.lists_ofList (L := kvs (all B c)) H.keys_nodup
  rcases insert_spec H hM hm k v with ⟨hg, hl, e⟩ | ⟨h', i, c', hg, e, H', hm', hi, hk⟩
  · have ha := (absent_iff hm).2 hg
    have hl' := hm.len
    have hl : (FMap.ofList (kvs (all B c))).len = M := hl
    rw [hl, kvs, List.length_map] at hl'
    exact ⟨h, none, F, _, e, ⟨c, H, rfl⟩, .full ha hl'.symm, Or.inl ⟨rfl, ha⟩⟩
  · refine ⟨h', some i, _, _, e, ⟨c', H', rfl⟩, ?_, Or.inr ⟨i, v, rfl, hi⟩⟩
    have w' : Whole _ (all B c') := RepF.whole ⟨c', H', rfl⟩
    have hl : (FMap.ofList (kvs (all B c))).len = (all B c).length := by rw [hm.len]; simp [kvs]
    have hl' : ((FMap.ofList (kvs (all B c))).insert k v).len = (all B c').length := by rw [hm'.len]; simp [kvs]
    have hsub : ∀ x ∈ sl (all B c), x ∈ sl (all B c') := by
      rintro ⟨k', j⟩ hx
      obtain ⟨v0, hv⟩ := mem_sl.1 hx
      obtain ⟨v', hv'⟩ := hk j k' v0 hv (by rintro k'' hc; cases hc)
      exact mem_sl.2 ⟨v', hv'⟩
    by_cases ha : Absent (all B c) k
    · have hg' := (absent_iff hm).1 ha
      have hp : (sl (all B c')).Perm ((k, i) :: sl (all B c)) := by
        refine perm_of_sub (List.nodup_cons.2 ⟨?_, w.sl_nodup⟩) ?_ ?_
        · intro hc
          obtain ⟨v0, hv⟩ := mem_sl.1 hc
          exact ha _ hv rfl
        · intro x hx
          rcases List.mem_cons.1 hx with rfl | hx
          · exact mem_sl.2 ⟨v, hi⟩
          · exact hsub x hx
        · simp only [FMap.insert, hg', Option.isSome_none, Bool.false_eq_true, if_false] at hl'
          simp only [sl, List.length_map, List.length_cons]
          omega
      have hni : i ∉ ids (all B c) := by
        have hn := w'.slots_nodup
        rw [← sl_slots, (hp.map _).nodup_iff, List.map_cons, sl_slots, List.nodup_cons] at hn
        exact hn.1
      simp only [if_neg hni]
      exact .new ha (fun hc => hg ⟨hg', show (FMap.ofList (kvs (all B c))).len = M by omega⟩) hp
    · have hg' : (FMap.ofList (kvs (all B c))).get k ≠ none := fun hc => ha ((absent_iff hm).2 hc)
      have hp : (sl (all B c')).Perm (sl (all B c)) := by
        refine perm_of_sub w.sl_nodup hsub ?_
        simp only [FMap.insert, Option.isSome_iff_ne_none.2 hg', if_true] at hl'
        simp only [sl, List.length_map]
        omega
      have hii : i ∈ ids (all B c) := by
        obtain ⟨v0, hv⟩ := mem_sl.1 (hp.mem_iff.1 (mem_sl.2 ⟨v, hi⟩))
        exact List.mem_map_of_mem (f := Prod.fst) hv
      simp only [if_pos hii]
      exact .old ha hp

theorem slots_call (hM : M + 1 < 2 ^ 32) (F : List Nat) (h : HashTable K V B M) (E : Ents K V)
    (op : Op K V) (H : RepF hash F h E) :
    ∃ h' o F' E', call hash h op = .ok (h', o) ∧ RepF hash F' h' E' ∧ Moves M (MapSpec.act op) F E F' E' := by
  have w := H.whole
  cases op with
  | insert k v =>
    obtain ⟨h', r, F', E', e, H', hm, _⟩ := slots_insert hM H k v
    exact ⟨h', _, F', E', by simp only [call, e]; rfl, H', hm⟩
  | remove k =>
    obtain ⟨c, H, rfl⟩ := H
    have hm := FMap.lists_ofList (L := kvs (all B c)) H.keys_nodup
    obtain ⟨h', c', o, e, H', hm', hk, ⟨rfl, ha, hall⟩ | ⟨i, v, rfl, hi, hp⟩⟩ := remove_spec H hm k
    · refine ⟨h', _, F, _, by simp only [call, e]; rfl, ⟨c', H', rfl⟩, ?_⟩
      rw [hall]; exact .none ha
    · exact ⟨h', _, i :: F, _, by simp only [call, e]; rfl, ⟨c', H', rfl⟩, .gone (hp.map _)⟩
  | getMut k f =>
    obtain ⟨c, H, rfl⟩ := H
    have hm := FMap.lists_ofList (L := kvs (all B c)) H.keys_nodup
    obtain ⟨h', c', e, H', hm', hk⟩ := getMutWrite_spec H hm k f
    refine ⟨h', _, F, _, by simp only [call, e]; rfl, ⟨c', H', rfl⟩, .keep (perm_of_sub w.sl_nodup ?_ ?_)⟩
    · rintro ⟨k', j⟩ hx
      obtain ⟨v0, hv⟩ := mem_sl.1 hx
      obtain ⟨v', hv'⟩ := hk j k' v0 hv
      exact mem_sl.2 ⟨v', hv'⟩
    · have hl := hm.len
      have hl' := hm'.len
      simp only [FMap.modify, kvs, List.length_map] at hl hl'
      simp only [sl, List.length_map]
      omega
  | iterMut es =>
    obtain ⟨c, H, rfl⟩ := H
    obtain ⟨h', c', it', e, H', hall⟩ := iterMut_spec H es
    have hids := consumeMutFwd_snd_map (fun e : Ent K V => (e.2.1, e.1))
      (es.map fun e => (e.1, updE (MapSpec.upd e.2))) (all B c) (by
        intro e he x
        obtain ⟨e', _, rfl⟩ := List.mem_map.1 he
        rfl)
    rw [← hall] at hids
    exact ⟨h', _, F, _, by simp only [call, e]; rfl, ⟨c', H', rfl⟩, .keep (List.Perm.of_eq hids)⟩

theorem slots_addr {F : List Nat} {h : HashTable K V B M} {E : Ents K V} (H : RepF hash F h E) (k : K) :
    (Absent E k ∧ h.getAddr hash k = .ok 0) ∨ ∃ i v, (i, k, v) ∈ E ∧ h.getAddr hash k = .ok i := by
  obtain ⟨c, H, rfl⟩ := H
  have hm := FMap.lists_ofList (L := kvs (all B c)) H.keys_nodup
  rcases lookup_spec H hm k with ⟨hg, e, _⟩ | ⟨i, v, _, hi, e, _⟩
  · exact Or.inl ⟨(absent_iff hm).2 hg, e⟩
  · exact Or.inr ⟨i, v, hi, e⟩

theorem slots_run (hB : 0 < B) (hM : M + 1 < 2 ^ 32) (hash : K → Nat) (z : HashNode K V) (ops : List (Op K V)) :
    ∃ t outs, run (call hash) (new z : HashTable K V B M) ops = .ok (t, outs) ∧
      (∀ k, t.getAddr hash k = .ok (((after M (ops.map MapSpec.act)).find k).getD 0)) ∧
      ∀ k v, ∃ t', t.insert hash k v = .ok (t', (after M (ops.map MapSpec.act)).place M k) := by
  obtain ⟨t, outs, F, E, e, h, hl, hf⟩ := run_fits (M := M) (Rep := RepF (B := B) (M := M) (V := V) hash)
    (act := fun op _ => MapSpec.act op) (fun h => RepF.whole h) (slots_call hM) ops empty [] (new z) []
    ⟨_, new_HRepF hB hash z, by simp⟩ fits_empty
  rw [zipWith_left hl] at hf
  refine ⟨t, outs, e, fun k => find_of hf h.whole (slots_addr h k), fun k v => ?_⟩
  obtain ⟨s', r, F', E', e', h', hm, hr⟩ := slots_insert hM h k v
  exact ⟨s', e'.trans (by rw [place_of hm hf h.whole h'.whole hr]; rfl)⟩

end HashTable

/-! ### Critbit: the slots of the values -/
namespace Critbit
open CritbitSpec Slots
variable {N M : Nat} {F : List Nat} {s : Critbit V N M} {E : Ents (BitVec 128) V}

/-- representation with the free list of the leaves -/
def RepF (F : List Nat) (s : Critbit V N M) (E : Ents (BitVec 128) V) : Prop := Inv s E ∧ AInv s.leaves F (E.map Prod.fst)

theorem RepF.whole (h : RepF F s E) : Whole F E := whole_of h.2 (lawsRest.keys h.1)

theorem slotLaws (hN : N + 1 < 2 ^ 32) (hNM : 2 * M ≤ N) (hM0 : 0 < M) :
    SlotLaws (api : Api (Critbit V N M) (BitVec 128) V) M RepF where
  whole h := h.whole
  walks F := by
    have L := laws (V := V) hN hNM hM0
    exact ⟨It, {
      slots := fun h => L.slots h.1
      range := fun h => L.range h.1
      le := fun h => L.le h.1
      len := fun h => L.len h.1
      empty := L.empty
      contains := L.contains
      index := L.index
      readVal := fun h => L.readVal h.1
      read := fun h => L.read h.1
      write := fun {s L1 i k v L2} h w => by
        obtain ⟨s', e, h', hi⟩ := L.write h.1 w
        refine ⟨s', e, ⟨h', ?_⟩, hi⟩
        have e : s.replaceLeaf i w = .ok s' := e
        have hr := h.2.live_range (i := i) (by simp)
        unfold replaceLeaf at e
        rw [s.leaves.setValue_ok w hr.1 hr.2] at e
        cases e
        simpa using h.2.setVal i w
      it := fun h => L.it h.1
      nextMut := fun h => L.nextMut h.1
      nextBackMut := fun h => L.nextBackMut h.1
      next := L.next
      nextBack := L.nextBack }⟩
  insert {F s E} h k v := by
    rcases h.1.insert hN hNM hM0 k v with ⟨h1, e⟩ | ⟨h1, s', n, j, t', e, h', _, hi, _, _, hl⟩
    · refine ⟨s, none, F, E, e, h, ?_⟩
      by_cases ha : Absent E k
      · exact .full ha h1
      · exact .old ha (List.Perm.refl _)
    · obtain ⟨_, rfl, hm⟩ := moves_ins (M := M) (F := F) hi (fun hc => h1 hc.2)
      exact ⟨s', some n, _, _, e, ⟨Or.inr ⟨t', h', rfl⟩, hl F h.2⟩, hm⟩
  remove {F s E} h k := by
    rcases h.1.remove k with ⟨ha, e⟩ | ⟨s', v, E', e, h', hd, _, _, i, hi, hl⟩
    · exact ⟨s, none, F, E, e, h, .none ha⟩
    · exact ⟨s', some v, _, E', e, ⟨h', hl F h.2⟩, moves_del hd hi h.whole.keys⟩
  getMut_none h _ ha := h.1.getMut_none ha
  getMut_some h _ _ _ hv := h.1.getMut_some hv

/-- where `get_mut` points -/
theorem slots_getMut {σ : Slots (BitVec 128)} (h : RepF F s E) (hf : Fits σ F E) (k : BitVec 128) :
    s.getMut k = .ok (σ.find k) := by
  by_cases ha : Absent E k
  · rw [hf.find_none ha]
    exact h.1.getMut_none ha
  · unfold Absent at ha
    push Not at ha
    obtain ⟨⟨i, k', v⟩, hx, hk⟩ := ha
    dsimp only at hk
    subst hk
    rw [hf.find_some h.whole.keys hx]
    exact h.1.getMut_some hx

theorem slots_run (hN : N + 1 < 2 ^ 32) (hNM : 2 * M ≤ N) (hM0 : 0 < M) (z : CritbitNode) (w : V)
    (ops : List (Op (BitVec 128) V)) :
    ∃ t outs, run call (new z w : Critbit V N M) ops = .ok (t, outs) ∧
      (∀ k, t.getMut k = .ok ((after M (ops.map MapSpec.act)).find k)) ∧
      ∀ k v, ∃ t' r, t.insert k v = .ok (t', r) ∧ t'.getMut k = .ok ((after M (ops.map MapSpec.act)).place M k) := by
  have L := slotLaws (V := V) hN hNM hM0
  obtain ⟨t, outs, F, E, e, h, hl, hf⟩ := run_fits (M := M) (Rep := RepF (N := N) (M := M) (V := V))
    (act := fun op _ => MapSpec.act op) (fun h => RepF.whole h) L.call ops empty [] (new z w) []
    ⟨Inv.new z w, new_AInv _⟩ fits_empty
  rw [zipWith_left hl] at hf
  refine ⟨t, outs, e, slots_getMut h hf, fun k v => ?_⟩
  obtain ⟨s', r, F', E', e', h', hm⟩ := L.insert h k v
  exact ⟨s', r, e', by rw [slots_getMut h' (hm.step hf h.whole h'.whole), place_eq]; rfl⟩

end Critbit
end Sokoban
