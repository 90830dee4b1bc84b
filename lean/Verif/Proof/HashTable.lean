import Verif.Spec.HashTable
import Verif.Proof.Dll
import Verif.Proof.Map
import Verif.Proof.Intact
import Verif.Model.Caprice

namespace Sokoban.HashTable
open NodeAllocator
variable {K V : Type} {B M : Nat}

/-- an entry: node index, key, value -/
abbrev Ent (K V : Type) := Nat × K × V

/-- indices of entries -/
abbrev ids (l : List (Ent K V)) : List Nat := l.map Prod.fst

/-- key-value pairs of entries -/
abbrev kvs (l : List (Ent K V)) : List (K × V) := l.map Prod.snd

/-- keys of entries -/
abbrev keys (l : List (Ent K V)) : List K := l.map (fun e => e.2.1)

/-- all entries, bucket by bucket -/
abbrev all (B : Nat) (c : Nat → List (Ent K V)) : List (Ent K V) := (List.range B).flatMap c

/-- replace the contents of a bucket -/
def updB (c : Nat → List (Ent K V)) (b : Nat) (l : List (Ent K V)) : Nat → List (Ent K V) :=
  fun x => if x = b then l else c x

theorem flatMap_congr' {α β : Type} {l : List α} {f g : α → List β} (h : ∀ x ∈ l, f x = g x) :
    l.flatMap f = l.flatMap g := by
  induction l with
  | nil => rfl
  | cons x l ih => simp [h x (by simp), ih (fun y hy => h y (by simp [hy]))]

theorem all_split (c : Nat → List (Ent K V)) {b : Nat} (hb : b < B) :
    ∃ A C, all B c = A ++ c b ++ C ∧ ∀ l, all B (updB c b l) = A ++ l ++ C := by
  have hr : List.range B = List.range b ++ b :: (List.range' (b + 1) (B - b - 1)) := by
    have : B = b + ((B - b - 1) + 1) := by omega
    conv => lhs; rw [this]
    rw [List.range_eq_range', List.range_eq_range', ← List.range'_append_1, List.range'_succ]
    simp
  refine ⟨(List.range b).flatMap c, (List.range' (b + 1) (B - b - 1)).flatMap c, ?_, fun l => ?_⟩
  · unfold all; rw [hr]; simp
  · unfold all; rw [hr]
    simp only [List.flatMap_append, List.flatMap_cons, ← List.append_assoc]
    have h1 : (List.range b).flatMap (updB c b l) = (List.range b).flatMap c := by
      apply flatMap_congr'
      intro x hx
      simp at hx
      simp [updB]; omega
    have h2 : (List.range' (b + 1) (B - b - 1)).flatMap (updB c b l) =
        (List.range' (b + 1) (B - b - 1)).flatMap c := by
      apply flatMap_congr'
      intro x hx
      simp [List.mem_range'_1] at hx
      simp [updB]; omega
    rw [h1, h2]; simp [updB]

/-- Representation: bucket `b` holds the chain `c b`. Nothing is said about equality of keys. With `st` every entry is
in the bucket of its hash. -/
structure HHeld [kn : Known] (st : Prop) (hash : K → Nat) (h : HashTable K V B M) (c : Nat → List (Ent K V)) : Prop where
  pos : 0 < B
  known : ∃ free, kn.Ok free ∧ AInv h.allocator free (kn.lost ++ ids (all B c))
  clean : Clean h.allocator (fun r => r < 2) (kn.lost ++ ids (all B c))
  seg : ∀ b, b < B → DSeg h.allocator.reg 0 (ids (c b)) 0
  head : ∀ b, (hb : b < B) → h.buckets[b] = (ids (c b)).headD 0
  vals : ∀ b, b < B → ∀ e ∈ c b, h.allocator.val? e.1 = some ⟨e.2.1, e.2.2⟩
  home : st → ∀ b, b < B → ∀ e ∈ c b, hash e.2.1 % B = b
  kept : kn.Intact h.allocator

/-- Representation with distinct keys. -/
structure HRep [kn : Known] (hash : K → Nat) (h : HashTable K V B M) (c : Nat → List (Ent K V)) : Prop extends HHeld True hash h c where
  keys : ∀ b, b < B → (keys (c b)).Nodup

variable {kn : Known} {st : Prop} {hash : K → Nat} {h : HashTable K V B M} {c : Nat → List (Ent K V)}

theorem mem_all {e : Ent K V} : e ∈ all B c ↔ ∃ b, b < B ∧ e ∈ c b := by simp

namespace HHeld

theorem inv (H : HHeld st hash h c) : ∃ free, AInv h.allocator free (kn.lost ++ ids (all B c)) :=
  let ⟨free, _, hf⟩ := H.known
  ⟨free, hf⟩

theorem forget (H : HHeld (kn := kn) st hash h c) : HHeld (kn := kn.quiet) st hash h c :=
  @HHeld.mk _ _ _ _ kn.quiet _ _ _ _ H.pos (let ⟨free, hf⟩ := H.inv; ⟨free, Known.quiet_ok _ _, hf⟩) H.clean H.seg H.head
    H.vals H.home H.kept

theorem range (H : HHeld st hash h c) {b : Nat} (hb : b < B) {i : Nat} (hi : i ∈ ids (c b)) :
    1 ≤ i ∧ i ≤ M := by
  obtain ⟨free, hf⟩ := H.inv
  apply hf.live_range
  obtain ⟨e, he, rfl⟩ := List.mem_map.1 hi
  exact List.mem_append_right _ (List.mem_map_of_mem (mem_all.2 ⟨b, hb, he⟩))

theorem lost_range (H : HHeld st hash h c) {i : Nat} (hi : i ∈ kn.lost) : 1 ≤ i ∧ i ≤ M := by
  obtain ⟨free, hf⟩ := H.inv
  exact hf.live_range (List.mem_append_left _ hi)

theorem apart (H : HHeld st hash h c) {b : Nat} (hb : b < B) {i : Nat} (hi : i ∈ kn.lost) : i ∉ ids (c b) := by
  obtain ⟨free, hf⟩ := H.inv
  intro hc
  obtain ⟨e, he, rfl⟩ := List.mem_map.1 hc
  exact (List.nodup_append.1 (List.nodup_append.1 hf.nodup).2.1).2.2 _ hi _
    (List.mem_map_of_mem (mem_all.2 ⟨b, hb, he⟩)) rfl

theorem nodup_all (H : HHeld st hash h c) : (ids (all B c)).Nodup := by
  obtain ⟨free, hf⟩ := H.inv
  exact (List.nodup_append.1 (List.nodup_append.1 hf.nodup).2.1).2.1

theorem nodup (H : HHeld st hash h c) {b : Nat} (hb : b < B) : (ids (c b)).Nodup := by
  obtain ⟨A, C, e, _⟩ := all_split c hb
  have := H.nodup_all
  rw [e] at this
  simp only [ids, List.map_append] at this
  exact (List.nodup_append.1 (List.nodup_append.1 this).1).2.1

theorem disjoint (H : HHeld st hash h c) {b x : Nat} (hb : b < B) (hx : x < B) (hne : x ≠ b) {i : Nat}
    (hi : i ∈ ids (c x)) : i ∉ ids (c b) := by
  obtain ⟨A, C, e, e'⟩ := all_split c hb
  have hn := H.nodup_all
  rw [e] at hn
  simp only [ids, List.map_append] at hn
  obtain ⟨n1, _, n3⟩ := List.nodup_append.1 hn
  obtain ⟨_, _, n6⟩ := List.nodup_append.1 n1
  intro hc
  obtain ⟨y, hy, rfl⟩ := List.mem_map.1 hi
  have : y ∈ all B (updB c b []) := mem_all.2 ⟨x, hx, by simpa [updB, hne] using hy⟩
  rw [e' []] at this
  simp only [List.append_nil, List.mem_append] at this
  rcases this with hA | hC
  · exact n6 _ (List.mem_map_of_mem hA) _ hc rfl
  · exact n3 _ (List.mem_append_right _ hc) _ (List.mem_map_of_mem hC) rfl

theorem lenL (H : HHeld st hash h c) : h.len = (all B c).length + kn.lost.length := by
  obtain ⟨free, hf⟩ := H.inv
  rw [HashTable.len, hf.size]; simp only [ids, List.length_map, List.length_append]; omega

theorem len (H : HHeld st hash h c) (hL : kn.lost = [] := by rfl) : h.len = (all B c).length := by
  rw [H.lenL, hL]; rfl

theorem leL (H : HHeld st hash h c) : (all B c).length + kn.lost.length ≤ M := by
  obtain ⟨free, hf⟩ := H.inv
  have := hf.live_le
  simp only [ids, List.length_map, List.length_append] at this
  omega

theorem le (H : HHeld st hash h c) : (all B c).length ≤ M := Nat.le_trans (Nat.le_add_right _ _) H.leL

theorem bucket_le (H : HHeld st hash h c) {b : Nat} (hb : b < B) : (c b).length ≤ M := by
  obtain ⟨A, C, e, _⟩ := all_split c hb
  have := H.le
  rw [e] at this
  simp at this; omega

/-- rebuild the representation after a change of one bucket -/
theorem update {kn kn' : Known} (H : HHeld (kn := kn) st hash h c) {b : Nat} (hb : b < B) {l : List (Ent K V)}
    {a : NodeAllocator (HashNode K V) M 4} {bk : Vector Nat B}
    (hinv : ∃ free, kn'.Ok free ∧ AInv a free (kn'.lost ++ ids (all B (updB c b l))))
    (hclean : Clean a (fun r => r < 2) (kn'.lost ++ ids (all B (updB c b l))))
    (hseg : DSeg a.reg 0 (ids l) 0)
    (hbk : bk = h.buckets.set b ((ids l).headD 0))
    (hreg : ∀ x, x < B → x ≠ b → ∀ e ∈ c x, a.reg e.1 0 = h.allocator.reg e.1 0 ∧
      a.reg e.1 1 = h.allocator.reg e.1 1)
    (hval : ∀ x, x < B → x ≠ b → ∀ e ∈ c x, a.val? e.1 = h.allocator.val? e.1)
    (hl : ∀ e ∈ l, a.val? e.1 = some ⟨e.2.1, e.2.2⟩)
    (hh : st → ∀ e ∈ l, hash e.2.1 % B = b) (hkept : kn'.Intact a) :
    HHeld (kn := kn') st hash ⟨bk, a⟩ (updB c b l) where
  kept := hkept
  pos := HHeld.pos (kn := kn) H
  known := hinv
  clean := hclean
  seg x hx := by
    by_cases hxb : x = b
    · subst hxb; simpa [updB] using hseg
    · simp only [updB, hxb, if_false]
      refine DSeg.frame (fun i hi => ?_) (HHeld.seg (kn := kn) H x hx)
      obtain ⟨e, he, rfl⟩ := List.mem_map.1 hi
      exact hreg x hx hxb e he
  head x hx := by
    subst hbk
    by_cases hxb : x = b
    · subst hxb; simp [updB]
    · simp only [updB, hxb, if_false]
      rw [Vector.getElem_set_ne (h := Ne.symm hxb)]
      exact HHeld.head (kn := kn) H x hx
  vals x hx e he := by
    by_cases hxb : x = b
    · subst hxb; simp only [updB, if_true] at he; exact hl e he
    · simp only [updB, hxb, if_false] at he
      show a.val? e.1 = _
      rw [hval x hx hxb e he]; exact HHeld.vals (kn := kn) H x hx e he
  home hs x hx e he := by
    by_cases hxb : x = b
    · subst hxb; simp only [updB, if_true] at he; exact hh hs e he
    · simp only [updB, hxb, if_false] at he; exact HHeld.home (kn := kn) H hs x hx e he

end HHeld

namespace HRep

theorem forget (H : HRep (kn := kn) hash h c) : HRep (kn := kn.quiet) hash h c :=
  @HRep.mk _ _ _ _ kn.quiet _ _ _ H.toHHeld.forget H.keys

theorem keys_nodup (H : HRep hash h c) : ((kvs (all B c)).map Prod.fst).Nodup := by
  have : (kvs (all B c)).map Prod.fst = (List.range B).flatMap (fun b => HashTable.keys (c b)) := by
    simp [kvs, List.map_flatMap]; rfl
  rw [this]
  unfold List.Nodup
  rw [List.pairwise_flatMap]
  refine ⟨fun b hb => H.keys b (by simpa using hb), ?_⟩
  have hlt : (List.range B).Pairwise (· < ·) := List.pairwise_lt_range
  refine List.Pairwise.imp_of_mem ?_ hlt
  intro x y hx hy hxy k1 h1 k2 h2 he
  simp at hx hy
  obtain ⟨e1, m1, rfl⟩ := List.mem_map.1 h1
  obtain ⟨e2, m2, rfl⟩ := List.mem_map.1 h2
  have a1 := H.home trivial x hx e1 m1
  have a2 := H.home trivial y hy e2 m2
  rw [he] at a1
  omega

/-- distinct keys after a change of one bucket -/
theorem of_held {kn kn' : Known} (H : HRep (kn := kn) hash h c) {h' : HashTable K V B M} {b : Nat} {l : List (Ent K V)}
    (H' : HHeld (kn := kn') True hash h' (updB c b l)) (hk : (HashTable.keys l).Nodup) :
    HRep (kn := kn') hash h' (updB c b l) where
  toHHeld := H'
  keys x hx := by
    by_cases hxb : x = b
    · subst hxb; simpa only [updB, if_true] using hk
    · simp only [updB, hxb, if_false]; exact HRep.keys (kn := kn) H x hx

end HRep

theorem new_HHeldF {kn' : Known} (hk : kn' = .exactly []) (hB : 0 < B) (hash : K → Nat) (z : HashNode K V) :
    HHeld (kn := kn') st hash (new z : HashTable K V B M) (fun _ => []) where
  pos := hB
  known := ⟨[], by subst hk; intro F hF; cases hF; rfl, by
    have : ids (all B (fun _ => ([] : List (Ent K V)))) = [] := by simp
    subst hk; rw [this]; exact new_AInv z⟩
  clean := by
    have : ids (all B (fun _ => ([] : List (Ent K V)))) = [] := by simp
    subst hk; rw [this]; exact new_Clean z _
  kept := by subst hk; exact fun _ h => nomatch h
  seg := by simp [DSeg]
  head b hb := by simp [new, SENTINEL]
  vals := by simp
  home := by simp

theorem new_HHeld (hB : 0 < B) (hash : K → Nat) (z : HashNode K V) :
    HHeld (kn := .nothing) st hash (new z : HashTable K V B M) (fun _ => []) :=
  (new_HHeldF rfl hB hash z).forget

theorem new_HRepF (hB : 0 < B) (hash : K → Nat) (z : HashNode K V) :
    HRep (kn := .exactly []) hash (new z : HashTable K V B M) (fun _ => []) :=
  @HRep.mk _ _ _ _ (.exactly []) _ _ _ (new_HHeldF rfl hB hash z) (by simp)

theorem new_HRep (hB : 0 < B) (hash : K → Nat) (z : HashNode K V) :
    HRep (kn := .nothing) hash (new z : HashTable K V B M) (fun _ => []) :=
  (new_HRepF hB hash z).forget

theorem bucketIndex_ok (hB : 0 < B) (hash : K → Nat) (k : K) :
    bucketIndex B hash k = .ok (hash k % B) := by
  unfold bucketIndex; rw [if_neg (by omega)]

theorem bucket_ok (H : HHeld st hash h c) {b : Nat} (hb : b < B) :
    h.bucket b = .ok ((ids (c b)).headD 0) := by
  unfold bucket; rw [dif_pos hb, H.head b hb]

/-- the search loop on a chain -/
theorem findLoop_spec [BEq K] (h : HashTable K V B M) (k : K) :
    ∀ (l : List (Ent K V)) (p fuel : Nat), DSeg h.allocator.reg p (ids l) 0 → l.length < fuel →
      (∀ e ∈ l, h.allocator.val? e.1 = some ⟨e.2.1, e.2.2⟩) →
      h.findLoop k fuel ((ids l).headD 0) =
        .ok (((l.find? (fun e => e.2.1 == k)).map Prod.fst).getD 0)
  | [], p, fuel + 1, _, _, _ => by simp [findLoop, SENTINEL]
  | e :: l, p, fuel + 1, hs, hf, hv => by
    have hr := h.allocator.val?_range (hv e (by simp))
    obtain ⟨_, hn, hs'⟩ := hs
    have ih := findLoop_spec h k l e.1 fuel hs' (by simpa using hf) (fun e' he' => hv e' (by simp [he']))
    unfold findLoop
    simp only [ids, List.map_cons, List.headD_cons, SENTINEL]
    rw [if_neg (by omega)]
    simp only [getNode, getValue_ok _ (hv e (by simp)), except_bind_ok]
    by_cases hk : (e.2.1 == k) = true
    · simp [hk]
    · simp only [hk, List.find?_cons]
      simp only [getNext, RIGHT, getRegister_ok _ hr.2 (by omega : 1 < 4), except_bind_ok]
      rw [show h.allocator.reg e.1 1 = (ids l).headD 0 from hn, ih]
      simp

section ops
variable [BEq K]

theorem find_ok (H : HHeld st hash h c) (k : K) :
    h.findLoop k (M + 1) ((ids (c (hash k % B))).headD 0) =
      .ok ((((c (hash k % B)).find? (fun e => e.2.1 == k)).map Prod.fst).getD 0) := by
  have hb : hash k % B < B := Nat.mod_lt _ H.pos
  exact findLoop_spec h k _ 0 _ (H.seg _ hb) (by have := H.bucket_le hb; omega) (H.vals _ hb)

/-- the two outcomes of a search -/
theorem find_held (H : HHeld st hash h c) (k : K) :
    ((c (hash k % B)).find? (fun e => e.2.1 == k) = none ∧ ∀ e ∈ c (hash k % B), (e.2.1 == k) = false) ∨
    ∃ l1 i k' v l2, c (hash k % B) = l1 ++ (i, k', v) :: l2 ∧ 1 ≤ i ∧ i ≤ M ∧ (k' == k) = true ∧
      (∀ e ∈ l1, (e.2.1 == k) = false) ∧
      (c (hash k % B)).find? (fun e => e.2.1 == k) = some (i, k', v) := by
  have hb : hash k % B < B := Nat.mod_lt _ H.pos
  cases hf : (c (hash k % B)).find? (fun e => e.2.1 == k) with
  | none =>
    left
    refine ⟨rfl, fun e he => ?_⟩
    simpa using List.find?_eq_none.1 hf e he
  | some e =>
    right
    obtain ⟨he, l1, l2, hl, h1⟩ := List.find?_eq_some_iff_append.1 hf
    obtain ⟨i, k', v⟩ := e
    have := H.range hb (i := i) (by rw [hl]; simp)
    exact ⟨l1, i, k', v, l2, hl, this.1, this.2, he, fun e he => by simpa using h1 e he, rfl⟩

omit [BEq K] in
theorem setNodeValue_ok {i : Nat} {n : HashNode K V} (hv : h.allocator.val? i = some n) (v : V) :
    h.setNodeValue i v = .ok ⟨h.buckets, h.allocator.setVal i ⟨n.key, v⟩⟩ := by
  have hr := h.allocator.val?_range hv
  unfold setNodeValue
  simp only [getValue_ok _ hv, except_bind_ok, setValue_ok _ _ hr.1 hr.2, except_pure]

omit [BEq K] in
/-- writing a value into an entry -/
theorem setNodeValue_held (H : HHeld st hash h c) {b : Nat} (hb : b < B) {l1 l2 : List (Ent K V)}
    {i : Nat} {k : K} {v : V} (hc : c b = l1 ++ (i, k, v) :: l2) (v' : V) :
    ∃ h', h.setNodeValue i v' = .ok h' ∧ HHeld st hash h' (updB c b (l1 ++ (i, k, v') :: l2)) := by
  have hv : h.allocator.val? i = some ⟨k, v⟩ := H.vals b hb (i, k, v) (by rw [hc]; simp)
  have hr := h.allocator.val?_range hv
  refine ⟨_, setNodeValue_ok hv v', ?_⟩
  have hids : ids (l1 ++ (i, k, v') :: l2) = ids (c b) := by rw [hc]; simp
  have hall : ids (all B (updB c b (l1 ++ (i, k, v') :: l2))) = ids (all B c) := by
    obtain ⟨A, C, e1, e2⟩ := all_split c hb
    rw [e1, e2]
    simp only [ids, List.map_append] at hids ⊢
    rw [hids]
  obtain ⟨free, hok, hf⟩ := H.known
  have hnd := H.nodup hb
  rw [hc] at hnd
  simp only [ids, List.map_append, List.map_cons] at hnd
  obtain ⟨_, n2, n3⟩ := List.nodup_append.1 hnd
  refine H.update hb ⟨free, hok, by rw [hall]; exact hf.setVal _ _⟩
    (by rw [hall]; exact H.clean.setVal _ _) ?_ ?_ ?_ ?_ ?_ ?_ ?_
  · rw [hids]; exact DSeg.frame (fun j _ => by simp) (H.seg b hb)
  · rw [hids, ← H.head b hb]; simp
  · intro x hx hne e he; simp
  · intro x hx hne e he
    rw [val?_setVal, if_neg]
    rintro ⟨he', _⟩
    refine H.disjoint hb hx hne (List.mem_map_of_mem he) ?_
    rw [he', hc]; simp
  · intro e he
    rw [val?_setVal]
    simp only [List.mem_append, List.mem_cons] at he
    rcases he with he | rfl | he
    · rw [if_neg]
      · exact H.vals b hb e (by rw [hc]; simp [he])
      · rintro ⟨he', _⟩
        exact n3 _ (List.mem_map_of_mem he) _ (by simp) he'
    · simp [hr]
    · rw [if_neg]
      · exact H.vals b hb e (by rw [hc]; simp [he])
      · rintro ⟨he', _⟩
        exact (List.nodup_cons.1 n2).1 (he' ▸ List.mem_map_of_mem he)
  · intro hs e he
    simp only [List.mem_append, List.mem_cons] at he
    rcases he with he | rfl | he
    · exact H.home hs b hb e (by rw [hc]; simp [he])
    · exact H.home hs b hb (i, k, v) (by rw [hc]; simp)
    · exact H.home hs b hb e (by rw [hc]; simp [he])
  · refine H.kept.of (fun j hj r => by simp) fun j hj => ?_
    rw [val?_setVal, if_neg]
    rintro ⟨rfl, _⟩
    exact H.apart hb hj (by rw [hc]; simp)

omit [BEq K] in
theorem setBucket_ok (h : HashTable K V B M) {b : Nat} (hb : b < B) (i : Nat) :
    h.setBucket b i = .ok { h with buckets := h.buckets.set b i } := by
  unfold setBucket; rw [dif_pos hb]

omit [BEq K] in
theorem headD_le (H : HHeld st hash h c) {b : Nat} (hb : b < B) : (ids (c b)).headD 0 ≤ M := by
  cases hc : c b with
  | nil => simp
  | cons e l => exact (H.range hb (i := e.1) (by rw [hc]; simp)).2

/-- insertion of a new key with room -/
theorem insert_new_held (H : HHeld st hash h c) (hM : M + 1 < 2 ^ 32) {k : K} (v : V)
    (hlt : (all B c).length + kn.lost.length < M)
    (hf : (c (hash k % B)).find? (fun e => e.2.1 == k) = none) :
    ∃ h' i, h.insert hash k v = .ok (h', some i) ∧
      HHeld (kn := kn.pop) st hash h' (updB c (hash k % B) ((i, k, v) :: c (hash k % B))) := by
  have hb : hash k % B < B := Nat.mod_lt _ H.pos
  obtain ⟨b, hbe⟩ : ∃ b, b = hash k % B := ⟨_, rfl⟩
  obtain ⟨free, hok, hfr⟩ := H.known
  obtain ⟨a, i, e, hi, hnl, h1, h2, hinv, hcl, hz, hr, hr0, hv⟩ :=
    addNode_clean hfr H.clean hM (by omega) (by simp only [ids, List.length_map, List.length_append]; omega) ⟨k, v⟩
  have hfind := find_ok H k
  rw [hf] at hfind
  rw [← hbe] at hfind hb ⊢
  obtain ⟨hd, hhd⟩ : ∃ hd, hd = (ids (c b)).headD 0 := ⟨_, rfl⟩
  have hdM : hd ≤ M := by rw [hhd]; exact headD_le H hb
  let a' := if hd = 0 then a else (a.setReg i 1 hd).setReg hd 0 i
  refine ⟨⟨h.buckets.set b i, a'⟩, i, ?_, ?_⟩
  · unfold insert
    have hfd' : h.findLoop k (M + 1) ((ids (c b)).headD 0) = .ok 0 := by
      rw [hfind]; rfl
    simp only [bucketIndex_ok H.pos, except_bind_ok, ← hbe, bucket_ok H hb, hfd', SENTINEL,
      ne_eq, not_true_eq_false, if_false, capacity, H.lenL]
    rw [if_neg (by omega)]
    simp only [e, except_bind_ok, setBucket_ok _ hb, ← hhd, RIGHT, LEFT]
    by_cases h0 : hd = 0
    · simp [h0, a']
    · simp only [h0, not_false_eq_true, if_true, connect_ok a h2 hdM (by omega : 1 < 4) (by omega : 0 < 4)]
      simp [h0, a']
  · have hnl' : ∀ x, x < B → ∀ e ∈ c x, e.1 ≠ i := by
      rintro x hx e he rfl
      exact hnl (List.mem_append_right _ (List.mem_map_of_mem (mem_all.2 ⟨x, hx, he⟩)))
    have hperm : (i :: (kn.lost ++ ids (all B c))).Perm (kn.lost ++ ids (all B (updB c b ((i, k, v) :: c b)))) := by
      obtain ⟨A, C, e1, e2⟩ := all_split c hb
      rw [e1, e2]
      refine List.perm_middle.symm.trans (List.Perm.append_left _ ?_)
      simp only [ids, List.map_append, List.map_cons, List.cons_append, List.append_assoc]
      exact List.perm_middle.symm
    have hdm : hd ≠ 0 → hd ∈ ids (c b) := by
      intro h0
      cases hc : c b with
      | nil => rw [hhd, hc] at h0; simp at h0
      | cons e l => rw [hhd, hc]; simp
    have hdl : hd ∈ i :: (kn.lost ++ ids (all B c)) ∨ hd = 0 := by
      by_cases h0 : hd = 0
      · exact Or.inr h0
      · left
        obtain ⟨e, he, he'⟩ := List.mem_map.1 (hdm h0)
        rw [← he']
        exact List.mem_cons_of_mem _ (List.mem_append_right _ (List.mem_map_of_mem (mem_all.2 ⟨b, hb, he⟩)))
    have hvals : ∀ j, a'.val? j = if j = i then some ⟨k, v⟩ else h.allocator.val? j := by
      intro j
      simp only [a']
      split
      · exact hv j
      · simp [hv j]
    have hregs : ∀ j r, j ≠ 0 → a'.reg j r = if hd ≠ 0 ∧ j = hd ∧ r = 0 then i else
        if hd ≠ 0 ∧ j = i ∧ r = 1 then hd else a.reg j r := by
      intro j r hj
      simp only [a']
      by_cases h0 : hd = 0
      · simp [h0]
      · simp only [h0, if_false, ne_eq, not_false_eq_true, true_and]
        rw [reg_setReg' _ hj hdM (by omega), reg_setReg' _ hj h2 (by omega)]
    have hndb := H.nodup hb
    refine H.update (kn' := kn.pop) hb ⟨free.tail, hok.pop, ?_⟩ ?_ ?_ (by simp) ?_ ?_ ?_ ?_ ?_
    · refine AInv.perm ?_ hperm
      simp only [a']; split
      · exact hinv
      · exact (hinv.setReg 1 _ (Or.inl (by simp))).setReg 0 _ hdl
    · refine Clean.perm ?_ hperm
      simp only [a']; split
      · exact hcl
      · exact (hcl.setReg 1 _ (Or.inl (by simp))).setReg 0 _ hdl
    · simp only [ids, List.map_cons]
      refine ⟨?_, ?_, ?_⟩
      · rw [hregs i 0 (by omega), if_neg, if_neg (by omega)]
        · exact hz 0 (by omega)
        · rintro ⟨h0, hc, _⟩
          obtain ⟨e, he, he'⟩ := List.mem_map.1 (hdm h0)
          exact hnl' b hb e he (by rw [he', hc])
      · rw [hregs i 1 (by omega), if_neg (by omega)]
        show _ = (ids (c b)).headD 0
        rw [← hhd]
        by_cases h0 : hd = 0
        · rw [if_neg (by simp [h0]), h0]; exact hz 1 (by omega)
        · rw [if_pos ⟨h0, rfl, rfl⟩]
      · have hkne : ∀ j ∈ ids (c b), j ≠ i ∧ j ≠ 0 := by
          intro j hj
          obtain ⟨e, he, rfl⟩ := List.mem_map.1 hj
          exact ⟨hnl' b hb e he, by have := H.range hb hj; omega⟩
        have hhd' : (ids (c b)).headD 0 = hd := hhd.symm
        refine DSeg.set_prev hndb (H.seg b hb) ?_ ?_ ?_
        · intro j hj hne
          obtain ⟨hj1, hj2⟩ := hkne j hj
          rw [hhd'] at hne
          rw [hregs j 0 hj2, if_neg (fun hc => hne hc.2.1), if_neg (by omega), hr j 0 hj1]
        · intro j hj
          obtain ⟨hj1, hj2⟩ := hkne j hj
          rw [hregs j 1 hj2, if_neg (by omega), if_neg (fun hc => hj1 hc.2.1), hr j 1 hj1]
        · intro hne
          have h0 : hd ≠ 0 := by
            cases hc : c b with
            | nil => exact absurd (by rw [hc]; rfl) hne
            | cons e l =>
              have := H.range hb (i := e.1) (by rw [hc]; simp)
              rw [hhd, hc]; simp; omega
          rw [hhd', hregs hd 0 h0, if_pos ⟨h0, rfl, rfl⟩]
    · intro x hx hne e he
      have hj : e.1 ≠ 0 := by have := H.range hx (List.mem_map_of_mem he); omega
      have hi' := hnl' x hx e he
      have hd' : hd ≠ 0 → e.1 ≠ hd := by
        intro h0 hc
        exact H.disjoint hb hx hne (List.mem_map_of_mem he) (hc ▸ hdm h0)
      refine ⟨?_, ?_⟩
      · rw [hregs _ 0 hj, if_neg (fun hc => hd' hc.1 hc.2.1), if_neg (by omega), hr _ _ hi']
      · rw [hregs _ 1 hj, if_neg (by omega), if_neg (fun hc => hi' hc.2.1), hr _ _ hi']
    · intro x hx hne e he
      rw [hvals, if_neg (hnl' x hx e he)]
    · intro e he
      rcases List.mem_cons.1 he with rfl | he
      · rw [hvals]; simp
      · rw [hvals, if_neg (hnl' b hb e he)]; exact H.vals b hb e he
    · intro hs e he
      rcases List.mem_cons.1 he with rfl | he
      · exact hbe.symm
      · exact H.home hs b hb e he
    · have hne : ∀ j ∈ kn.lost, j ≠ i := by
        rintro j hj rfl
        exact hnl (List.mem_append_left _ hj)
      refine Known.Intact.of (kn := kn.pop) (a := h.allocator) H.kept (fun j hj r => ?_) fun j hj => by
        rw [hvals, if_neg (hne j hj)]
      have h0 : j ≠ 0 := by have := H.lost_range hj; omega
      rw [hregs j r h0, if_neg, if_neg (fun hc => hne j hj hc.2.1), hr _ _ (hne j hj)]
      rintro ⟨h0, rfl, _⟩
      exact H.apart hb hj (hdm h0)

/-- insertion of a new key without room -/
theorem insert_full_held (H : HHeld st hash h c) {k : K} (v : V)
    (hge : M ≤ (all B c).length + kn.lost.length)
    (hf : (c (hash k % B)).find? (fun e => e.2.1 == k) = none) :
    h.insert hash k v = .ok (h, none) := by
  have hb : hash k % B < B := Nat.mod_lt _ H.pos
  have hfind := find_ok H k
  rw [hf] at hfind
  unfold insert
  simp only [bucketIndex_ok H.pos, except_bind_ok, bucket_ok H hb, hfind, SENTINEL, capacity, H.lenL,
    Option.map_none, Option.getD_none, ne_eq, not_true_eq_false, if_false]
  rw [if_pos hge]; rfl

/-- insertion of an existing key -/
theorem insert_old_held (H : HHeld st hash h c) {k k' : K} {v0 : V} (v : V) {l1 l2 : List (Ent K V)} {i : Nat}
    (hc : c (hash k % B) = l1 ++ (i, k', v0) :: l2)
    (hf : (c (hash k % B)).find? (fun e => e.2.1 == k) = some (i, k', v0)) :
    ∃ h', h.insert hash k v = .ok (h', some i) ∧
      HHeld st hash h' (updB c (hash k % B) (l1 ++ (i, k', v) :: l2)) := by
  have hb : hash k % B < B := Nat.mod_lt _ H.pos
  have hfind := find_ok H k
  rw [hf] at hfind
  obtain ⟨h', e, H'⟩ := setNodeValue_held H hb hc v
  have hi : 1 ≤ i := (H.range hb (i := i) (by rw [hc]; simp)).1
  refine ⟨h', ?_, H'⟩
  unfold insert
  simp only [bucketIndex_ok H.pos, except_bind_ok, bucket_ok H hb, hfind, SENTINEL,
    Option.map_some, Option.getD_some]
  have hi0 : i ≠ 0 := by omega
  simp only [ne_eq, hi0, not_false_eq_true, if_true, e, except_bind_ok, except_pure]

omit [BEq K] in
/-- neighbours of an entry inside its bucket -/
theorem neighbours (H : HHeld st hash h c) {b : Nat} (hb : b < B) {l1 l2 : List (Ent K V)} {x : Ent K V}
    (hc : c b = l1 ++ x :: l2) :
    h.allocator.reg x.1 0 = (ids l1).getLastD 0 ∧ h.allocator.reg x.1 1 = (ids l2).headD 0 := by
  have := H.seg b hb
  rw [hc] at this
  simp only [ids, List.map_append, List.map_cons] at this
  rw [DSeg.append_iff] at this
  exact ⟨this.2.1, this.2.2.1⟩

/-- facts about an entry and its neighbours used by unlinking -/
structure Nb (M : Nat) (l1 l2 : List (Ent K V)) (i left right : Nat) : Prop where
  i1 : 1 ≤ i
  iM : i ≤ M
  hl : left = (ids l1).getLastD 0
  hr : right = (ids l2).headD 0
  lm : left = 0 ∨ left ∈ ids l1
  rm : right = 0 ∨ right ∈ ids l2
  lM : left ≤ M
  rM : right ≤ M
  l0 : l1 ≠ [] → left ≠ 0
  r0 : l2 ≠ [] → right ≠ 0
  n1 : i ∉ ids l1
  n2 : i ∉ ids l2
  dis : ∀ x ∈ ids l1, x ∉ ids l2
  z1 : 0 ∉ ids l1
  z2 : 0 ∉ ids l2

omit [BEq K] in
theorem nb (H : HHeld st hash h c) {b : Nat} (hb : b < B) {l1 l2 : List (Ent K V)} {x : Ent K V}
    (hc : c b = l1 ++ x :: l2) :
    Nb M l1 l2 x.1 (h.allocator.reg x.1 0) (h.allocator.reg x.1 1) := by
  obtain ⟨hp, hn⟩ := neighbours H hb hc
  have hnd := H.nodup hb
  rw [hc] at hnd
  simp only [ids, List.map_append, List.map_cons] at hnd
  obtain ⟨_, n2, n3⟩ := List.nodup_append.1 hnd
  have hrg : ∀ j, j ∈ ids l1 ∨ j = x.1 ∨ j ∈ ids l2 → 1 ≤ j ∧ j ≤ M := by
    intro j hj
    apply H.range hb
    rw [hc]
    simp only [ids, List.map_append, List.map_cons, List.mem_append, List.mem_cons]
    exact hj
  have hl : ∀ (hne : l1 ≠ []), (ids l1).getLastD 0 ∈ ids l1 := fun hne => getLastD_mem (by simpa using hne) 0
  have hr : ∀ (hne : l2 ≠ []), (ids l2).headD 0 ∈ ids l2 := by
    intro hne
    cases l2 with
    | nil => exact absurd rfl hne
    | cons y l => simp
  have lm : (ids l1).getLastD 0 = 0 ∨ (ids l1).getLastD 0 ∈ ids l1 := by
    by_cases hne : l1 = []
    · left; subst hne; rfl
    · exact Or.inr (hl hne)
  have rm : (ids l2).headD 0 = 0 ∨ (ids l2).headD 0 ∈ ids l2 := by
    by_cases hne : l2 = []
    · left; subst hne; rfl
    · exact Or.inr (hr hne)
  rw [hp, hn]
  refine ⟨(hrg x.1 (by simp)).1, (hrg x.1 (by simp)).2, rfl, rfl, lm, rm, ?_, ?_, ?_, ?_, ?_, ?_, ?_, ?_, ?_⟩
  · rcases lm with h0 | h0
    · omega
    · exact (hrg _ (Or.inl h0)).2
  · rcases rm with h0 | h0
    · omega
    · exact (hrg _ (Or.inr (Or.inr h0))).2
  · intro hne; have := hrg _ (Or.inl (hl hne)); omega
  · intro hne; have := hrg _ (Or.inr (Or.inr (hr hne))); omega
  · exact fun hc => n3 _ hc _ (by simp) rfl
  · exact (List.nodup_cons.1 n2).1
  · exact fun y h1 h2 => n3 _ h1 _ (by simp only [List.mem_cons]; exact Or.inr h2) rfl
  · intro hc; have := hrg _ (Or.inl hc); omega
  · intro hc; have := hrg _ (Or.inr (Or.inr hc)); omega

omit [BEq K] in
theorem headD_eq_iff {l1 l2 : List (Ent K V)} {x : Ent K V} (hn1 : x.1 ∉ ids l1) :
    (ids (l1 ++ x :: l2)).headD 0 = x.1 ↔ l1 = [] := by
  cases l1 with
  | nil => simp
  | cons y l =>
    simp only [ids, List.cons_append, List.map_cons, List.headD_cons, reduceCtorEq, iff_false]
    intro hc; exact hn1 (by simp [hc])

omit [BEq K] in
/-- unlinking an entry -/
theorem removeAt_held (H : HHeld st hash h c) {b : Nat} (hb : b < B) {k' : K} {v : V} {l1 l2 : List (Ent K V)} {i : Nat}
    (hc : c b = l1 ++ (i, k', v) :: l2) :
    ∃ h', Caprice.hashRemoveAt b ((ids (c b)).headD 0) i h = .ok (h', some v) ∧
      HHeld (kn := kn.push i) st hash h' (updB c b (l1 ++ l2)) := by
  have N := nb H hb hc
  obtain ⟨left, hle⟩ : ∃ left, left = h.allocator.reg i 0 := ⟨_, rfl⟩
  obtain ⟨right, hre⟩ : ∃ right, right = h.allocator.reg i 1 := ⟨_, rfl⟩
  simp only [← hle, ← hre] at N
  have hval : h.allocator.val? i = some ⟨k', v⟩ := H.vals b hb (i, k', v) (by rw [hc]; simp)
  obtain ⟨free, hok, hfr⟩ := H.known
  have hlive : i ∈ kn.lost ++ ids (all B c) := List.mem_append_right _
    (List.mem_map_of_mem (f := Prod.fst) (a := (i, k', v)) (mem_all.2 ⟨b, hb, by rw [hc]; simp⟩))
  have hnlost : i ∉ kn.lost := fun hl => H.apart hb hl (by rw [hc]; simp)
  have hi0 : i ≠ 0 := by have := N.i1; omega
  obtain ⟨a, v', er, _, hinv, hcl, _, hrk, hrr, hvv⟩ :=
    removeNode_clean (i := i) ((hfr.setReg 0 0 (Or.inl hlive)).setReg 1 0 (Or.inl hlive))
      ((H.clean.setReg 0 0 (Or.inl hlive)).setReg 1 0 (Or.inl hlive)) (by omega) hlive (by
        intro r hr hr0
        rw [reg_setReg' _ hi0 N.iM (by omega), if_pos ⟨rfl, by omega⟩])
  let a' := (a.setReg left 1 right).setReg right 0 left
  refine ⟨⟨if l1 = [] then h.buckets.set b right else h.buckets, a'⟩, ?_, ?_⟩
  · unfold Caprice.hashRemoveAt
    simp only [SENTINEL, hi0, if_false]
    simp only [getNode, getValue_ok _ hval, except_bind_ok, getPrev, getNext, LEFT, RIGHT,
      getRegister_ok _ N.iM (by omega : 0 < 4), getRegister_ok _ N.iM (by omega : 1 < 4),
      clearRegister_ok _ N.iM (by omega : 0 < 4), clearRegister_ok _ N.iM (by omega : 1 < 4), er,
      ← hle, ← hre]
    have hhd : (ids (c b)).headD 0 = i ↔ l1 = [] := by rw [hc]; exact headD_eq_iff N.n1
    by_cases h1 : l1 = []
    · have hl0 : left = 0 := by rw [N.hl, h1]; rfl
      simp only [hhd, h1, if_true, hl0, decide_true, rassert, except_bind_ok, setBucket_ok _ hb]
      rw [connect_ok _ (by omega) N.rM (by omega) (by omega)]
      simp [a', hl0]
    · simp only [hhd, h1, if_false, except_pure, except_bind_ok]
      rw [connect_ok _ N.lM N.rM (by omega) (by omega)]
      simp [a']
  · have hperm : ((kn.lost ++ ids (all B c)).erase i).Perm (kn.lost ++ ids (all B (updB c b (l1 ++ l2)))) := by
      obtain ⟨A, C, e1, e2⟩ := all_split c hb
      rw [e1, e2, hc, List.erase_append_right _ hnlost]
      refine List.Perm.append_left _ ?_
      have : (ids (A ++ (l1 ++ (i, k', v) :: l2) ++ C)).Perm (i :: ids (A ++ (l1 ++ l2) ++ C)) := by
        simp only [ids, List.map_append, List.map_cons, List.append_assoc, List.cons_append]
        rw [← List.append_assoc]
        exact (List.perm_middle).trans (by simp)
      exact (this.erase i).trans (by simp)
    have hmemn : ∀ j, j ∈ ids l1 ∨ j ∈ ids l2 → j ∈ (kn.lost ++ ids (all B c)).erase i := by
      intro j hj
      rw [hperm.mem_iff]
      obtain ⟨A, C, e1, e2⟩ := all_split c hb
      rw [e2]
      simp only [ids, List.map_append, List.mem_append]
      exact Or.inr (Or.inl (Or.inr hj))
    have hregs : ∀ j r, j ≠ 0 → j ≠ i → a'.reg j r = if j = right ∧ r = 0 then left else
        if j = left ∧ r = 1 then right else h.allocator.reg j r := by
      intro j r hj hji
      simp only [a']
      rw [reg_setReg' _ hj N.rM (by omega), reg_setReg' _ hj N.lM (by omega), hrk j r hji,
        reg_setReg' _ hj N.iM (by omega), if_neg (fun hc : j = i ∧ r = 1 => hji hc.1),
        reg_setReg' _ hj N.iM (by omega), if_neg (fun hc : j = i ∧ r = 0 => hji hc.1)]
    have hvals : ∀ j, a'.val? j = h.allocator.val? j := by
      intro j; simp [a', hvv]
    have hoff : ∀ j ∈ ids l1 ++ ids l2, j ≠ 0 ∧ j ≠ i := by
      intro j hj
      rcases List.mem_append.1 hj with hj | hj
      · exact ⟨fun hc => N.z1 (hc ▸ hj), fun hc => N.n1 (hc ▸ hj)⟩
      · exact ⟨fun hc => N.z2 (hc ▸ hj), fun hc => N.n2 (hc ▸ hj)⟩
    refine H.update (kn' := kn.push i) hb ⟨i :: free, hok.push i, ?_⟩ ?_ ?_ ?_ ?_ ?_ ?_ ?_ ?_
    · exact ((hinv.setReg 1 _ (N.lm.symm.imp (fun x => hmemn _ (Or.inl x)) id)).setReg 0 _
        (N.rm.symm.imp (fun x => hmemn _ (Or.inr x)) id)).perm hperm
    · exact ((hcl.setReg 1 _ (N.lm.symm.imp (fun x => hmemn _ (Or.inl x)) id)).setReg 0 _
        (N.rm.symm.imp (fun x => hmemn _ (Or.inr x)) id)).perm hperm
    · have hseg := H.seg b hb
      have hnd := H.nodup hb
      rw [hc] at hseg hnd
      simp only [ids, List.map_append, List.map_cons] at hseg hnd ⊢
      refine DSeg.unlink (i := i) ?_ hnd hseg ?_ ?_ ?_ ?_
      · intro hc; exact (hoff 0 hc).1 rfl
      · intro j hj hne
        have := hoff j hj
        rw [hregs j 0 this.1 this.2, if_neg, if_neg (by omega)]
        rintro ⟨rfl, _⟩; exact hne N.hr
      · intro j hj hne
        have := hoff j hj
        rw [hregs j 1 this.1 this.2, if_neg (by omega), if_neg]
        rintro ⟨rfl, _⟩; exact hne N.hl
      · intro hne
        have hne' : l1 ≠ [] := by simpa using hne
        have hlm : left ∈ ids l1 := N.lm.resolve_left (N.l0 hne')
        have := hoff left (List.mem_append_left _ hlm)
        show a'.reg ((ids l1).getLastD 0) 1 = (ids l2).headD 0
        rw [← N.hl, ← N.hr, hregs left 1 this.1 this.2, if_neg (by omega), if_pos ⟨rfl, rfl⟩]
      · intro hne
        have hne' : l2 ≠ [] := by simpa using hne
        have hrm : right ∈ ids l2 := N.rm.resolve_left (N.r0 hne')
        have := hoff right (List.mem_append_right _ hrm)
        show a'.reg ((ids l2).headD 0) 0 = (ids l1).getLastD 0
        rw [← N.hl, ← N.hr, hregs right 0 this.1 this.2, if_pos ⟨rfl, rfl⟩]
    · by_cases h1 : l1 = []
      · rw [if_pos h1, h1, N.hr]; rfl
      · rw [if_neg h1]
        have : (ids (l1 ++ l2)).headD 0 = (ids (c b)).headD 0 := by
          rw [hc]
          cases l1 with
          | nil => exact absurd rfl h1
          | cons y l => rfl
        rw [this, ← H.head b hb]; simp
    · intro x hx hne e he
      have hd := H.disjoint hb hx hne (List.mem_map_of_mem he)
      rw [hc] at hd
      simp only [ids, List.map_append, List.map_cons, List.mem_append, List.mem_cons, not_or] at hd
      have hj : e.1 ≠ 0 := by have := H.range hx (List.mem_map_of_mem he); omega
      have hlft : e.1 ≠ left := by
        rintro he'; rcases N.lm with h0 | h0
        · omega
        · exact hd.1 (he' ▸ h0)
      have hrgt : e.1 ≠ right := by
        rintro he'; rcases N.rm with h0 | h0
        · omega
        · exact hd.2.2 (he' ▸ h0)
      refine ⟨?_, ?_⟩ <;>
        rw [hregs _ _ hj hd.2.1, if_neg (fun hc => hrgt hc.1), if_neg (fun hc => hlft hc.1)]
    · intro x hx hne e he; exact hvals _
    · intro e he
      rw [hvals]
      refine H.vals b hb e ?_
      rw [hc]; rcases List.mem_append.1 he with he | he <;> simp [he]
    · intro hs e he
      refine H.home hs b hb e ?_
      rw [hc]; rcases List.mem_append.1 he with he | he <;> simp [he]
    · refine Known.Intact.of (kn := kn.push i) (a := h.allocator) H.kept (fun j hj r => ?_) fun j hj => hvals j
      have h0 : j ≠ 0 := by have := H.lost_range hj; omega
      have hap := H.apart hb hj
      rw [hc] at hap
      simp only [ids, List.map_append, List.map_cons, List.mem_append, List.mem_cons, not_or] at hap
      rw [hregs j r h0 hap.2.1, if_neg, if_neg]
      · rintro ⟨rfl, _⟩; exact hap.1 (N.lm.resolve_left h0)
      · rintro ⟨rfl, _⟩; exact hap.2.2 (N.rm.resolve_left h0)

/-- removal of an existing key -/
theorem remove_old_held (H : HHeld st hash h c) {k k' : K} {v : V} {l1 l2 : List (Ent K V)} {i : Nat}
    (hc : c (hash k % B) = l1 ++ (i, k', v) :: l2)
    (hf : (c (hash k % B)).find? (fun e => e.2.1 == k) = some (i, k', v)) :
    ∃ h', h.remove hash k = .ok (h', some v) ∧ HHeld (kn := kn.push i) st hash h' (updB c (hash k % B) (l1 ++ l2)) := by
  have hb : hash k % B < B := Nat.mod_lt _ H.pos
  have hfind := find_ok H k
  rw [hf] at hfind
  obtain ⟨h', e, H'⟩ := removeAt_held H hb hc
  refine ⟨h', ?_, H'⟩
  unfold remove
  simp only [bucketIndex_ok H.pos, except_bind_ok, bucket_ok H hb, hfind, Option.map_some, Option.getD_some]
  exact e

theorem remove_none_held (H : HHeld st hash h c) {k : K}
    (hf : (c (hash k % B)).find? (fun e => e.2.1 == k) = none) :
    h.remove hash k = .ok (h, none) := by
  have hb : hash k % B < B := Nat.mod_lt _ H.pos
  have hfind := find_ok H k
  rw [hf] at hfind
  unfold remove
  simp only [bucketIndex_ok H.pos, except_bind_ok, bucket_ok H hb, hfind, SENTINEL,
    Option.map_none, Option.getD_none, if_true, except_pure]

theorem getMut_none_held (H : HHeld st hash h c) {k : K}
    (hf : (c (hash k % B)).find? (fun e => e.2.1 == k) = none) :
    h.getMut hash k = .ok (h, none) := by
  have hb : hash k % B < B := Nat.mod_lt _ H.pos
  have hfind := find_ok H k
  rw [hf] at hfind
  unfold getMut
  simp only [bucketIndex_ok H.pos, except_bind_ok, bucket_ok H hb, hfind, SENTINEL,
    Option.map_none, Option.getD_none, if_true, except_pure]

omit [BEq K] in
/-- moving an entry to the front of its bucket -/
theorem getMutAt_held (H : HHeld st hash h c) {b : Nat} (hb : b < B) {k' : K} {v : V} {l1 l2 : List (Ent K V)} {i : Nat}
    (hc : c b = l1 ++ (i, k', v) :: l2) :
    ∃ h', Caprice.hashGetMutAt b ((ids (c b)).headD 0) i h = .ok (h', some i) ∧
      HHeld st hash h' (updB c b ((i, k', v) :: (l1 ++ l2))) := by
  have N := nb H hb hc
  obtain ⟨left, hle⟩ : ∃ left, left = h.allocator.reg i 0 := ⟨_, rfl⟩
  obtain ⟨right, hre⟩ : ∃ right, right = h.allocator.reg i 1 := ⟨_, rfl⟩
  simp only [← hle, ← hre] at N
  obtain ⟨free, hok, hfr⟩ := H.known
  have hi0 : i ≠ 0 := by have := N.i1; omega
  obtain ⟨hd, hhd⟩ : ∃ hd, hd = (ids (c b)).headD 0 := ⟨_, rfl⟩
  have hdM : hd ≤ M := by rw [hhd]; exact headD_le H hb
  have hhi : hd = i ↔ l1 = [] := by rw [hhd, hc]; exact headD_eq_iff N.n1
  let a' := if l1 = [] then h.allocator else
    ((((h.allocator.setReg i 0 0).setReg left 1 right).setReg right 0 left).setReg i 1 hd).setReg hd 0 i
  refine ⟨⟨h.buckets.set b i, a'⟩, ?_, ?_⟩
  · unfold Caprice.hashGetMutAt
    simp only [SENTINEL, hi0, if_false]
    simp only [except_bind_ok, getPrev, getNext, LEFT, RIGHT,
      getRegister_ok _ N.iM (by omega : 0 < 4), getRegister_ok _ N.iM (by omega : 1 < 4),
      ← hle, ← hre, ← hhd]
    by_cases h1 : l1 = []
    · have : hd = i := hhi.2 h1
      simp only [this, ne_eq, not_true_eq_false, if_false, except_pure, except_bind_ok,
        setBucket_ok _ hb]
      simp [a', h1]
    · have : i ≠ hd := fun hc => h1 (hhi.1 hc.symm)
      simp only [this, ne_eq, not_false_eq_true, if_true, except_bind_ok,
        clearRegister_ok _ N.iM (by omega : 0 < 4)]
      rw [connect_ok _ N.lM N.rM (by omega) (by omega)]
      simp only [except_bind_ok]
      rw [connect_ok _ N.iM hdM (by omega) (by omega)]
      simp only [except_bind_ok, setBucket_ok _ hb, except_pure]
      simp [a', h1]
  · by_cases h1 : l1 = []
    · have hup : (i, k', v) :: (l1 ++ l2) = c b := by rw [hc, h1]; rfl
      have hall : all B (updB c b ((i, k', v) :: (l1 ++ l2))) = all B c := by
        obtain ⟨A, C, e1, e2⟩ := all_split c hb
        rw [e1, e2, hup]
      have ha : a' = h.allocator := by simp [a', h1]
      rw [ha]
      refine H.update hb ⟨free, hok, by rw [hall]; exact hfr⟩ (by rw [hall]; exact H.clean) ?_ (by simp)
        (fun _ _ _ _ _ => ⟨rfl, rfl⟩) (fun _ _ _ _ _ => rfl) ?_ ?_ H.kept
      · rw [hup]; exact H.seg b hb
      · rw [hup]; exact H.vals b hb
      · rw [hup]; exact fun hs => H.home hs b hb
    · have hi_hd : i ≠ hd := fun hc => h1 (hhi.1 hc.symm)
      have ha : a' = ((((h.allocator.setReg i 0 0).setReg left 1 right).setReg right 0 left).setReg i 1 hd).setReg hd 0 i := by
        simp [a', h1]
      have hl0 : left ≠ 0 := N.l0 h1
      have hlm : left ∈ ids l1 := N.lm.resolve_left hl0
      have hhd1 : hd = (ids l1).headD 0 := by
        rw [hhd, hc]
        cases l1 with
        | nil => exact absurd rfl h1
        | cons y l => rfl
      have hdm1 : hd ∈ ids l1 := by
        rw [hhd1]
        cases l1 with
        | nil => exact absurd rfl h1
        | cons y l => simp
      have hd0 : hd ≠ 0 := fun hc => N.z1 (hc ▸ hdm1)
      have hdr : hd ≠ right := by
        intro hc; rcases N.rm with h0 | h0
        · omega
        · exact N.dis hd hdm1 (hc ▸ h0)
      have hperm : (kn.lost ++ ids (all B c)).Perm (kn.lost ++ ids (all B (updB c b ((i, k', v) :: (l1 ++ l2))))) := by
        obtain ⟨A, C, e1, e2⟩ := all_split c hb
        rw [e1, e2, hc]
        refine List.Perm.append_left _ ?_
        simp only [ids, List.map_append, List.map_cons]
        refine List.Perm.append_right _ (List.Perm.append_left _ ?_)
        exact List.perm_middle
      have hmem : ∀ j, j ∈ ids (c b) → j ∈ kn.lost ++ ids (all B c) := by
        intro j hj
        obtain ⟨e, he, rfl⟩ := List.mem_map.1 hj
        exact List.mem_append_right _ (List.mem_map_of_mem (mem_all.2 ⟨b, hb, he⟩))
      have hmi : i ∈ kn.lost ++ ids (all B c) := hmem i (by rw [hc]; simp)
      have hm1 : ∀ j ∈ ids l1, j ∈ kn.lost ++ ids (all B c) := fun j hj => hmem j (by
        rw [hc]; simp only [ids, List.map_append, List.mem_append]; exact Or.inl hj)
      have hm2 : ∀ j ∈ ids l2, j ∈ kn.lost ++ ids (all B c) := fun j hj => hmem j (by
        rw [hc]; simp only [ids, List.map_append, List.map_cons, List.mem_append, List.mem_cons]; exact Or.inr (Or.inr hj))
      have hregs : ∀ j r, j ≠ 0 → a'.reg j r = if j = hd ∧ r = 0 then i else
          if j = i ∧ r = 1 then hd else if j = right ∧ r = 0 then left else
          if j = left ∧ r = 1 then right else if j = i ∧ r = 0 then 0 else h.allocator.reg j r := by
        intro j r hj
        rw [ha, reg_setReg' _ hj hdM (by omega), reg_setReg' _ hj N.iM (by omega),
          reg_setReg' _ hj N.rM (by omega), reg_setReg' _ hj N.lM (by omega), reg_setReg' _ hj N.iM (by omega)]
      have hvals : ∀ j, a'.val? j = h.allocator.val? j := by
        intro j; rw [ha]; simp
      have hoff : ∀ j ∈ ids l1 ++ ids l2, j ≠ 0 ∧ j ≠ i := by
        intro j hj
        rcases List.mem_append.1 hj with hj | hj
        · exact ⟨fun hc => N.z1 (hc ▸ hj), fun hc => N.n1 (hc ▸ hj)⟩
        · exact ⟨fun hc => N.z2 (hc ▸ hj), fun hc => N.n2 (hc ▸ hj)⟩
      have hil : i ≠ left := fun hc => N.n1 (hc ▸ hlm)
      have hir : i ≠ right := by
        intro hc; rcases N.rm with h0 | h0
        · omega
        · exact N.n2 (hc ▸ h0)
      have hseg := H.seg b hb
      have hnd := H.nodup hb
      rw [hc] at hseg hnd
      simp only [ids, List.map_append, List.map_cons] at hseg hnd
      -- the list without the entry
      let reg1 : Nat → Nat → Nat := fun j r => if j = right ∧ r = 0 then left else
          if j = left ∧ r = 1 then right else h.allocator.reg j r
      have hseg1 : DSeg reg1 0 (ids l1 ++ ids l2) 0 := by
        refine DSeg.unlink (i := i) (fun hc => (hoff 0 hc).1 rfl) hnd hseg ?_ ?_ ?_ ?_
        · intro j hj hne
          show reg1 j 0 = _
          simp only [reg1]
          rw [if_neg, if_neg (by omega)]
          rintro ⟨rfl, _⟩; exact hne N.hr
        · intro j hj hne
          show reg1 j 1 = _
          simp only [reg1]
          rw [if_neg (by omega), if_neg]
          rintro ⟨rfl, _⟩; exact hne N.hl
        · intro hne
          show reg1 ((ids l1).getLastD 0) 1 = (ids l2).headD 0
          simp only [reg1]
          rw [← N.hl, ← N.hr]; simp
        · intro hne
          show reg1 ((ids l2).headD 0) 0 = (ids l1).getLastD 0
          simp only [reg1]
          rw [← N.hl, ← N.hr]; simp
      have hnd1 : (ids l1 ++ ids l2).Nodup := by
        obtain ⟨p, q, r⟩ := List.nodup_append.1 hnd
        exact List.nodup_append.2 ⟨p, (List.nodup_cons.1 q).2, fun x hx y hy => r x hx y (by simp only [List.mem_cons]; exact Or.inr hy)⟩
      have hh12 : (ids l1 ++ ids l2).headD 0 = hd := by
        rw [hhd1]
        cases l1 with
        | nil => exact absurd rfl h1
        | cons y l => rfl
      refine H.update hb ⟨free, hok, ?_⟩ ?_ ?_ (by simp) ?_ ?_ ?_ ?_ ?_
      · rw [ha]
        exact (((((hfr.setReg 0 _ (Or.inl hmi)).setReg 1 _ (Or.inl (hm1 _ hlm))).setReg 0 _
          (N.rm.symm.imp (hm2 _) id)).setReg 1 _ (Or.inl hmi)).setReg 0 _ (Or.inl (hm1 _ hdm1))).perm hperm
      · rw [ha]
        exact (((((H.clean.setReg 0 _ (Or.inl hmi)).setReg 1 _ (Or.inl (hm1 _ hlm))).setReg 0 _
          (N.rm.symm.imp (hm2 _) id)).setReg 1 _ (Or.inl hmi)).setReg 0 _ (Or.inl (hm1 _ hdm1))).perm hperm
      · simp only [ids, List.map_cons, List.map_append]
        refine ⟨?_, ?_, ?_⟩
        · rw [hregs i 0 hi0, if_neg (fun hc => hi_hd hc.1), if_neg (by omega),
            if_neg (fun hc => hir hc.1), if_neg (by omega), if_pos (by simp)]
        · rw [hregs i 1 hi0, if_neg (by omega), if_pos (by simp)]
          exact hh12.symm
        · refine DSeg.set_prev hnd1 hseg1 ?_ ?_ ?_
          · intro j hj hne
            rw [hh12] at hne
            have := hoff j hj
            rw [hregs j 0 this.1, if_neg (fun hc => hne hc.1), if_neg (by omega)]
            simp [reg1, this.2]
          · intro j hj
            have := hoff j hj
            rw [hregs j 1 this.1, if_neg (by omega), if_neg (fun hc => this.2 hc.1)]
            simp [reg1, this.2]
          · intro _
            rw [hh12, hregs hd 0 hd0, if_pos ⟨rfl, rfl⟩]
      · intro x hx hne e he
        have hdj := H.disjoint hb hx hne (List.mem_map_of_mem he)
        rw [hc] at hdj
        simp only [ids, List.map_append, List.map_cons, List.mem_append, List.mem_cons, not_or] at hdj
        have hj : e.1 ≠ 0 := by have := H.range hx (List.mem_map_of_mem he); omega
        have hlft : e.1 ≠ left := fun he' => hdj.1 (he' ▸ hlm)
        have hhdn : e.1 ≠ hd := fun he' => hdj.1 (he' ▸ hdm1)
        have hrgt : e.1 ≠ right := by
          rintro he'; rcases N.rm with h0 | h0
          · omega
          · exact hdj.2.2 (he' ▸ h0)
        refine ⟨?_, ?_⟩ <;>
          rw [hregs _ _ hj, if_neg (fun hc => hhdn hc.1), if_neg (fun hc => hdj.2.1 hc.1),
            if_neg (fun hc => hrgt hc.1), if_neg (fun hc => hlft hc.1), if_neg (fun hc => hdj.2.1 hc.1)]
      · intro x hx hne e he; exact hvals _
      · intro e he
        rw [hvals]
        refine H.vals b hb e ?_
        rw [hc]
        simp only [List.mem_cons, List.mem_append] at he ⊢
        rcases he with he | he | he
        · exact Or.inr (Or.inl he)
        · exact Or.inl he
        · exact Or.inr (Or.inr he)
      · intro hs e he
        refine H.home hs b hb e ?_
        rw [hc]
        simp only [List.mem_cons, List.mem_append] at he ⊢
        rcases he with he | he | he
        · exact Or.inr (Or.inl he)
        · exact Or.inl he
        · exact Or.inr (Or.inr he)
      · refine H.kept.of (fun j hj r => ?_) fun j hj => hvals j
        have h0 : j ≠ 0 := by have := H.lost_range hj; omega
        have hap := H.apart hb hj
        rw [hc] at hap
        simp only [ids, List.map_append, List.map_cons, List.mem_append, List.mem_cons, not_or] at hap
        rw [hregs j r h0, if_neg, if_neg (fun hc => hap.2.1 hc.1), if_neg, if_neg, if_neg (fun hc => hap.2.1 hc.1)]
        · rintro ⟨rfl, _⟩; exact hap.1 hlm
        · rintro ⟨rfl, _⟩; exact hap.2.2 (N.rm.resolve_left h0)
        · rintro ⟨rfl, _⟩; exact hap.1 hdm1

/-- `get_mut` of an existing key moves its entry to the front -/
theorem getMut_old_held (H : HHeld st hash h c) {k k' : K} {v : V} {l1 l2 : List (Ent K V)} {i : Nat}
    (hc : c (hash k % B) = l1 ++ (i, k', v) :: l2)
    (hf : (c (hash k % B)).find? (fun e => e.2.1 == k) = some (i, k', v)) :
    ∃ h', h.getMut hash k = .ok (h', some i) ∧
      HHeld st hash h' (updB c (hash k % B) ((i, k', v) :: (l1 ++ l2))) := by
  have hb : hash k % B < B := Nat.mod_lt _ H.pos
  have hfind := find_ok H k
  rw [hf] at hfind
  obtain ⟨h', e, H'⟩ := getMutAt_held H hb hc
  refine ⟨h', ?_, H'⟩
  unfold getMut
  simp only [bucketIndex_ok H.pos, except_bind_ok, bucket_ok H hb, hfind, Option.map_some, Option.getD_some]
  exact e

end ops

section lawful
variable [DecidableEq K]

omit [DecidableEq K] in
theorem HRep.split_nodup (H : HRep hash h c) {b : Nat} (hb : b < B) {l1 l2 : List (Ent K V)} {e : Ent K V}
    (hc : c b = l1 ++ e :: l2) : (e.2.1 :: HashTable.keys (l1 ++ l2)).Nodup := by
  have := H.keys b hb
  rw [hc] at this
  exact (List.Perm.map _ List.perm_middle).nodup_iff.1 this

/-- the two outcomes of a search -/
theorem find_cases (H : HRep hash h c) (k : K) :
    ((c (hash k % B)).find? (fun e => e.2.1 = k) = none ∧ ∀ e ∈ all B c, e.2.1 ≠ k) ∨
    ∃ l1 i v l2, c (hash k % B) = l1 ++ (i, k, v) :: l2 ∧ 1 ≤ i ∧ i ≤ M ∧
      (c (hash k % B)).find? (fun e => e.2.1 = k) = some (i, k, v) := by
  rcases find_held H.toHHeld k with ⟨hf, hn⟩ | ⟨l1, i, k', v, l2, hc, h1, h2, hk, _, hf⟩
  · left
    refine ⟨hf, fun e he hk => ?_⟩
    obtain ⟨b, hb', he'⟩ := mem_all.1 he
    have := H.home trivial b hb' e he'
    rw [hk] at this
    subst this
    exact ne_of_beq_false (hn e he') hk
  · right
    cases eq_of_beq hk
    exact ⟨l1, i, v, l2, hc, h1, h2, hf⟩

omit [DecidableEq K] in
theorem setNodeValue_spec (H : HRep hash h c) {b : Nat} (hb : b < B) {l1 l2 : List (Ent K V)}
    {i : Nat} {k : K} {v : V} (hc : c b = l1 ++ (i, k, v) :: l2) (v' : V) :
    ∃ h', h.setNodeValue i v' = .ok h' ∧ HRep hash h' (updB c b (l1 ++ (i, k, v') :: l2)) := by
  obtain ⟨h', e, H'⟩ := setNodeValue_held H.toHHeld hb hc v'
  refine ⟨h', e, H.of_held H' ?_⟩
  have := H.keys b hb
  rw [hc] at this
  simpa [HashTable.keys] using this

theorem insert_new_spec (H : HRep hash h c) (hM : M + 1 < 2 ^ 32) {k : K} (v : V)
    (hk : ∀ e ∈ all B c, e.2.1 ≠ k) (hlt : (all B c).length + kn.lost.length < M)
    (hf : (c (hash k % B)).find? (fun e => e.2.1 = k) = none) :
    ∃ h' i, h.insert hash k v = .ok (h', some i) ∧
      HRep (kn := kn.pop) hash h' (updB c (hash k % B) ((i, k, v) :: c (hash k % B))) ∧ i ∉ ids (all B c) := by
  have hb : hash k % B < B := Nat.mod_lt _ H.pos
  obtain ⟨h', i, e, H'⟩ := insert_new_held H.toHHeld hM v hlt hf
  refine ⟨h', i, e, H.of_held H' ?keys, ?new⟩
  case new =>
    have hn := H'.nodup_all
    obtain ⟨A, C, e1, e2⟩ := all_split c hb
    rw [e2] at hn
    rw [e1]
    have := (List.Perm.map Prod.fst (List.perm_middle (l₁ := A) (a := (i, k, v)) (l₂ := c (hash k % B) ++ C))).nodup_iff.1
      (by simpa using hn)
    have := (List.nodup_cons.1 this).1
    simpa using this
  simp only [HashTable.keys, List.map_cons, List.nodup_cons]
  refine ⟨fun hc => ?_, H.keys _ hb⟩
  obtain ⟨e, he, hek⟩ := List.mem_map.1 hc
  exact hk e (mem_all.2 ⟨_, hb, he⟩) hek

theorem insert_full_spec (H : HRep hash h c) {k : K} (v : V)
    (hge : M ≤ (all B c).length + kn.lost.length)
    (hf : (c (hash k % B)).find? (fun e => e.2.1 = k) = none) :
    h.insert hash k v = .ok (h, none) :=
  insert_full_held H.toHHeld v hge hf

theorem insert_old_spec (H : HRep hash h c) {k : K} {v0 : V} (v : V) {l1 l2 : List (Ent K V)} {i : Nat}
    (hc : c (hash k % B) = l1 ++ (i, k, v0) :: l2)
    (hf : (c (hash k % B)).find? (fun e => e.2.1 = k) = some (i, k, v0)) :
    ∃ h', h.insert hash k v = .ok (h', some i) ∧
      HRep hash h' (updB c (hash k % B) (l1 ++ (i, k, v) :: l2)) := by
  obtain ⟨h', e, H'⟩ := insert_old_held H.toHHeld v hc hf
  refine ⟨h', e, H.of_held H' ?_⟩
  have := H.keys _ (Nat.mod_lt _ H.pos : hash k % B < B)
  rw [hc] at this
  simpa [HashTable.keys] using this

theorem remove_old_spec (H : HRep hash h c) {k : K} {v : V} {l1 l2 : List (Ent K V)} {i : Nat}
    (hc : c (hash k % B) = l1 ++ (i, k, v) :: l2)
    (hf : (c (hash k % B)).find? (fun e => e.2.1 = k) = some (i, k, v)) :
    ∃ h', h.remove hash k = .ok (h', some v) ∧ HRep (kn := kn.push i) hash h' (updB c (hash k % B) (l1 ++ l2)) := by
  obtain ⟨h', e, H'⟩ := remove_old_held H.toHHeld hc hf
  exact ⟨h', e, H.of_held H' (List.nodup_cons.1 (H.split_nodup (Nat.mod_lt _ H.pos) hc)).2⟩

theorem remove_none_spec (H : HRep hash h c) {k : K}
    (hf : (c (hash k % B)).find? (fun e => e.2.1 = k) = none) :
    h.remove hash k = .ok (h, none) :=
  remove_none_held H.toHHeld hf

theorem getMut_none_spec (H : HRep hash h c) {k : K}
    (hf : (c (hash k % B)).find? (fun e => e.2.1 = k) = none) :
    h.getMut hash k = .ok (h, none) :=
  getMut_none_held H.toHHeld hf

/-- `get_mut` of an existing key moves its entry to the front -/
theorem getMut_old_spec (H : HRep hash h c) {k : K} {v : V} {l1 l2 : List (Ent K V)} {i : Nat}
    (hc : c (hash k % B) = l1 ++ (i, k, v) :: l2)
    (hf : (c (hash k % B)).find? (fun e => e.2.1 = k) = some (i, k, v)) :
    ∃ h', h.getMut hash k = .ok (h', some i) ∧
      HRep hash h' (updB c (hash k % B) ((i, k, v) :: (l1 ++ l2))) := by
  obtain ⟨h', e, H'⟩ := getMut_old_held H.toHHeld hc hf
  exact ⟨h', e, H.of_held H' (H.split_nodup (Nat.mod_lt _ H.pos) hc)⟩

end lawful
end Sokoban.HashTable
