import Verif.Spec.HashShapes
import Verif.Proof.HashOrder

/-
Every order by buckets is made by insertions, and by `get_mut`.
-/
namespace Sokoban.HashTable
open NodeAllocator MapSpec HashTableSpec
variable {K V : Type} {B M : Nat} {hash : K → Nat}

theorem consumeFwd_inj {α : Type} : ∀ {L L' : List α}, (∀ es, consumeFwd L es = consumeFwd L' es) → L = L'
  | [], [], _ => rfl
  | [], y :: L', h => by have := h [.front]; simp [consumeFwd] at this
  | x :: L, [], h => by have := h [.front]; simp [consumeFwd] at this
  | x :: L, y :: L', h => by
    have h1 := h [.front]
    simp only [consumeFwd, List.head?_cons, List.cons.injEq, Option.some.injEq, and_true] at h1
    rw [h1, consumeFwd_inj (L := L) (L' := L') fun es => ?_]
    have := h (.front :: es)
    simpa [consumeFwd, h1] using this

theorem Yields.unique {h : HashTable K V B M} {L L' : List (K × V)} (h1 : Yields h L) (h2 : Yields h L') : L = L' := by
  obtain ⟨it, e, h1⟩ := h1
  obtain ⟨it2, e2, h2⟩ := h2
  rw [e] at e2; cases e2
  refine consumeFwd_inj fun es => ?_
  obtain ⟨_, a⟩ := h1 es
  obtain ⟨_, b⟩ := h2 es
  rw [a] at b
  injection b with b
  injection b

/-- sorted by small numbers: first those below the greatest, then the greatest -/
theorem sorted_split {α : Type} (g : α → Nat) (B : Nat) : ∀ {L : List α}, L.Pairwise (fun x y => g x ≤ g y) → (∀ x ∈ L, g x < B + 1) →
    L.filter (fun x => g x < B) ++ L.filter (fun x => g x = B) = L
  | [], _, _ => rfl
  | x :: L, hs, hb => by
    obtain ⟨h1, h2⟩ := List.pairwise_cons.1 hs
    have ih := sorted_split g B h2 fun y hy => hb y (by simp [hy])
    have hx := hb x (by simp)
    by_cases hx' : g x < B
    · rw [List.filter_cons_of_pos (by simpa using hx'), List.filter_cons_of_neg (by simp; omega), List.cons_append, ih]
    · have e : ∀ y ∈ L, g y = B := fun y hy => by
        have := h1 y hy
        have := hb y (by simp [hy])
        omega
      rw [List.filter_cons_of_neg (by simpa using hx'), List.filter_cons_of_pos (by simp; omega)]
      rw [List.filter_eq_nil_iff.2 (fun y hy => by have := e y hy; simp; omega),
        List.filter_eq_self.2 (fun y hy => by simpa using e y hy)]
      rfl

theorem sorted_parts {α : Type} (g : α → Nat) : ∀ (B : Nat) {L : List α}, L.Pairwise (fun x y => g x ≤ g y) → (∀ x ∈ L, g x < B) →
    ((List.range B).flatMap fun b => L.filter fun x => g x = b) = L
  | 0, L, _, hb => by
    cases L with
    | nil => rfl
    | cons x L => exact absurd (hb x (by simp)) (by omega)
  | B + 1, L, hs, hb => by
    rw [List.range_succ, List.flatMap_append]
    have ih := sorted_parts g B (L := L.filter fun x => g x < B) (hs.filter _) (fun x hx => by simpa using (List.mem_filter.1 hx).2)
    have e : ((List.range B).flatMap fun b => L.filter fun x => g x = b) =
        (List.range B).flatMap fun b => (L.filter fun x => g x < B).filter fun x => g x = b := by
      refine flatMap_congr' fun b hb => ?_
      rw [List.filter_filter]
      refine List.filter_congr fun x _ => ?_
      have : b < B := by simpa using hb
      by_cases hx : g x = b
      · simp [hx, this]
      · simp [hx]
    rw [e, ih]
    simp only [List.flatMap_cons, List.flatMap_nil, List.append_nil]
    exact sorted_split g B hs hb

theorem rows_sorted (hB : 0 < B) {L : List (K × V)} (h : L.Pairwise fun e e' => hash e.1 % B ≤ hash e'.1 % B) : rows hash B L = L :=
  sorted_parts (fun e : K × V => hash e.1 % B) B h fun _ _ => Nat.mod_lt _ hB

theorem rows_pairwise (R : List (K × V)) : (rows hash B R).Pairwise fun e e' => hash e.1 % B ≤ hash e'.1 % B := by
  unfold rows
  rw [List.pairwise_flatMap]
  constructor
  · intro b _
    refine List.pairwise_iff_forall_sublist.2 fun {x y} hs => ?_
    have hx := hs.subset (List.mem_cons_self ..)
    have hy := hs.subset (List.mem_cons_of_mem _ (List.mem_cons_self ..))
    simp only [List.mem_filter, decide_eq_true_eq] at hx hy
    omega
  · refine List.pairwise_lt_range.imp fun {b b'} hlt x hx y hy => ?_
    simp only [List.mem_filter, decide_eq_true_eq] at hx hy
    omega

variable [DecidableEq K]

theorem recents_append (R : List (K × V)) (a b : List (Op K V)) :
    (recents hash B M R (a ++ b)).1 = (recents hash B M (recents hash B M R a).1 b).1 := by
  induction a generalizing R with
  | nil => rfl
  | cons op a ih => simp only [List.cons_append, recents]; exact ih _

theorem recents_insert : ∀ {L : List (K × V)}, (L.map Prod.fst).Nodup → L.length ≤ M →
    (recents hash B M [] (L.reverse.map fun e => .insert e.1 e.2)).1 = L
  | [], _, _ => rfl
  | e :: L, hn, hl => by
    rw [List.map_cons, List.nodup_cons] at hn
    rw [List.length_cons] at hl
    rw [List.reverse_cons, List.map_append, recents_append, recents_insert hn.2 (by omega)]
    simp only [List.map_cons, List.map_nil, recents, recent]
    rw [if_neg hn.1, if_pos (by omega)]

theorem recents_getMut {R : List (K × V)} (hR : (R.map Prod.fst).Nodup) : ∀ {L : List (K × V)}, (L.map Prod.fst).Nodup → (∀ e ∈ L, e ∈ R) →
    (recents hash B M R (L.reverse.map fun e => .getMut e.1 id)).1 = L ++ R.filter fun e => e.1 ∉ L.map Prod.fst
  | [], _, _ => by
    simp only [List.reverse_nil, List.map_nil, recents, List.nil_append, List.not_mem_nil, not_false_eq_true, decide_true]
    exact (List.filter_eq_self.2 fun _ _ => rfl).symm
  | e :: L, hn, hm => by
    rw [List.map_cons, List.nodup_cons] at hn
    have ih := recents_getMut hR (L := L) hn.2 fun x hx => hm x (by simp [hx])
    rw [List.reverse_cons, List.map_append, recents_append, ih]
    have hL : ∀ x ∈ L, x.1 ≠ e.1 := fun x hx q => hn.1 (q ▸ List.mem_map_of_mem (f := Prod.fst) hx)
    have hf : (L ++ R.filter fun x => x.1 ∉ L.map Prod.fst).find? (fun x => x.1 = e.1) = some (e.1, e.2) := by
      rw [List.find?_append, find_none hL, Option.none_or]
      refine find_some (hR.sublist (List.Sublist.map _ List.filter_sublist)) ?_
      rw [List.mem_filter]
      exact ⟨hm e (by simp), by simpa using hn.1⟩
    simp only [List.map_cons, List.map_nil, recents, recent]
    rw [hf]
    simp only [id_eq, List.filter_append, List.cons_append]
    rw [filter_ne hL, List.filter_filter]
    congr 2
    refine List.filter_congr fun x _ => ?_
    by_cases h1 : x.1 = e.1 <;> by_cases h2 : x.1 ∈ L.map Prod.fst <;> simp only [List.mem_cons, h1, h2, ne_eq] <;> simp_all

theorem run_yields (hB : 0 < B) (hM : M + 1 < 2 ^ 32) (z : HashNode K V) (ops : List (Op K V)) :
    ∃ h : HashTable K V B M, run (call hash) (HashTable.new z) ops = .ok (h, (recents hash B M [] ops).2) ∧
      Yields h (rows hash B (recents hash B M [] ops).1) ∧ ((recents hash B M [] ops).1.map Prod.fst).Nodup ∧
      (recents hash B M [] ops).1.Perm (rows hash B (recents hash B M [] ops).1) ∧ (recents hash B M [] ops).1.length ≤ M := by
  obtain ⟨h, c, e, H, hp, hn⟩ := run_recent hM ops (HashTable.new z : HashTable K V B M) (fun _ => []) []
    (new_HRep hB hash z) (fun _ _ => rfl) (by simp)
  obtain ⟨it, _, ei, _⟩ := drive_iter H.toHHeld []
  have hperm := hp.nodup H hn
  refine ⟨h, e, ⟨it, ei, fun es => ?_⟩, hn, by rw [hp.rows]; exact hperm, ?_⟩
  · obtain ⟨it1, it', e1, e2⟩ := drive_iter H.toHHeld es
    rw [ei] at e1; cases e1
    exact ⟨it', by rw [hp.rows]; exact e2⟩
  · rw [hperm.length_eq]
    simpa [kvs] using H.toHHeld.le

end Sokoban.HashTable
