import Verif.Spec.HashCost
import Verif.Proof.HashShapes
import Verif.Proof.Cost
import Mathlib.Tactic.Linarith
import Mathlib.Tactic.Ring

/-
Sums of lookups.
-/
namespace Sokoban.HashTable
open NodeAllocator MapSpec HashTableSpec
variable {K V : Type} {B M : Nat} {hash : K → Nat} [DecidableEq K]

theorem takeWhile_all {α : Type} {p : α → Bool} : ∀ {l : List α}, (∀ x ∈ l, p x = true) → l.takeWhile p = l
  | [], _ => rfl
  | a :: l, h => by
    rw [List.takeWhile_cons_of_pos (h a (by simp)), takeWhile_all fun x hx => h x (by simp [hx])]

theorem sum_succ {α : Type} (g : α → Nat) : ∀ l : List α, (l.map fun e => g e + 1).sum = (l.map g).sum + l.length
  | [] => rfl
  | a :: l => by
    have := sum_succ g l
    simp only [List.map_cons, List.sum_cons, List.length_cons]; omega

/-- all positions of a list, summed up -/
theorem sum_positions : ∀ {l : List (K × V)}, (l.map Prod.fst).Nodup →
    2 * (l.map fun e => (l.takeWhile fun x => x.1 ≠ e.1).length + 1).sum = l.length * (l.length + 1)
  | [], _ => rfl
  | x :: l, hn => by
    rw [List.map_cons, List.nodup_cons] at hn
    have ih := sum_positions hn.2
    have e : (l.map fun e => ((x :: l).takeWhile fun y => y.1 ≠ e.1).length + 1) =
        l.map fun e => ((l.takeWhile fun y => y.1 ≠ e.1).length + 1) + 1 := by
      refine List.map_congr_left fun y hy => ?_
      have : x.1 ≠ y.1 := fun q => hn.1 (q ▸ List.mem_map_of_mem (f := Prod.fst) hy)
      rw [List.takeWhile_cons_of_pos (by simpa using this), List.length_cons]
    have e2 := sum_succ (fun e : K × V => (l.takeWhile fun y => y.1 ≠ e.1).length + 1) l
    rw [List.map_cons, e, List.sum_cons, e2, List.takeWhile_cons_of_neg (by simp), List.length_nil, List.length_cons]
    have : (l.length + 1) * (l.length + 1 + 1) = l.length * (l.length + 1) + 2 * (l.length + 1) := by ring
    omega

theorem sum_flatMap {α β : Type} (f : α → List β) (g : β → Nat) (l : List α) :
    ((l.flatMap f).map g).sum = (l.map fun a => ((f a).map g).sum).sum := by
  induction l with
  | nil => rfl
  | cons a l ih => simp [ih]

theorem sum_double {α : Type} (g g' : α → Nat) (l : List α) (h : ∀ a ∈ l, 2 * g a = g' a) : 2 * (l.map g).sum = (l.map g').sum := by
  induction l with
  | nil => rfl
  | cons a l ih =>
    have h1 := h a (by simp)
    have h2 := ih fun b hb => h b (by simp [hb])
    simp only [List.map_cons, List.sum_cons]
    omega

theorem two_mul_sum_le (a : Nat) : ∀ cs : List Nat, 2 * a * cs.sum ≤ cs.length * (a * a) + (cs.map fun c => c * c).sum
  | [] => by simp
  | c :: cs => by
    have ih := two_mul_sum_le a cs
    have h : 2 * a * c ≤ a * a + c * c := by
      rcases Nat.le_total a c with q | q
      · obtain ⟨d, rfl⟩ := Nat.le.dest q; nlinarith
      · obtain ⟨d, rfl⟩ := Nat.le.dest q; nlinarith
    simp only [List.sum_cons, List.map_cons, List.length_cons]
    nlinarith

theorem sq_sum_le : ∀ cs : List Nat, cs.sum * cs.sum ≤ cs.length * (cs.map fun c => c * c).sum
  | [] => by simp
  | c :: cs => by
    have ih := sq_sum_le cs
    have h := two_mul_sum_le c cs
    simp only [List.sum_cons, List.map_cons, List.length_cons]
    nlinarith

theorem sum_sq_le : ∀ cs : List Nat, (cs.map fun c => c * c).sum ≤ cs.sum * cs.sum
  | [] => by simp
  | c :: cs => by
    have ih := sum_sq_le cs
    simp only [List.sum_cons, List.map_cons]
    nlinarith [Nat.zero_le (c * cs.sum)]

omit [DecidableEq K] in
theorem sum_loads (hB : 0 < B) {L : List (K × V)} (h : ByBucket hash B L) : ((List.range B).map (load hash B L)).sum = L.length := by
  conv => rhs; rw [← rows_sorted hB h.2]
  unfold rows
  rw [List.length_flatMap]
  rfl

theorem sum_steps {R L : List (K × V)} (hR : (R.map Prod.fst).Nodup) (hL : L = rows hash B R) (hp : R.Perm L) :
    2 * (L.map fun e => ((R.filter fun x => hash x.1 % B = hash e.1 % B).takeWhile fun x => x.1 ≠ e.1).length + 1).sum =
      ((List.range B).map fun b => load hash B L b * (load hash B L b + 1)).sum := by
  conv => lhs; rw [hL]
  unfold rows
  rw [sum_flatMap]
  refine sum_double _ _ _ fun b _ => ?_
  have hl : load hash B L b = (R.filter fun e => hash e.1 % B = b).length := ((hp.filter _).length_eq).symm
  rw [hl]
  have := sum_positions (l := R.filter fun e => hash e.1 % B = b) (hR.sublist (List.Sublist.map _ List.filter_sublist))
  rw [← this]
  congr 2
  refine List.map_congr_left fun e he => ?_
  have he' : hash e.1 % B = b := by simpa using (List.mem_filter.1 he).2
  rw [he']

theorem Iterations.unique {h : HashTable K V B M} {k : K} {n n' : Nat} {i : Nat} (ha : h.getAddr hash k = .ok i)
    (h1 : Iterations hash h k n) (h2 : Iterations hash h k n') : n = n' := by
  obtain ⟨hd, e1, a1, b1⟩ := h1
  obtain ⟨hd', e2, a2, b2⟩ := h2
  rw [e1] at e2; cases e2
  rcases Nat.lt_trichotomy n n' with q | q | q
  · have x := a1 n (Nat.le_refl n); rw [b2 n q, ha] at x; cases x
  · exact q
  · have x := a2 n' (Nat.le_refl n'); rw [b1 n' q, ha] at x; cases x

theorem run_iterations (hB : 0 < B) (hM : M + 1 < 2 ^ 32) (z : HashNode K V) (ops : List (Op K V)) {h : HashTable K V B M}
    {outs : List (Out K V)} (hrun : run (call hash) (HashTable.new z) ops = .ok (h, outs)) {L : List (K × V)} (hL : Yields h L) :
    ∃ R : List (K × V), (R.map Prod.fst).Nodup ∧ L = rows hash B R ∧ R.Perm L ∧ ByBucket hash B L ∧
      (∀ k, ∃ i, h.getAddr hash k = .ok i) ∧
      ∀ k, Iterations hash h k (((R.filter fun x => hash x.1 % B = hash k % B).takeWhile fun x => x.1 ≠ k).length + 1) := by
  obtain ⟨h0, e0, hy0, hn0, hp0, _⟩ := run_yields (hash := hash) (M := M) hB hM z ops
  rw [hrun] at e0; cases e0
  have hLr := Yields.unique hL hy0
  obtain ⟨h1, c, e, H, hp, _⟩ := run_recent hM ops (HashTable.new z : HashTable K V B M) (fun _ => []) []
    (new_HRep hB hash z) (fun _ _ => rfl) (by simp)
  rw [hrun] at e; cases e
  refine ⟨(recents hash B M [] ops).1, hn0, hLr, by rw [hLr]; exact hp0, ?_, fun k => ?_, fun k => ?_⟩
  · rw [hLr]; exact ⟨(hp0.map Prod.fst).nodup_iff.1 hn0, rows_pairwise _⟩
  all_goals
    have hb : hash k % B < B := Nat.mod_lt _ hB
    obtain ⟨h1', h2'⟩ := findLoop_exact h k (c (hash k % B)) 0 (H.seg _ hb) (H.vals _ hb)
    have ea : h.getAddr hash k = h.findLoop k (M + 1) ((ids (c (hash k % B))).headD 0) := by
      unfold getAddr
      simp only [bucketIndex_ok H.pos, bucket_ok H.toHHeld hb, except_bind_ok]
  · rw [ea]; exact ⟨_, find_ok H.toHHeld k⟩
  · refine ⟨_, bucket_ok H.toHHeld hb, ?_⟩
    rw [← hp _ hb]
    refine ⟨fun fuel hf => ?_, fun fuel hf => h2' fuel (by omega)⟩
    rw [h1' fuel (by omega), ea]
    exact (find_ok H.toHHeld k).symm

end Sokoban.HashTable
