import Verif.Proof.Tree
import Verif.Proof.Api
import Mathlib.Order.Defs.LinearOrder

/-
Search trees: facts about sorted entries, and updates of a value in a ghost tree.
-/
namespace Sokoban
open BT Ctx
variable {K V : Type}

namespace Ents

section
variable [LT K] {l r E : Ents K V} {x : Nat × K × V}

theorem Sorted.left (h : Sorted (l ++ x :: r)) : Sorted l := (List.pairwise_append.1 h).1
theorem Sorted.right (h : Sorted (l ++ x :: r)) : Sorted r :=
  (List.pairwise_cons.1 (List.pairwise_append.1 h).2.1).2
theorem Sorted.lt_mid (h : Sorted (l ++ x :: r)) {e : Nat × K × V} (he : e ∈ l) : e.2.1 < x.2.1 :=
  (List.pairwise_append.1 h).2.2 e he x (by simp)
theorem Sorted.mid_lt (h : Sorted (l ++ x :: r)) {e : Nat × K × V} (he : e ∈ r) : x.2.1 < e.2.1 :=
  (List.pairwise_cons.1 (List.pairwise_append.1 h).2.1).1 e he
theorem Sorted.mid {r' : Ents K V} (h : Sorted (l ++ r ++ r')) : Sorted r :=
  (List.pairwise_append.1 (List.pairwise_append.1 h).1).2.1
theorem Sorted.remove (h : Sorted (l ++ x :: r)) : Sorted (l ++ r) := by
  obtain ⟨h1, h2, h3⟩ := List.pairwise_append.1 h
  exact List.pairwise_append.2 ⟨h1, (List.pairwise_cons.1 h2).2, fun a ha b hb => h3 a ha b (by simp [hb])⟩
theorem Sorted.set {i i' : Nat} {k : K} {v w : V} (h : Sorted (l ++ (i, k, v) :: r)) :
    Sorted (l ++ (i', k, w) :: r) := by
  obtain ⟨h1, h2, h3⟩ := List.pairwise_append.1 h
  refine List.pairwise_append.2 ⟨h1, List.pairwise_cons.2 (List.pairwise_cons.1 h2), fun a ha b hb => ?_⟩
  rcases List.mem_cons.1 hb with rfl | hb
  · exact h3 a ha (i, k, v) (by simp)
  · exact h3 a ha b (by simp [hb])

theorem Del.sorted {E E' : Ents K V} {k : K} {v : V} (h : Del E k v E') (hs : Sorted E) : Sorted E' := by
  obtain ⟨L1, i, L2, rfl, rfl⟩ := h
  exact hs.remove
end

section
variable [LinearOrder K] {l r E : Ents K V} {x : Nat × K × V} {k : K}

theorem Sorted.keys (h : Sorted E) : (E.map fun e => e.2.1).Nodup := by
  unfold List.Nodup
  rw [List.pairwise_map]
  exact List.Pairwise.imp (fun h => ne_of_lt h) h

theorem Sorted.insert (h : Sorted (l ++ r)) (hl : ∀ e ∈ l, e.2.1 < k) (hr : ∀ e ∈ r, k < e.2.1) (i : Nat) (v : V) :
    Sorted (l ++ (i, k, v) :: r) := by
  obtain ⟨h1, h2, h3⟩ := List.pairwise_append.1 h
  refine List.pairwise_append.2 ⟨h1, List.pairwise_cons.2 ⟨hr, h2⟩, fun a ha b hb => ?_⟩
  rcases List.mem_cons.1 hb with rfl | hb
  · exact hl a ha
  · exact h3 a ha b hb

theorem absent_of (hl : ∀ e ∈ l, e.2.1 < k) (hr : ∀ e ∈ r, k < e.2.1) : Absent (l ++ r) k := by
  intro e he
  rcases List.mem_append.1 he with h | h
  · exact ne_of_lt (hl e h)
  · exact ne_of_gt (hr e h)

end
end Ents

namespace GN
/-- change the value -/
def put (x : GN K V) (i : Nat) (w : V) : GN K V := if x.idx = i then { x with val := w } else x
@[simp] theorem idx_put (x : GN K V) (i : Nat) (w : V) : (x.put i w).idx = x.idx := by
  unfold put; split <;> rfl
@[simp] theorem tag_put (x : GN K V) (i : Nat) (w : V) : (x.put i w).tag = x.tag := by
  unfold put; split <;> rfl
@[simp] theorem key_put (x : GN K V) (i : Nat) (w : V) : (x.put i w).key = x.key := by
  unfold put; split <;> rfl
end GN

namespace BT
/-- change the value in node `i` -/
def put (i : Nat) (w : V) : BT K V → BT K V
  | .nil => .nil
  | .node l x r => .node (put i w l) (x.put i w) (put i w r)

/-- the same on entries -/
def putE (i : Nat) (w : V) (e : Nat × K × V) : Nat × K × V := if e.1 = i then (e.1, e.2.1, w) else e

@[simp] theorem root_put (i : Nat) (w : V) (t : BT K V) : (t.put i w).root = t.root := by
  cases t <;> simp [put]

theorem ents_put (i : Nat) (w : V) (t : BT K V) : (t.put i w).ents = t.ents.map (putE i w) := by
  induction t with
  | nil => rfl
  | node l x r ihl ihr =>
    simp only [put, ents_node, ihl, ihr, List.map_append, List.map_cons]
    congr 2
    unfold GN.put putE GN.ent
    simp only
    split <;> simp_all

theorem putE_split {L1 L2 : List (Nat × K × V)} {i : Nat} {k : K} {v : V} (w : V)
    (hn : ((L1 ++ (i, k, v) :: L2).map Prod.fst).Nodup) :
    (L1 ++ (i, k, v) :: L2).map (putE i w) = L1 ++ (i, k, w) :: L2 := by
  simp only [List.map_append, List.map_cons] at hn ⊢
  obtain ⟨_, hn2, hn3⟩ := List.nodup_append.1 hn
  have h1 : L1.map (putE i w) = L1 := by
    refine (List.map_congr_left fun e he => ?_).trans (List.map_id L1)
    unfold putE
    rw [if_neg (hn3 e.1 (List.mem_map_of_mem he) i (by simp))]; rfl
  have h2 : L2.map (putE i w) = L2 := by
    refine (List.map_congr_left fun e he => ?_).trans (List.map_id L2)
    unfold putE
    rw [if_neg]
    · rfl
    · rintro rfl; exact (List.nodup_cons.1 hn2).1 (List.mem_map_of_mem he)
  rw [h1, h2]
  simp [putE]

theorem links_put {reg : Nat → Nat → Nat} (i : Nat) (w : V) : ∀ {t : BT K V}, Links reg t → Links reg (t.put i w)
  | .nil, _ => trivial
  | .node l x r, ⟨h1, h2, h3, h4⟩ =>
    ⟨by simpa using h1, by simpa using h2, links_put i w h3, links_put i w h4⟩

end BT
end Sokoban
