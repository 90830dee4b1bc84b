import Verif.Spec.Textbook
import Verif.Proof.AnyOrder
import Verif.Proof.TreeMap

/-
Ghost trees and contexts as algebraic trees.
-/
namespace Sokoban
open Textbook
variable {K V : Type}

namespace BT

/-- the keys of a ghost tree -/
def sk : BT K V → Tree K
  | .nil => .leaf
  | .node l x r => .node l.sk x.key r.sk

@[simp] theorem sk_nil : (nil : BT K V).sk = .leaf := rfl
@[simp] theorem sk_node (l : BT K V) (x : GN K V) (r : BT K V) : (node l x r).sk = .node l.sk x.key r.sk := rfl

@[simp] theorem height_sk (t : BT K V) : t.sk.height = t.height := by
  induction t with
  | nil => rfl
  | node l x r ihl ihr => simp [height, Tree.height, ihl, ihr]

theorem keys_sk (t : BT K V) : t.sk.keys = t.ents.map fun e => e.2.1 := by
  induction t with
  | nil => rfl
  | node l x r ihl ihr => simp [Tree.keys, ihl, ihr, GN.ent]

@[simp] theorem size_sk (t : BT K V) : t.sk.size = t.ents.length := by
  induction t with
  | nil => rfl
  | node l x r ihl ihr => simp [Tree.size, ihl, ihr]; omega

end BT
open BT

/-- `balance` with the subtree in direction `d` first -/
def bal (d : Bool) (a : Tree K) (k : K) (b : Tree K) : Tree K :=
  if d then Tree.balance b k a else Tree.balance a k b

/-- a tree with the subtree in direction `d` first -/
def tbr (d : Bool) (a : Tree K) (k : K) (b : Tree K) : Tree K := if d then .node b k a else .node a k b

@[simp] theorem sk_br (d : Bool) (a : BT K V) (x : GN K V) (b : BT K V) : (br d a x b).sk = tbr d a.sk x.key b.sk := by
  cases d <;> rfl

theorem bal_even {d : Bool} {a b : Tree K} {k : K} (h1 : a.height ≤ b.height + 1) (h2 : b.height ≤ a.height + 1) :
    bal d a k b = tbr d a k b := by
  unfold bal tbr Tree.balance
  cases d
  · simp only [Bool.false_eq_true, if_false]
    rw [if_neg (by omega), if_neg (by omega)]
  · simp only [if_true]
    rw [if_neg (by omega), if_neg (by omega)]

/-- single rotation -/
theorem bal_single {d : Bool} {B A C : Tree K} {y k : K} (hH : (tbr (!d) B y A).height = C.height + 2)
    (h : ¬ A.height < B.height) : bal d (tbr (!d) B y A) k C = tbr (!d) (tbr d B k C) y A := by
  cases d
  · simp only [bal, tbr, Bool.not_false, if_true, Bool.false_eq_true, if_false, Tree.balance] at hH ⊢
    rw [if_pos (by omega), Tree.leanLeft, if_neg h]; rfl
  · simp only [bal, tbr, Bool.not_true, if_true, Bool.false_eq_true, if_false, Tree.balance] at hH ⊢
    rw [if_neg (by omega), if_pos (by omega), Tree.leanRight, if_neg h]; rfl

/-- double rotation -/
theorem bal_double {d : Bool} {P Q A C : Tree K} {y z k : K} (hH : (tbr (!d) (tbr d P z Q) y A).height = C.height + 2)
    (h : A.height < (tbr d P z Q).height) :
    bal d (tbr (!d) (tbr d P z Q) y A) k C = tbr (!d) (tbr d Q k C) z (tbr (!d) P y A) := by
  cases d
  · simp only [bal, tbr, Bool.not_false, if_true, Bool.false_eq_true, if_false, Tree.balance] at hH h ⊢
    rw [if_pos (by omega), Tree.leanLeft, if_pos h]; rfl
  · simp only [bal, tbr, Bool.not_true, if_true, Bool.false_eq_true, if_false, Tree.balance] at hH h ⊢
    rw [if_neg (by omega), if_pos (by omega), Tree.leanRight, if_pos h]; rfl

/-- balancing all the way up -/
def balUp : Ctx K V → Tree K → Tree K
  | [], t => t
  | (d, x, b) :: c, t => balUp c (bal d t x.key b.sk)

theorem balUp_append : ∀ (c c' : Ctx K V) (t : Tree K), balUp (c ++ c') t = balUp c' (balUp c t)
  | [], _, _ => rfl
  | _ :: c, c', _ => balUp_append c c' _

/-- the walk to the least key -/
theorem popMin_plug : ∀ {ci : Ctx K V} {t : BT K V} {k : K} {T : Tree K}, (∀ f ∈ ci, f.1 = false) →
    (∃ a x b, t.sk = .node a x b ∧ Tree.popMin a x b = (k, T)) →
    ∃ a x b, (Ctx.plug ci t).sk = .node a x b ∧ Tree.popMin a x b = (k, balUp ci T)
  | [], _, _, _, _, h => h
  | (d, y, b') :: ci, t, k, T, hd, ⟨a, x, b, h1, h2⟩ => by
    have hd0 : d = false := hd (d, y, b') (by simp)
    subst hd0
    refine popMin_plug (ci := ci) (t := .node t y b') (fun f hf => hd f (by simp [hf]))
      ⟨t.sk, y.key, b'.sk, rfl, ?_⟩
    rw [h1, Tree.popMin, h2]; rfl

theorem join_two {l r : Tree K} {a b : Tree K} {x k : K} {T : Tree K} (hl : l ≠ .leaf) (hr : r = .node a x b)
    (h : Tree.popMin a x b = (k, T)) : Tree.join l r = Tree.balance l k T := by
  subst hr
  cases l with
  | leaf => exact absurd rfl hl
  | node _ _ _ => simp [Tree.join, h]

theorem join_leaf (r : Tree K) : Tree.join r .leaf = r := by cases r <;> rfl

theorem sk_put (i : Nat) (w : V) (t : BT K V) : (t.put i w).sk = t.sk := by
  induction t with
  | nil => rfl
  | node l x r ihl ihr =>
    simp only [BT.put, sk_node, ihl, ihr]
    congr 1
    unfold GN.put; split <;> rfl

/-! ### the way a search takes -/

section
variable {st : K → Ordering} {k : K}

theorem has_descend : ∀ (t : BT K V) (c : Ctx K V), t.sk.has st = true ↔ (t.descend st c).2 ≠ .nil
  | .nil, _ => by simp [Tree.has, descend]
  | .node l x r, c => by
    simp only [sk_node, Tree.has, descend]
    cases st x.key with
    | lt => exact has_descend l _
    | gt => exact has_descend r _
    | eq => simp

theorem insert_descend : ∀ (t : BT K V) (c : Ctx K V), balUp c (t.sk.insert st k) =
    balUp (t.descend st c).1 (match (t.descend st c).2 with
      | .nil => .node .leaf k .leaf
      | .node l x r => .node l.sk x.key r.sk)
  | .nil, _ => rfl
  | .node l x r, c => by
    simp only [sk_node, Tree.insert, descend]
    cases st x.key with
    | lt => exact insert_descend l ((false, x, r) :: c)
    | gt => exact insert_descend r ((true, x, l) :: c)
    | eq => rfl

theorem remove_descend : ∀ (t : BT K V) (c : Ctx K V), balUp c (t.sk.remove st) =
    balUp (t.descend st c).1 (match (t.descend st c).2 with
      | .nil => .leaf
      | .node l _ r => Tree.join l.sk r.sk)
  | .nil, _ => rfl
  | .node l x r, c => by
    simp only [sk_node, Tree.remove, descend]
    cases st x.key with
    | lt => exact remove_descend l ((false, x, r) :: c)
    | gt => exact remove_descend r ((true, x, l) :: c)
    | eq => rfl

end

theorem sk_eq_leaf {t : BT K V} : t.sk = .leaf ↔ t = .nil := by cases t <;> simp

end Sokoban
