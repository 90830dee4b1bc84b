import Verif.Proof.TextbookTree
import Verif.Proof.RBLink

/-
Ghost trees and contexts as coloured algebraic trees.
-/
namespace Sokoban
open Textbook
variable {K V : Type}

namespace BT

/-- the keys and the colours of a ghost tree -/
def rsk : BT K V → RBTree K
  | .nil => .leaf
  | .node l x r => .node (decide (x.tag = 1)) l.rsk x.key r.rsk

@[simp] theorem rsk_nil : (nil : BT K V).rsk = .leaf := rfl
@[simp] theorem rsk_node (l : BT K V) (x : GN K V) (r : BT K V) :
    (node l x r).rsk = .node (decide (x.tag = 1)) l.rsk x.key r.rsk := rfl

theorem keys_rsk (t : BT K V) : t.rsk.keys = t.ents.map fun e => e.2.1 := by
  induction t with
  | nil => rfl
  | node l x r ihl ihr => simp [RBTree.keys, ihl, ihr, GN.ent]

@[simp] theorem size_rsk (t : BT K V) : t.rsk.size = t.ents.length := by
  induction t with
  | nil => rfl
  | node l x r ihl ihr => simp [RBTree.size, ihl, ihr]; omega

@[simp] theorem isRed_rsk (t : BT K V) : t.rsk.isRed = decide (t.tag = 1) := by
  cases t <;> rfl

end BT
open BT

theorem rsk_eq_leaf {t : BT K V} : t.rsk = .leaf ↔ t = .nil := by cases t <;> simp

/-- a tree with the subtree in direction `d` first -/
def rbr (d c : Bool) (a : RBTree K) (k : K) (b : RBTree K) : RBTree K := if d then .node c b k a else .node c a k b

/-- `fixL` or `fixR` -/
def fixD (d : Bool) (a : RBTree K) (k : K) (b : RBTree K) : RBTree K :=
  if d then RBTree.fixR b k a else RBTree.fixL a k b

/-- `raiseL` or `raiseR` -/
def raiseD (d c : Bool) (t : RBTree K) (k : K) (w : RBTree K) : RBTree K × Bool :=
  if d then RBTree.raiseR c t k w else RBTree.raiseL c t k w

/-- `delL` or `delR` -/
def delD (d c : Bool) (t : RBTree K × Bool) (k : K) (w : RBTree K) : RBTree K × Bool :=
  if d then RBTree.delR c w k t else RBTree.delL c t k w

@[simp] theorem rsk_br (d : Bool) (a : BT K V) (x : GN K V) (b : BT K V) :
    (br d a x b).rsk = rbr d (decide (x.tag = 1)) a.rsk x.key b.rsk := by
  cases d <;> rfl

theorem rbr_not (d c : Bool) (a : RBTree K) (k : K) (b : RBTree K) : rbr (!d) c a k b = rbr d c b k a := by
  cases d <;> rfl

@[simp] theorem isRed_rbr (d c : Bool) (a : RBTree K) (k : K) (b : RBTree K) : (rbr d c a k b).isRed = c := by
  cases d <;> rfl

@[simp] theorem blacken_rbr (d c : Bool) (a : RBTree K) (k : K) (b : RBTree K) :
    (rbr d c a k b).blacken = rbr d false a k b := by
  cases d <;> rfl

@[simp] theorem isRed_node (c : Bool) (a : RBTree K) (k : K) (b : RBTree K) : (RBTree.node c a k b).isRed = c := rfl

@[simp] theorem blacken_node (c : Bool) (a : RBTree K) (k : K) (b : RBTree K) :
    (RBTree.node c a k b).blacken = .node false a k b := rfl

@[simp] theorem blacken_leaf : (RBTree.leaf : RBTree K).blacken = .leaf := rfl

@[simp] theorem blacken_blacken (t : RBTree K) : t.blacken.blacken = t.blacken := by cases t <;> rfl

theorem blacken_of_black {t : RBTree K} (h : t.isRed = false) : t.blacken = t := by
  cases t with
  | leaf => rfl
  | node c l k r => simp only [RBTree.isRed] at h; subst h; rfl

theorem rb_as (d : Bool) {t : RBTree K} (h : t ≠ .leaf) : ∃ c a k b, t = rbr d c a k b := by
  cases t with
  | leaf => exact absurd rfl h
  | node c a k b => cases d
                    · exact ⟨c, a, k, b, rfl⟩
                    · exact ⟨c, b, k, a, rfl⟩

/-! ### `fixL` and `fixR` -/

theorem fixD_black {d : Bool} {a : RBTree K} {k : K} {b : RBTree K} (h : a.isRed = false) :
    fixD d a k b = rbr d false a k b := by
  cases d <;> cases a with
  | leaf => rfl
  | node c a1 x a2 => simp only [RBTree.isRed] at h; subst h; rfl

theorem fixD_ok {d : Bool} {a1 : RBTree K} {x : K} {a2 : RBTree K} {k : K} {b : RBTree K} (h1 : a1.isRed = false)
    (h2 : a2.isRed = false) : fixD d (.node true a1 x a2) k b = rbr d false (.node true a1 x a2) k b := by
  rcases a1 with - | ⟨c1, _, _, _⟩ <;> rcases a2 with - | ⟨c2, _, _, _⟩ <;>
    (try (simp only [RBTree.isRed] at h1; subst h1)) <;> (try (simp only [RBTree.isRed] at h2; subst h2)) <;>
      cases d <;> rfl

/-- a red uncle -/
theorem fixD_uncle {d1 d : Bool} {t : RBTree K} {p : K} {a : RBTree K} {k : K} {u : RBTree K} (ht : t.isRed = true)
    (ha : a.isRed = false) (hu : u.isRed = true) :
    fixD d (rbr d1 true t p a) k u = rbr d true (rbr d1 false t p a) k u.blacken := by
  rcases t with - | ⟨c1, _, _, _⟩
  · simp [RBTree.isRed] at ht
  simp only [RBTree.isRed] at ht; subst ht
  rcases a with - | ⟨c2, _, _, _⟩ <;> (try (simp only [RBTree.isRed] at ha; subst ha)) <;>
    cases d <;> cases d1 <;> simp [fixD, rbr, RBTree.fixL, RBTree.fixR, hu]

/-- a black uncle, outer grandchild -/
theorem fixD_outer {d : Bool} {t : RBTree K} {p : K} {a : RBTree K} {k : K} {u : RBTree K} (ht : t.isRed = true)
    (hu : u.isRed = false) :
    fixD d (rbr d true t p a) k u = rbr d false t p (rbr (!d) true u k a) := by
  rcases t with - | ⟨c1, _, _, _⟩
  · simp [RBTree.isRed] at ht
  simp only [RBTree.isRed] at ht; subst ht
  cases d <;> simp [fixD, rbr, RBTree.fixL, RBTree.fixR, hu]

/-- a black uncle, inner grandchild -/
theorem fixD_inner {d : Bool} {t1 t2 : RBTree K} {x p : K} {a : RBTree K} {k : K} {u : RBTree K}
    (ha : a.isRed = false) (hu : u.isRed = false) :
    fixD d (rbr (!d) true (rbr d true t1 x t2) p a) k u =
      rbr d false (rbr d true a p t1) x (rbr (!d) true u k t2) := by
  rcases a with - | ⟨c2, _, _, _⟩ <;> (try (simp only [RBTree.isRed] at ha; subst ha)) <;>
    cases d <;> simp [fixD, rbr, RBTree.fixL, RBTree.fixR, hu]

/-- the repair after an insertion, all the way up -/
def insUp : Ctx K V → RBTree K → RBTree K
  | [], t => t.blacken
  | (d, x, b) :: c, t =>
    insUp c (if x.tag = 1 then rbr d true t x.key b.rsk else fixD d t x.key b.rsk)

/-! ### `delL` and `delR` -/

theorem raiseD_far {d c : Bool} {t : RBTree K} {k : K} {cw : Bool} {B : RBTree K} {w : K} {F : RBTree K} (h : F.isRed = true) :
    raiseD d c t k (rbr d cw B w F) = (rbr d c (rbr d false t k B) w F.blacken, false) := by
  cases d <;> simp [raiseD, rbr, RBTree.raiseL, RBTree.raiseR, h]

theorem raiseD_near {d c : Bool} {t : RBTree K} {k : K} {cw : Bool} {B1 : RBTree K} {b : K} {B2 : RBTree K} {w : K}
    {F : RBTree K} (h : F.isRed = false) :
    raiseD d c t k (rbr d cw (rbr (!d) true B2 b B1) w F) =
      (rbr d c (rbr d false t k B1) b (rbr (!d) false F w B2), false) := by
  cases d <;> simp [raiseD, rbr, RBTree.raiseL, RBTree.raiseR, h]

theorem raiseD_none {d c : Bool} {t : RBTree K} {k : K} {cw : Bool} {B : RBTree K} {w : K} {F : RBTree K}
    (h : F.isRed = false) (hB : B.isRed = false) :
    raiseD d c t k (rbr d cw B w F) = (rbr d false t k (rbr d true B w F), !c) := by
  rcases B with - | ⟨c2, _, _, _⟩ <;> (try (simp only [RBTree.isRed] at hB; subst hB)) <;>
    cases d <;> simp [raiseD, rbr, RBTree.raiseL, RBTree.raiseR, h]

theorem raiseD_red {d : Bool} {t : RBTree K} {k : K} {w : RBTree K} (h : w ≠ .leaf) : (raiseD d true t k w).2 = false := by
  obtain ⟨cw, B, k', F, rfl⟩ := rb_as d h
  by_cases hF : F.isRed = true
  · rw [raiseD_far hF]
  · rw [Bool.not_eq_true] at hF
    by_cases hB : B.isRed = true
    · obtain ⟨c, B2, b, B1, rfl⟩ := rb_as (!d) (t := B) (by rintro rfl; simp [RBTree.isRed] at hB)
      rw [isRed_rbr] at hB; subst hB
      rw [raiseD_near hF]
    · rw [raiseD_none hF (by simpa using hB)]; rfl

theorem delD_false {d c : Bool} {t : RBTree K} {k : K} {w : RBTree K} : delD d c (t, false) k w = (rbr d c t k w, false) := by
  cases d <;> simp [delD, rbr, RBTree.delL, RBTree.delR]

theorem delD_black {d c : Bool} {t : RBTree K} {k : K} {w : RBTree K} (h : w.isRed = false) :
    delD d c (t, true) k w = raiseD d c t k w := by
  rcases w with - | ⟨c2, _, _, _⟩ <;> (try (simp only [RBTree.isRed] at h; subst h)) <;>
    cases d <;> simp [delD, raiseD, RBTree.delL, RBTree.delR]

theorem delD_red {d c : Bool} {t : RBTree K} {k : K} {B : RBTree K} {w : K} {F : RBTree K} :
    delD d c (t, true) k (rbr d true B w F) =
      (rbr d false (raiseD d true t k B).1 w F, (raiseD d true t k B).2) := by
  cases d <;> simp [delD, raiseD, rbr, RBTree.delL, RBTree.delR]

/-- the repair after a removal, all the way up; the colour of the root at the end -/
def delUp : Ctx K V → RBTree K × Bool → RBTree K
  | [], t => t.1.blacken
  | (d, x, b) :: c, t => delUp c (delD d (decide (x.tag = 1)) t x.key b.rsk)

theorem delUp_false : ∀ (c : Ctx K V) (t : BT K V), delUp c (t.rsk, false) = (Ctx.plug c t).rsk.blacken
  | [], _ => rfl
  | (d, x, b) :: c, t => by
    rw [delUp, delD_false, ← rsk_br]
    exact delUp_false c (br d t x b)

/-- one step below the root of the context -/
def delIn : Ctx K V → RBTree K × Bool → RBTree K × Bool
  | [], t => t
  | (d, x, b) :: c, t => delIn c (delD d (decide (x.tag = 1)) t x.key b.rsk)

theorem delUp_append : ∀ (c c' : Ctx K V) (t : RBTree K × Bool), delUp (c ++ c') t = delUp c' (delIn c t)
  | [], _, _ => rfl
  | _ :: c, c', _ => delUp_append c c' _

/-- the walk to the greatest key -/
theorem popMax_plug : ∀ {ci : Ctx K V} {t : BT K V} {k : K} {T : RBTree K × Bool}, (∀ f ∈ ci, f.1 = true) →
    (∃ c a x b, t.rsk = .node c a x b ∧ RBTree.popMax c a x b = (k, T)) →
    ∃ c a x b, (Ctx.plug ci t).rsk = .node c a x b ∧ RBTree.popMax c a x b = (k, delIn ci T)
  | [], _, _, _, _, h => h
  | (d, y, b') :: ci, t, k, T, hd, ⟨c, a, x, b, h1, h2⟩ => by
    have hd0 : d = true := hd (d, y, b') (by simp)
    subst hd0
    refine popMax_plug (ci := ci) (t := .node b' y t) (fun f hf => hd f (by simp [hf]))
      ⟨_, b'.rsk, y.key, t.rsk, rfl, ?_⟩
    rw [h1, RBTree.popMax, h2]; rfl

theorem rjoin_two {c : Bool} {l r : RBTree K} {c' : Bool} {a b : RBTree K} {x k : K} {T : RBTree K × Bool} (hr : r ≠ .leaf)
    (hl : l = .node c' a x b) (h : RBTree.popMax c' a x b = (k, T)) : RBTree.join c l r = RBTree.delL c T k r := by
  subst hl
  cases r with
  | leaf => exact absurd rfl hr
  | node _ _ _ _ => simp [RBTree.join, h]

theorem rjoin_leaf (c : Bool) (l : RBTree K) : RBTree.join c l .leaf = (l, !c) := by cases l <;> rfl

theorem rsk_put (i : Nat) (w : V) (t : BT K V) : (t.put i w).rsk = t.rsk := by
  induction t with
  | nil => rfl
  | node l x r ihl ihr =>
    simp only [BT.put, rsk_node, ihl, ihr]
    have h1 : (x.put i w).tag = x.tag := by unfold GN.put; split <;> rfl
    have h2 : (x.put i w).key = x.key := by unfold GN.put; split <;> rfl
    rw [h1, h2]

/-! ### the way a search takes -/

section
variable {st : K → Ordering} {k : K}

theorem rhas_descend : ∀ (t : BT K V) (c : Ctx K V), t.rsk.has st = true ↔ (t.descend st c).2 ≠ .nil
  | .nil, _ => by simp [RBTree.has, descend]
  | .node l x r, c => by
    simp only [rsk_node, RBTree.has, descend]
    cases st x.key with
    | lt => exact rhas_descend l _
    | gt => exact rhas_descend r _
    | eq => simp

theorem rinsert_descend : ∀ (t : BT K V) (c : Ctx K V), insUp c (t.rsk.ins st k) =
    insUp (t.descend st c).1 (match (t.descend st c).2 with
      | .nil => .node true .leaf k .leaf
      | .node l x r => (BT.node l x r).rsk)
  | .nil, _ => rfl
  | .node l x r, c => by
    simp only [rsk_node, RBTree.ins, descend]
    cases st x.key with
    | lt =>
      have := rinsert_descend l ((false, x, r) :: c)
      rw [insUp] at this
      simpa [rbr, fixD] using this
    | gt =>
      have := rinsert_descend r ((true, x, l) :: c)
      rw [insUp] at this
      simpa [rbr, fixD] using this
    | eq => rfl

theorem rremove_descend : ∀ (t : BT K V) (c : Ctx K V), delUp c (t.rsk.del st) =
    delUp (t.descend st c).1 (match (t.descend st c).2 with
      | .nil => (.leaf, false)
      | .node l x r => RBTree.join (decide (x.tag = 1)) l.rsk r.rsk)
  | .nil, _ => rfl
  | .node l x r, c => by
    simp only [rsk_node, RBTree.del, descend]
    cases st x.key with
    | lt => exact rremove_descend l ((false, x, r) :: c)
    | gt => exact rremove_descend r ((true, x, l) :: c)
    | eq => rfl

end

end Sokoban
