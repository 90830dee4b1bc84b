import Verif.Model.AVL
import Verif.Proof.TreeMap
import Mathlib.Data.Nat.Fib.Basic

/-
The links of an AVL tree in memory and the effect of the elementary pointer operations.
-/
namespace Sokoban
open BT Ctx
variable {K V : Type} {M : Nat}

/-- registers of the nodes of a tree: children and height -/
def AShape (reg : Nat → Nat → Nat) : BT K V → Prop
  | .nil => True
  | .node l x r => reg x.idx 0 = l.root ∧ reg x.idx 1 = r.root ∧ reg x.idx 2 = x.tag ∧
      AShape reg l ∧ AShape reg r

/-- registers of the nodes of a context whose hole is linked to `h`; heights on the path to the hole
are not constrained -/
def ACtx (reg : Nat → Nat → Nat) (root : Nat) : Ctx K V → Nat → Prop
  | [], h => root = h
  | (d, x, s) :: c, h => reg x.idx d.toNat = h ∧ reg x.idx (!d).toNat = s.root ∧
      AShape reg s ∧ ACtx reg root c x.idx

/-- the heights stored are exact and differ by at most one -/
def AVL : BT K V → Prop
  | .nil => True
  | .node l x r => x.tag = max l.height r.height ∧ l.height ≤ r.height + 1 ∧ r.height ≤ l.height + 1 ∧
      AVL l ∧ AVL r

/-- a context in which a tree of height `h` is balanced -/
def CAVL : Ctx K V → Nat → Prop
  | [], _ => True
  | (_, _, s) :: c, h => AVL s ∧ s.height ≤ h + 1 ∧ h ≤ s.height + 1 ∧ CAVL c (max h s.height + 1)

theorem BT.height_br (d : Bool) (a : BT K V) (x : GN K V) (b : BT K V) :
    (br d a x b).height = max a.height b.height + 1 := by
  cases d <;> simp [height]; omega

theorem AShape_br {reg : Nat → Nat → Nat} {d : Bool} {a b : BT K V} {x : GN K V} :
    AShape reg (br d a x b) ↔ reg x.idx d.toNat = a.root ∧ reg x.idx (!d).toNat = b.root ∧
      reg x.idx 2 = x.tag ∧ AShape reg a ∧ AShape reg b := by
  cases d
  · simp [AShape]
  · simp only [br_true, AShape, Bool.toNat_true, Bool.not_true, Bool.toNat_false]
    constructor
    · rintro ⟨h1, h2, h3, h4, h5⟩; exact ⟨h2, h1, h3, h5, h4⟩
    · rintro ⟨h1, h2, h3, h4, h5⟩; exact ⟨h2, h1, h3, h5, h4⟩

theorem AVL_br {d : Bool} {a b : BT K V} {x : GN K V} :
    AVL (br d a x b) ↔ x.tag = max a.height b.height ∧ a.height ≤ b.height + 1 ∧ b.height ≤ a.height + 1 ∧
      AVL a ∧ AVL b := by
  cases d
  · simp [AVL]
  · simp only [br_true, AVL, Nat.max_comm b.height]
    constructor
    · rintro ⟨h1, h2, h3, h4, h5⟩; exact ⟨h1, h3, h2, h5, h4⟩
    · rintro ⟨h1, h2, h3, h4, h5⟩; exact ⟨h1, h3, h2, h5, h4⟩

theorem AShape.links {reg : Nat → Nat → Nat} : ∀ {t : BT K V}, AShape reg t → Links reg t
  | .nil, _ => trivial
  | .node _ _ _, ⟨h1, h2, _, h4, h5⟩ => ⟨h1, h2, h4.links, h5.links⟩

theorem AShape.frame {reg reg' : Nat → Nat → Nat} : ∀ {t : BT K V}, AShape reg t →
    (∀ i ∈ t.ids, ∀ r, reg' i r = reg i r) → AShape reg' t
  | .nil, _, _ => trivial
  | .node l x r, ⟨h1, h2, h3, h4, h5⟩, hr => by
    have hx := hr x.idx (by simp)
    exact ⟨by rw [hx, h1], by rw [hx, h2], by rw [hx, h3],
      h4.frame (fun i hi => hr i (by simp [hi])), h5.frame (fun i hi => hr i (by simp [hi]))⟩

/-- direction of the hole -/
def Ctx.dir : Ctx K V → Nat
  | [] => 0
  | (d, _, _) :: _ => d.toNat

theorem ACtx.frame0 {reg reg' : Nat → Nat → Nat} {root : Nat} : ∀ {c : Ctx K V} {h : Nat},
    ACtx reg root c h → (∀ i ∈ cids c, ∀ r, reg' i r = reg i r) → ACtx reg' root c h
  | [], _, h, _ => h
  | (d, x, s) :: c, h, ⟨h1, h2, h3, h4⟩, hr => by
    have hx := hr x.idx (by simp [cids])
    exact ⟨by rw [hx, h1], by rw [hx, h2],
      h3.frame (fun i hi => hr i (by simp [cids, hi])), h4.frame0 (fun i hi => hr i (by simp [cids, hi]))⟩

/-- changing the link to the hole and the height of the node above it -/
theorem ACtx.frame {reg reg' : Nat → Nat → Nat} {root root' : Nat} {c : Ctx K V} {h h' : Nat}
    (hc : ACtx reg root c h)
    (hr : ∀ i ∈ cids c, ∀ r, ¬ (i = par c ∧ (r = dir c ∨ r = 2)) → reg' i r = reg i r)
    (hn : c = [] → root' = h') (hh : c ≠ [] → root' = root ∧ reg' (par c) (dir c) = h')
    (nd : (cids c).Nodup) : ACtx reg' root' c h' := by
  cases c with
  | nil => exact hn rfl
  | cons f c =>
    obtain ⟨d, x, s⟩ := f
    obtain ⟨h1, h2, h3, h4⟩ := hc
    obtain ⟨e1, e2⟩ := hh (by simp)
    subst e1
    have hx := hr x.idx (by simp [cids])
    simp only [cids] at nd
    have nx := (List.nodup_cons.1 nd).1
    simp only [List.mem_append, not_or] at nx
    simp only [par, dir] at hr hx e2
    refine ⟨e2, by rw [hx _ (by cases d <;> simp), h2], h3.frame ?_, h4.frame0 ?_⟩
    · intro i hi r
      refine hr i (by simp [cids, hi]) r ?_
      rintro ⟨rfl, _⟩; exact nx.1 hi
    · intro i hi r
      refine hr i (by simp [cids, hi]) r ?_
      rintro ⟨rfl, _⟩; exact nx.2 hi

/-- replacing the node of an outer frame -/
theorem ACtx.swap {reg reg' : Nat → Nat → Nat} {root root' : Nat} {d : Bool} {x m : GN K V} {l : BT K V}
    {c : Ctx K V} : ∀ {ci : Ctx K V} {h : Nat}, ACtx reg root (ci ++ (d, x, l) :: c) h →
    (∀ i ∈ cids ci, ∀ r, reg' i r = reg i r) → (∀ i ∈ l.ids, ∀ r, reg' i r = reg i r) →
    (∀ i ∈ cids c, ∀ r, ¬ (i = par c ∧ (r = dir c ∨ r = 2)) → reg' i r = reg i r) →
    reg' m.idx d.toNat = reg x.idx d.toNat → reg' m.idx (!d).toNat = l.root →
    (c = [] → root' = m.idx) → (c ≠ [] → root' = root ∧ reg' (par c) (dir c) = m.idx) →
    (cids c).Nodup → (∀ i ∈ cids ci, i ≠ x.idx) →
    ACtx reg' root' (ci ++ (d, m, l) :: c) h
  | [], h, ⟨h1, h2, h3, h4⟩, _, hl, hc, hm1, hm2, hn, hh, nd, _ =>
    ⟨by rw [hm1, h1], hm2, h3.frame hl, h4.frame hc hn hh nd⟩
  | (d', y, s) :: ci, h, ⟨h1, h2, h3, h4⟩, hci, hl, hc, hm1, hm2, hn, hh, nd, hne => by
    have hy := hci y.idx (by simp [cids])
    exact ⟨by rw [hy, h1], by rw [hy, h2], h3.frame (fun i hi => hci i (by simp [cids, hi])),
      h4.swap (fun i hi => hci i (by simp [cids, hi])) hl hc hm1 hm2 hn hh nd
        (fun i hi => hne i (by simp [cids, hi]))⟩

theorem CAVL.congr {x m : GN K V} {d : Bool} {l : BT K V} {c : Ctx K V} : ∀ {ci : Ctx K V} {h : Nat},
    CAVL (ci ++ (d, x, l) :: c) h → CAVL (ci ++ (d, m, l) :: c) h
  | [], _, h => h
  | (_, _, _) :: _, _, ⟨h1, h2, h3, h4⟩ => ⟨h1, h2, h3, h4.congr⟩

/-! ### heights -/

theorem AVL.size : ∀ {t : BT K V}, AVL t → 2 ^ (t.height / 2) ≤ t.ents.length + 1
  | .nil, _ => by simp [height]
  | .node l x r, ⟨_, h2, h3, h4, h5⟩ => by
    have hl := h4.size
    have hr := h5.size
    simp only [height, ents_node, List.length_append, List.length_cons]
    have h6 : (max l.height r.height + 1) / 2 ≤ l.height / 2 + 1 ∧ (max l.height r.height + 1) / 2 ≤ r.height / 2 + 1 := by
      omega
    have e1 : 2 ^ ((max l.height r.height + 1) / 2) ≤ 2 ^ (l.height / 2 + 1) := Nat.pow_le_pow_right (by omega) h6.1
    have e2 : 2 ^ ((max l.height r.height + 1) / 2) ≤ 2 ^ (r.height / 2 + 1) := Nat.pow_le_pow_right (by omega) h6.2
    rw [Nat.pow_succ] at e1 e2
    omega

theorem AVL.fib_le : ∀ {t : BT K V}, AVL t → Nat.fib (t.height + 2) ≤ t.ents.length + 1
  | .nil, _ => by simp [height]
  | .node l x r, ⟨_, h2, h3, h4, h5⟩ => by
    have hl := h4.fib_le
    have hr := h5.fib_le
    simp only [height, ents_node, List.length_append, List.length_cons]
    rw [show max l.height r.height + 1 + 2 = (max l.height r.height + 1) + 2 by omega, Nat.fib_add_two]
    rcases Nat.le_total l.height r.height with h | h
    · have e1 : Nat.fib (max l.height r.height + 1) ≤ Nat.fib (l.height + 2) := Nat.fib_mono (by omega)
      have e2 : Nat.fib (max l.height r.height + 1 + 1) ≤ Nat.fib (r.height + 2) := Nat.fib_mono (by omega)
      omega
    · have e1 : Nat.fib (max l.height r.height + 1) ≤ Nat.fib (r.height + 2) := Nat.fib_mono (by omega)
      have e2 : Nat.fib (max l.height r.height + 1 + 1) ≤ Nat.fib (l.height + 2) := Nat.fib_mono (by omega)
      omega

/-- every AVL tree with `n` nodes has a height of at most `h` -/
def Deep (n h : Nat) : Prop := n + 1 < Nat.fib (h + 3)

theorem AVL.height_le {t : BT K V} (h : AVL t) {f : Nat} (hf : Deep t.ents.length f) : t.height ≤ f := by
  by_contra hc
  have h1 : Nat.fib (f + 3) ≤ Nat.fib (t.height + 2) := Nat.fib_mono (by omega)
  have h2 := h.fib_le
  unfold Deep at hf
  omega

theorem AVL.height_log {t : BT K V} (h : AVL t) : t.height ≤ 2 * (t.ents.length + 1).log2 + 1 := by
  have : t.height / 2 ≤ (t.ents.length + 1).log2 := (Nat.le_log2 (by omega)).2 h.size
  omega

theorem fib_two_mul (j : Nat) : 2 ^ j ≤ Nat.fib (2 * j + 1) ∧ 2 ^ j ≤ Nat.fib (2 * j + 2) := by
  induction j with
  | zero => simp
  | succ j ih =>
    have e1 : Nat.fib (2 * (j + 1) + 1) = Nat.fib (2 * j + 1) + Nat.fib (2 * j + 2) := Nat.fib_add_two
    have e2 : Nat.fib (2 * (j + 1) + 2) = Nat.fib (2 * j + 2) + Nat.fib (2 * (j + 1) + 1) := Nat.fib_add_two
    rw [Nat.pow_succ]
    omega

theorem deep_of_log {n f : Nat} (hf : 2 * (n + 1).log2 + 1 ≤ f) : Deep n f := by
  have h1 : n + 1 < 2 ^ ((n + 1).log2 + 1) := Nat.lt_log2_self
  have h2 := (fib_two_mul ((n + 1).log2 + 1)).2
  have h3 : Nat.fib (2 * ((n + 1).log2 + 1) + 2) ≤ Nat.fib (f + 3) := Nat.fib_mono (by omega)
  unfold Deep
  omega

theorem AVL.height_lt {t : BT K V} (h : AVL t) (hn : t.ents.length + 1 < 2 ^ 32) : t.height < 65 := by
  have h1 := h.height_log
  have : (t.ents.length + 1).log2 < 32 := (Nat.log2_lt (by omega)).2 hn
  omega

/-- the height stored at a node, plus one; 0 for no node -/
def ht (reg : Nat → Nat → Nat) (i : Nat) : Nat := if i = 0 then 0 else reg i 2 + 1

theorem AVL.ht {reg : Nat → Nat → Nat} {t : BT K V} (h : AVL t) (hs : AShape reg t) (h0 : ∀ i ∈ t.ids, 1 ≤ i) :
    ht reg t.root = t.height := by
  cases t with
  | nil => rfl
  | node l x r =>
    have := h0 x.idx (by simp)
    obtain ⟨h1, _⟩ := h
    obtain ⟨_, _, h2, _⟩ := hs
    unfold Sokoban.ht
    rw [root_node, if_neg (by omega), h2, h1]; rfl

theorem AVL.tags {reg : Nat → Nat → Nat} : ∀ {t : BT K V}, AVL t → AShape reg t → ∀ i ∈ t.ids, reg i 2 < t.height
  | .nil, _, _, i, hi => by simp at hi
  | .node l x r, ⟨h1, _, _, h4, h5⟩, ⟨_, _, k3, k4, k5⟩, i, hi => by
    simp only [ids_node, List.mem_append, List.mem_cons] at hi
    simp only [height]
    rcases hi with hi | rfl | hi
    · have := h4.tags k4 i hi; omega
    · rw [k3, h1]; omega
    · have := h5.tags k5 i hi; omega

end Sokoban
