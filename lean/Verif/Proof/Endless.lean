import Verif.Proof.Loops
import Verif.Proof.RBLink

/-
Links on which the repair loops of the red-black tree never end.
-/
namespace Sokoban
open AllocSpec (usable)
namespace NodeAllocator
variable {T : Type} {M N : Nat}

/-- an allocator with two live nodes and an empty free list -/
def twoNodes (f : Nat → Node T N) : NodeAllocator T M N :=
  { size := 2, bumpIndex := 3, freeListHead := 3, nodes := Vector.ofFn fun i => f (i.val + 1) }

theorem get_twoNodes (f : Nat → Node T N) {i : Nat} (h1 : 1 ≤ i) (h2 : i ≤ M) :
    (twoNodes f : NodeAllocator T M N).get i = .ok (f i) := get_ofNodes f h1 h2

theorem reg_twoNodes (f : Nat → Node T N) {i r : Nat} (h1 : 1 ≤ i) (h2 : i ≤ M) (hr : r < N) :
    (twoNodes f : NodeAllocator T M N).reg i r = (f i).registers[r] := by
  unfold reg twoNodes
  rw [dif_pos ⟨⟨h1, h2⟩, hr⟩]
  simp only [Vector.getElem_ofFn, show i - 1 + 1 = i by omega]

theorem inRange_twoNodes (f : Nat → Node T N) {P : T → Prop} (h : ∀ i, (f i).InRange P) :
    (twoNodes f : NodeAllocator T M N).InRange P where
  size := by simp [twoNodes]
  bumpIndex := by simp [twoNodes]
  freeListHead := by simp [twoNodes]
  nodes := by intro i hi; simp only [twoNodes, Vector.getElem_ofFn]; exact h _

theorem ainv_twoNodes (f : Nat → Node T N) (hM : 2 ≤ usable M) : AInv (twoNodes f : NodeAllocator T M N) [] [1, 2] where
  chain := rfl
  nodup := by decide
  mem := by intro i; simp [twoNodes]; omega
  size := rfl
  bump_pos := by simp [twoNodes]
  bump_le := by simp [twoNodes]; omega

end NodeAllocator

namespace RedBlackTree
variable {K V : Type} {M : Nat} {s : RedBlackTree K V M}

theorem colorBlack_ok {i : Nat} (hi : i ≤ M) : s.colorBlack i = .ok ⟨s.root, s.allocator.setReg i 3 0⟩ := by
  rw [colorBlack, NodeAllocator.setRegister_ok _ hi (by simp [COLOR])]; rfl

theorem colorRed_ok {i : Nat} (hi : i ≤ M) : s.colorRed i = .ok ⟨s.root, s.allocator.setReg i 3 1⟩ := by
  unfold colorRed
  by_cases h : i = 0
  · subst h; simp [SENTINEL, NodeAllocator.setReg_zero]
  · rw [if_pos (by simpa [SENTINEL] using h), NodeAllocator.setRegister_ok _ hi (by simp [COLOR])]; rfl

/-- `p` is its own parent and one of its own children, red; the other child `x` is black. -/
structure Trap (s : RedBlackTree K V M) (p x : Nat) (d : Bool) : Prop where
  ne : x ≠ p
  px : 1 ≤ p ∧ p ≤ M
  xx : 1 ≤ x ∧ x ≤ M
  own : s.rg p (!d).toNat = p
  other : s.rg p d.toNat = x
  parent : s.rg p 2 = p
  red : s.rg p 3 = 1
  black : s.rg x 3 = 0

/-- One iteration turns the trap around. -/
theorem Trap.endless {p x : Nat} : ∀ (n : Nat) {s : RedBlackTree K V M} {d : Bool}, Trap s p x d →
    s.fixInsertLoop n p = .error .diverge := by
  intro n
  induction n with
  | zero => intros; rfl
  | succ n ih =>
    intro s d h
    have hp := h.px.2
    have hx := h.xx.2
    have hp0 := h.px.1
    have hx0 := h.xx.1
    have hne := h.ne
    have hne' := h.ne.symm
    have hcd : s.childDir p p = .ok (!d).toNat := childDir_ok hp (!d) h.own (by simpa [h.other] using h.ne)
    have hopp : opposite (!d).toNat = d.toNat := by rw [opposite_toNat]; simp
    have hdd : (!d).toNat ≠ d.toNat := by cases d <;> simp
    have hd4 : ∀ b : Bool, b.toNat < 4 := by intro b; cases b <;> simp
    have hd2 : ∀ b : Bool, b.toNat ≠ 2 ∧ b.toNat ≠ 3 := by intro b; cases b <;> simp
    have hdlr : d.toNat = LEFT ∨ d.toNat = RIGHT := by cases d <;> simp [LEFT, RIGHT]
    -- the tree after the recolouring
    let s1 : RedBlackTree K V M := ⟨s.root, (s.allocator.setReg p 3 0).setReg p 3 1⟩
    have r1 : ∀ k q, s1.rg k q = s.rg k q := by
      intro k q
      show ((s.allocator.setReg p 3 0).setReg p 3 1).reg k q = _
      rw [rset _ hp (by omega), rset _ hp (by omega)]
      by_cases hc : k = p ∧ q = 3 ∧ 1 ≤ k
      · rw [if_pos hc, hc.1, hc.2.1, h.red]
      · rw [if_neg hc, if_neg hc]
    -- the rotation
    let s2 : RedBlackTree K V M := ⟨s1.root, (s1.allocator.setReg p d.toNat p).setReg p 2 p⟩
    let s3 : RedBlackTree K V M := ⟨s2.root, (s2.allocator.setReg p (!d).toNat x).setReg x 2 p⟩
    let s4 : RedBlackTree K V M := ⟨s3.root, (s3.allocator.setReg p d.toNat p).setReg p 2 p⟩
    have r2 : ∀ k q, s2.rg k q = if k = p ∧ q = d.toNat then p else s.rg k q := by
      intro k q
      show ((s1.allocator.setReg p d.toNat p).setReg p 2 p).reg k q = _
      rw [rset _ hp (by omega), rset _ hp (hd4 d)]
      have e : s1.allocator.reg k q = s.rg k q := r1 k q
      rw [e]
      by_cases hk : k = p
      · subst hk
        by_cases hq : q = 2
        · subst hq; simp [hp0, (hd2 d).1.symm, h.parent]
        · simp [hq, hp0]
      · simp [hk]
    have r3 : ∀ k q, s3.rg k q = if k = x ∧ q = 2 then p else if k = p ∧ q = (!d).toNat then x else s2.rg k q := by
      intro k q
      show ((s2.allocator.setReg p (!d).toNat x).setReg x 2 p).reg k q = _
      rw [rset _ hx (by omega), rset _ hp (hd4 _)]
      by_cases hk : k = x
      · subst hk; simp [hx0, hne]
      · by_cases hk' : k = p
        · subst hk'; simp [hne', hp0]
        · simp [hk, hk']
    have r3d : s3.rg p d.toNat = p := by
      rw [r3, if_neg (by simp [hne']), if_neg (by simp [hdd.symm]), r2, if_pos ⟨rfl, rfl⟩]
    have r3n : s3.rg p (!d).toNat = x := by
      rw [r3, if_neg (by simp [hne']), if_pos ⟨rfl, rfl⟩]
    have r32 : s3.rg p 2 = p := by
      rw [r3, if_neg (by simp [hne']), if_neg (by simp [(hd2 (!d)).1.symm]), r2, if_neg (by simp [(hd2 d).1.symm]), h.parent]
    have r4 : ∀ k q, s4.rg k q = s3.rg k q := by
      intro k q
      show ((s3.allocator.setReg p d.toNat p).setReg p 2 p).reg k q = _
      rw [rset _ hp (by omega), rset _ hp (hd4 d)]
      by_cases h1 : k = p ∧ q = 2 ∧ 1 ≤ k
      · rw [if_pos h1, h1.1, h1.2.1, r32]
      · rw [if_neg h1]
        by_cases h2 : k = p ∧ q = d.toNat ∧ 1 ≤ k
        · rw [if_pos h2, h2.1, h2.2.1, r3d]
        · rw [if_neg h2]
    have ht : Trap s4 p x (!d) := by
      refine ⟨hne, h.px, h.xx, ?_, ?_, ?_, ?_, ?_⟩
      · rw [Bool.not_not, r4, r3d]
      · rw [r4, r3n]
      · rw [r4, r32]
      · rw [r4, r3, if_neg (by simp), if_neg (by simp [(hd2 (!d)).2.symm]), r2, if_neg (by simp [(hd2 d).2.symm]), h.red]
      · rw [r4, r3, if_neg (by simp), if_neg (by simp [(hd2 (!d)).2.symm]), r2, if_neg (by simp [(hd2 d).2.symm]), h.black]
    have hrot : s1.rotateDir p d.toNat = .ok (s4, some p) := by
      have hne0 : p ≠ SENTINEL := by simp only [SENTINEL]; omega
      have g1 : s1.getParent p = .ok p := by rw [getParent_ok hp, r1, h.parent]
      have g2 : s1.getChild p (!d).toNat = .ok p := by rw [getChild_ok hp, r1, h.own]
      have g3 : s1.getChild p d.toNat = .ok x := by rw [getChild_ok hp, r1, h.other]
      have c1 : s1.connect p p d.toNat = .ok s2 := connect_ok hp hp d
      have c2 : s2.connect p x (!d).toNat = .ok s3 := connect_ok hp hx (!d)
      have c3 : s3.connect p p d.toNat = .ok s4 := connect_ok hp hp d
      have cd : s3.childDir p p = .ok d.toNat := childDir_ok hp d r3d (by rw [r3n]; exact hne)
      unfold rotateDir
      rw [g1]
      simp only [except_bind_ok, not_true, if_false, opposite_toNat, g2, hdlr, g3, c1, c2, ne_eq, hne0, not_false_iff,
        if_true, cd, c3]
      rfl
    have hne0 : p ≠ SENTINEL := by simp only [SENTINEL]; omega
    have g1 : s.getParent p = .ok p := by rw [getParent_ok hp, h.parent]
    have g2 : s.isRed p = .ok true := by rw [isRed_ok hp, h.red]; rfl
    have g3 : s.getChild p d.toNat = .ok x := by rw [getChild_ok hp, h.other]
    have g4 : s.isRed x = .ok false := by rw [isRed_ok hx, h.black]; rfl
    have b1 : s.colorBlack p = .ok ⟨s.root, s.allocator.setReg p 3 0⟩ := colorBlack_ok hp
    have b2 : (⟨s.root, s.allocator.setReg p 3 0⟩ : RedBlackTree K V M).colorRed p = .ok s1 := colorRed_ok hp
    simp [fixInsertLoop, g1, g2, hne0, hcd, hopp, g3, g4, hdd, b1, b2, hrot, ih ht]

/-- The root 1 is red and has the parent 2, which is red, its own parent and its own right child. -/
def knotNode (z : RBNode K V) (i : Nat) : Node (RBNode K V) 4 :=
  { registers := if i = 1 then #v[0, 0, 2, 1] else if i = 2 then #v[1, 2, 2, 1] else #v[0, 0, 0, 0], value := z }

def knot (z : RBNode K V) : RedBlackTree K V M := { root := 1, allocator := NodeAllocator.twoNodes (knotNode z) }

theorem knot_inRange (z : RBNode K V) : (knot z : RedBlackTree K V M).InRange where
  root := by simp [knot]
  allocator := NodeAllocator.inRange_twoNodes (knotNode z) fun i => by
    refine ⟨?_, trivial⟩
    unfold knotNode
    split
    · exact show ∀ (r : Nat) (h : r < 4), (#v[0, 0, 2, 1] : Vector Nat 4)[r] < 2 ^ 32 by decide
    · split
      · exact show ∀ (r : Nat) (h : r < 4), (#v[1, 2, 2, 1] : Vector Nat 4)[r] < 2 ^ 32 by decide
      · exact show ∀ (r : Nat) (h : r < 4), (#v[0, 0, 0, 0] : Vector Nat 4)[r] < 2 ^ 32 by decide

/-- The two nodes 1 and 2 are each other's parent and left child. -/
def ringNode (z : RBNode K V) (i : Nat) : Node (RBNode K V) 4 :=
  { registers := if i = 1 then #v[2, 0, 2, 0] else if i = 2 then #v[1, 0, 1, 0] else #v[0, 0, 0, 0], value := z }

def ring (z : RBNode K V) : RedBlackTree K V M := { root := 1, allocator := NodeAllocator.twoNodes (ringNode z) }

theorem ring_inRange (z : RBNode K V) : (ring z : RedBlackTree K V M).InRange where
  root := by simp [ring]
  allocator := NodeAllocator.inRange_twoNodes (ringNode z) fun i => by
    refine ⟨?_, trivial⟩
    unfold ringNode
    split
    · exact show ∀ (r : Nat) (h : r < 4), (#v[2, 0, 2, 0] : Vector Nat 4)[r] < 2 ^ 32 by decide
    · split
      · exact show ∀ (r : Nat) (h : r < 4), (#v[1, 0, 1, 0] : Vector Nat 4)[r] < 2 ^ 32 by decide
      · exact show ∀ (r : Nat) (h : r < 4), (#v[0, 0, 0, 0] : Vector Nat 4)[r] < 2 ^ 32 by decide

/-- The first iteration on the knot: everything at the node 3 except the link to its parent is open. -/
theorem knot_fix {n : Nat} (hM : 3 ≤ M) (h1 : s.rg 3 2 = 1) (h2 : s.rg 1 2 = 2) (h3 : s.rg 1 3 = 1)
    (h4 : s.rg 2 0 = 1) (h5 : s.rg 2 1 = 2) (h6 : s.rg 2 2 = 2) (h7 : s.rg 2 3 = 1) :
    s.fixInsertLoop n 3 = .error .diverge := by
  cases n with
  | zero => rfl
  | succ n =>
    have g1 : s.getParent 3 = .ok 1 := by rw [getParent_ok (by omega), h1]
    have g2 : s.isRed 1 = .ok true := by rw [isRed_ok (by omega), h3]; rfl
    have g3 : s.getParent 1 = .ok 2 := by rw [getParent_ok (by omega), h2]
    have g4 : s.childDir 2 1 = .ok 0 := childDir_ok (by omega) false h4 (by simp [h5])
    have g5 : s.getChild 2 1 = .ok 2 := by
      have := getChild_ok (s := s) (i := 2) (by omega) true
      simpa [h5] using this
    have g6 : s.isRed 2 = .ok true := by rw [isRed_ok (by omega), h7]; rfl
    let s1 : RedBlackTree K V M := ⟨s.root, s.allocator.setReg 2 3 0⟩
    let s2 : RedBlackTree K V M := ⟨s.root, s1.allocator.setReg 1 3 0⟩
    let s3 : RedBlackTree K V M := ⟨s.root, s2.allocator.setReg 2 3 1⟩
    have b1 : s.colorBlack 2 = .ok s1 := colorBlack_ok (by omega)
    have b2 : s1.colorBlack 1 = .ok s2 := colorBlack_ok (by omega)
    have b3 : s2.colorRed 2 = .ok s3 := colorRed_ok (by omega)
    have r : ∀ k q, s3.rg k q = if k = 2 ∧ q = 3 then 1 else if k = 1 ∧ q = 3 then 0 else s.rg k q := by
      intro k q
      show (((s.allocator.setReg 2 3 0).setReg 1 3 0).setReg 2 3 1).reg k q = _
      rw [rset _ (by omega) (by omega), rset _ (by omega) (by omega), rset _ (by omega) (by omega)]
      by_cases e : k = 2
      · subst e; by_cases e' : q = 3 <;> simp [e']
      · by_cases e1 : k = 1
        · subst e1; simp
        · simp [e, e1]
    have ht : Trap s3 2 1 false := by
      refine ⟨by decide, ⟨by decide, by omega⟩, ⟨by decide, by omega⟩, ?_, ?_, ?_, ?_, ?_⟩ <;> rw [r] <;> simp [*]
    simp [fixInsertLoop, g1, g2, g3, g4, g5, g6, b1, b2, b3, opposite, SENTINEL, ht.endless]

theorem knot_insert [Ord K] {z : RBNode K V} {k : K} (v : V) (hk : compare k z.key ≠ .eq) (hM : 3 ≤ M) (hM' : M + 1 < 2 ^ 32)
    (lim : Nat) : (knot z : RedBlackTree K V M).insert k v lim = .error .diverge := by
  have hroot : (knot z : RedBlackTree K V M).root = 1 := rfl
  have hrg : ∀ {i r : Nat}, 1 ≤ i → i ≤ M → (hr : r < 4) → (knot z : RedBlackTree K V M).rg i r = (knotNode z i).registers[r] :=
    fun h1 h2 hr => NodeAllocator.reg_twoNodes _ h1 h2 hr
  obtain ⟨a', i, ha, hi, _, _, _, _, hreg, _⟩ := NodeAllocator.addNode_spec (M := M)
    (NodeAllocator.ainv_twoNodes (knotNode z) (by rw [NodeAllocator.usable_eq hM']; omega)) hM' (by decide) (by simp; omega)
    (⟨k, v⟩ : RBNode K V)
  have hi : i = 3 := hi
  subst hi
  cases lim with
  | zero => simp [insert, insertLoop, hroot, SENTINEL]
  | succ n =>
    have hn : (knot z : RedBlackTree K V M).getNode 1 = .ok z := by
      simp only [getNode, NodeAllocator.getValue, knot, NodeAllocator.get_twoNodes (knotNode z) (Nat.le_refl 1) (show 1 ≤ M by omega)]
      rfl
    have hl : (knot z : RedBlackTree K V M).getLeft 1 = .ok 0 := by rw [getLeft_ok (by omega), hrg (by omega) (by omega) (by omega)]; rfl
    have hr : (knot z : RedBlackTree K V M).getRight 1 = .ok 0 := by rw [getRight_ok (by omega), hrg (by omega) (by omega) (by omega)]; rfl
    have hlen : ¬ (knot z : RedBlackTree K V M).len ≥ (knot z : RedBlackTree K V M).capacity := by
      simp only [len, capacity, knot, NodeAllocator.twoNodes]; omega
    have key : ∀ d : Bool, (do
        let (a, nodeIndex) ← (knot z : RedBlackTree K V M).allocator.addNode { key := k, value := v }
        let t : RedBlackTree K V M := { (knot z : RedBlackTree K V M) with allocator := a }
        let t ← t.colorRed nodeIndex
        let t ← t.connect 1 nodeIndex d.toNat
        let grandparent ← t.getParent 1
        let t ← (if grandparent ≠ SENTINEL then t.fixInsert nodeIndex (n + 1) else pure t)
        return (t, some nodeIndex)) = (.error .diverge : Sokoban.R (RedBlackTree K V M × Option Nat)) := by
      intro d
      let s1 : RedBlackTree K V M := ⟨1, a'.setReg 3 3 1⟩
      let s2 : RedBlackTree K V M := ⟨1, (s1.allocator.setReg 1 d.toNat 3).setReg 3 2 1⟩
      have c1 : (⟨1, a'⟩ : RedBlackTree K V M).colorRed 3 = .ok s1 := colorRed_ok (by omega)
      have c2 : s1.connect 1 3 d.toNat = .ok s2 := connect_ok (by omega) (by omega) d
      have hd4 : d.toNat < 4 := by cases d <;> simp
      have r : ∀ k q, s2.rg k q = if k = 3 ∧ q = 2 then 1 else if k = 1 ∧ q = d.toNat then 3 else
          if k = 3 ∧ q = 3 then 1 else (knot z : RedBlackTree K V M).rg k q := by
        intro k q
        show (((a'.setReg 3 3 1).setReg 1 d.toNat 3).setReg 3 2 1).reg k q = _
        rw [rset _ (by omega) (by omega), rset _ (by omega) hd4, rset _ (by omega) (by omega), hreg]
        by_cases e : k = 3
        · subst e; simp [knot]
        · by_cases e1 : k = 1
          · subst e1; simp [knot]
          · simp [e, e1, knot]
      have hd : ¬ 2 = d.toNat ∧ ¬ 3 = d.toNat := by cases d <;> simp
      have e1 : s2.rg 1 2 = 2 := by rw [r]; simp [hd.1]; rw [hrg (by omega) (by omega) (by omega)]; rfl
      have c3 : s2.getParent 1 = .ok 2 := by rw [getParent_ok (by omega), e1]
      have fx : s2.fixInsertLoop (n + 1) 3 = .error .diverge := by
        refine knot_fix hM ?_ e1 ?_ ?_ ?_ ?_ ?_ <;> rw [r] <;> simp [hd.2] <;> rw [hrg (by omega) (by omega) (by omega)] <;> rfl
      have ha' : (knot z : RedBlackTree K V M).allocator.addNode { key := k, value := v } = .ok (a', 3) := ha
      simp [ha', hroot, c1, c2, c3, SENTINEL, fixInsert, fx]
    unfold insert insertLoop
    rw [if_neg (by simp [hroot, SENTINEL]), hroot, hn]
    cases hc : compare k z.key with
    | eq => exact absurd hc hk
    | lt =>
      simp only [except_bind_ok, hc, hl, SENTINEL, if_true, if_neg hlen]
      exact key false
    | gt =>
      simp only [except_bind_ok, hc, hr, SENTINEL, if_true, if_neg hlen]
      exact key true

theorem knot_get [Ord K] {z : RBNode K V} {k : K} (hk : compare k z.key ≠ .eq) (hM : 1 ≤ M) :
    (knot z : RedBlackTree K V M).get k = .ok none := by
  have hroot : (knot z : RedBlackTree K V M).root = 1 := rfl
  have hn : (knot z : RedBlackTree K V M).getNode 1 = .ok z := by
    simp only [getNode, NodeAllocator.getValue, knot, NodeAllocator.get_twoNodes (knotNode z) (Nat.le_refl 1) hM]
    rfl
  have hl : (knot z : RedBlackTree K V M).getLeft 1 = .ok 0 := by
    rw [getLeft_ok hM]; exact congrArg _ (NodeAllocator.reg_twoNodes (knotNode z) (Nat.le_refl 1) hM (show 0 < 4 by omega))
  have hr : (knot z : RedBlackTree K V M).getRight 1 = .ok 0 := by
    rw [getRight_ok hM]; exact congrArg _ (NodeAllocator.reg_twoNodes (knotNode z) (Nat.le_refl 1) hM (show 1 < 4 by omega))
  cases hc : compare k z.key with
  | eq => exact absurd hc hk
  | lt => simp [get, getAddr, getAddrLoop, hroot, SENTINEL, hn, hc, hl]
  | gt => simp [get, getAddr, getAddrLoop, hroot, SENTINEL, hn, hc, hr]

/-- The removal loop at a black node that is its own parent and left child, has no right child and is not the root:
nothing changes, and the loop comes back to the same place. -/
theorem own_fix (hM : 2 ≤ M) (hr : s.root ≠ 2) (h0 : s.rg 2 0 = 2) (h1 : s.rg 2 1 = 0) (h2 : s.rg 2 2 = 2) (h3 : s.rg 2 3 = 0)
    (n : Nat) : s.fixRemoveLoop n 2 0 = .error .diverge := by
  induction n with
  | zero => rfl
  | succ n ih =>
    have g1 : s.getChild 2 1 = .ok 0 := by
      have := getChild_ok (s := s) (i := 2) (by omega) true
      simpa [h1] using this
    have g2 : s.isRed 0 = .ok false := by rw [isRed_ok (by omega)]; simp [rg]
    have g3 : s.getLeft 0 = .ok 0 := by rw [getLeft_ok (by omega)]; simp [rg]
    have g4 : s.getRight 0 = .ok 0 := by rw [getRight_ok (by omega)]; simp [rg]
    have g5 : s.isBlack 0 = .ok true := by rw [isBlack_ok (by omega)]; simp [rg]
    have g6 : s.colorRed 0 = .ok s := by simp [colorRed, SENTINEL]
    have g7 : s.isRoot 2 = false := by simp [isRoot, hr]
    have g8 : s.isRed 2 = .ok false := by rw [isRed_ok (by omega), h3]; rfl
    have g9 : s.getParent 2 = .ok 2 := by rw [getParent_ok (by omega), h2]
    have g10 : s.childDir 2 2 = .ok 0 := childDir_ok (by omega) false h0 (by simp [h1])
    simp [fixRemoveLoop, opposite, g1, g2, g3, g4, g5, g6, g7, g8, g9, g10, ih]

theorem ring_remove [Ord K] {z : RBNode K V} {k : K} (hk : compare k z.key = .eq) (hM : 2 ≤ M) (hM' : M + 1 < 2 ^ 32) (lim : Nat) :
    (ring z : RedBlackTree K V M).remove k lim = .error .diverge := by
  have hroot : (ring z : RedBlackTree K V M).root = 1 := rfl
  have hrg : ∀ {i r : Nat}, 1 ≤ i → i ≤ M → (hr : r < 4) → (ring z : RedBlackTree K V M).rg i r = (ringNode z i).registers[r] :=
    fun h1 h2 hr => NodeAllocator.reg_twoNodes _ h1 h2 hr
  have hA := NodeAllocator.ainv_twoNodes (M := M) (ringNode z) (by rw [NodeAllocator.usable_eq hM']; omega)
  cases lim with
  | zero => simp [remove, removeLoop, hroot, SENTINEL]
  | succ n =>
    have hn : (ring z : RedBlackTree K V M).getNode 1 = .ok z := by
      simp only [getNode, NodeAllocator.getValue, ring, NodeAllocator.get_twoNodes (ringNode z) (Nat.le_refl 1) (show 1 ≤ M by omega)]
      rfl
    have hl : (ring z : RedBlackTree K V M).getLeft 1 = .ok 2 := by rw [getLeft_ok (by omega), hrg (by omega) (by omega) (by omega)]; rfl
    have hr : (ring z : RedBlackTree K V M).getRight 1 = .ok 0 := by rw [getRight_ok (by omega), hrg (by omega) (by omega) (by omega)]; rfl
    have hb : (ring z : RedBlackTree K V M).isBlack 1 = .ok true := by rw [isBlack_ok (by omega), hrg (by omega) (by omega) (by omega)]; rfl
    have hp : (ring z : RedBlackTree K V M).getParent 1 = .ok 2 := by rw [getParent_ok (by omega), hrg (by omega) (by omega) (by omega)]; rfl
    have hcd : (ring z : RedBlackTree K V M).childDir 2 1 = .ok 0 :=
      childDir_ok (by omega) false (by rw [Bool.toNat_false, hrg (by omega) (by omega) (by omega)]; rfl)
        (by rw [Bool.not_false, Bool.toNat_true, hrg (by omega) (by omega) (by omega)]; simp [ringNode])
    have hleaf : (ring z : RedBlackTree K V M).isLeaf 1 = .ok false := by simp [isLeaf, hl, SENTINEL]
    let s1 : RedBlackTree K V M := ⟨1, ((ring z : RedBlackTree K V M).allocator.setReg 2 0 2).setReg 2 2 2⟩
    have htr : (ring z : RedBlackTree K V M).transplant 1 2 = .ok s1 := by
      have := connect_ok (s := (ring z : RedBlackTree K V M)) (p := 2) (q := 2) (by omega) (by omega) false
      simp only [transplant, hp, except_bind_ok, SENTINEL, hcd]
      exact this
    let a2 := (((s1.allocator.setReg 1 2 0).setReg 1 3 0).setReg 1 0 0).setReg 1 1 0
    have hA2 : NodeAllocator.AInv a2 [] [1, 2] :=
      (((((hA.setReg 0 2 (by simp)).setReg 2 2 (by simp)).setReg 2 0 (by simp)).setReg 3 0 (by simp)).setReg 0 0 (by simp)).setReg
        1 0 (by simp)
    obtain ⟨a3, w, hrm, _, _, hreg, _⟩ := NodeAllocator.removeNode_spec hA2 (by decide) (i := 1) (by simp)
    have hral : s1.removeAllocatorNode 1 = .ok ⟨1, a3⟩ := by
      unfold removeAllocatorNode
      rw [NodeAllocator.clearRegister_ok _ (by omega) (by simp [PARENT])]
      simp only [except_bind_ok]
      rw [NodeAllocator.clearRegister_ok _ (by omega) (by simp [COLOR])]
      simp only [except_bind_ok]
      rw [NodeAllocator.clearRegister_ok _ (by omega) (by simp [LEFT])]
      simp only [except_bind_ok]
      rw [NodeAllocator.clearRegister_ok _ (by omega) (by simp [RIGHT])]
      simp only [except_bind_ok]
      have : (((((s1.allocator.setReg 1 PARENT 0).setReg 1 COLOR 0).setReg 1 LEFT 0).setReg 1 RIGHT 0).removeNode 1) = .ok (a3, some w) := hrm
      rw [this]; rfl
    let s3 : RedBlackTree K V M := ⟨1, a3⟩
    have r : ∀ q, s3.rg 2 q = if q = 2 then 2 else if q = 0 then 2 else (ring z : RedBlackTree K V M).rg 2 q := by
      intro q
      show a3.reg 2 q = _
      rw [hreg, if_neg (by simp)]
      show ((((((((ring z : RedBlackTree K V M).allocator.setReg 2 0 2).setReg 2 2 2).setReg 1 2 0).setReg 1 3 0).setReg 1 0 0).setReg 1 1 0).reg 2 q) = _
      rw [rset _ (by omega) (by omega), rset _ (by omega) (by omega), rset _ (by omega) (by omega), rset _ (by omega) (by omega),
        rset _ (by omega) (by omega), rset _ (by omega) (by omega)]
      simp
    have q0 : s3.rg 2 0 = 2 := by rw [r]; simp
    have q2 : s3.rg 2 2 = 2 := by rw [r]; simp
    have q1 : s3.rg 2 1 = 0 := by rw [r]; simp; rw [hrg (by omega) (by omega) (by omega)]; rfl
    have q3 : s3.rg 2 3 = 0 := by rw [r]; simp; rw [hrg (by omega) (by omega) (by omega)]; rfl
    have f1 : s3.getParent 2 = .ok 2 := by rw [getParent_ok (by omega), q2]
    have f2 : s3.childDir 2 2 = .ok 0 := childDir_ok (by omega) false q0 (by simp [q1])
    have fx : s3.fixRemove 2 none (n + 1) = .error .diverge := by
      simp only [fixRemove, f1, f2, except_bind_ok, Option.getD_none]
      exact own_fix hM (by simp [s3]) q0 q1 q2 q3 _
    have ir : s3.isRoot 2 = false := by simp [isRoot, s3]
    have ht : (ring z : RedBlackTree K V M).removeTreeNode 1 (n + 1) = .error .diverge := by
      have hral' : s1.removeAllocatorNode 1 = .ok s3 := hral
      simp [removeTreeNode, hb, hl, hr, hleaf, SENTINEL, htr, hral', ir, fx]
    simp [remove, removeLoop, hroot, SENTINEL, hn, hk, ht]

theorem ring_get [Ord K] {z : RBNode K V} {k : K} (hk : compare k z.key = .eq) (hM : 1 ≤ M) :
    (ring z : RedBlackTree K V M).get k = .ok (some z.value) := by
  have hroot : (ring z : RedBlackTree K V M).root = 1 := rfl
  have hn : (ring z : RedBlackTree K V M).getNode 1 = .ok z := by
    simp only [getNode, NodeAllocator.getValue, ring, NodeAllocator.get_twoNodes (ringNode z) (Nat.le_refl 1) hM]
    rfl
  simp [get, getAddr, getAddrLoop, hroot, SENTINEL, hn, hk]

theorem loop_isRed {z : RBNode K V} (hM : 1 ≤ M) : (loop z : RedBlackTree K V M).isRed 1 = .ok false := by
  have h3 : (loop z : RedBlackTree K V M).getColor 1 = .ok 0 := NodeAllocator.getRegister_ofNodes _ (Nat.le_refl 1) hM
  simp only [isRed]; rw [show (loop z : RedBlackTree K V M).allocator.getRegister 1 COLOR = .ok 0 from h3]; rfl

/-- The check of the tree runs round and round on a black node that is its own right child. -/
theorem loop_valid {z : RBNode K V} (hM : 1 ≤ M) (n c : Nat) :
    (loop z : RedBlackTree K V M).validLoop n [(1, c)] [] = .error .diverge := by
  induction n generalizing c with
  | zero => rfl
  | succ n ih =>
    have h0 : (loop z : RedBlackTree K V M).getLeft 1 = .ok 0 := NodeAllocator.getRegister_ofNodes _ (Nat.le_refl 1) hM
    have h1 : (loop z : RedBlackTree K V M).getRight 1 = .ok 1 := NodeAllocator.getRegister_ofNodes _ (Nat.le_refl 1) hM
    have h3 : (loop z : RedBlackTree K V M).getColor 1 = .ok 0 := NodeAllocator.getRegister_ofNodes _ (Nat.le_refl 1) hM
    have h4 : (loop z : RedBlackTree K V M).isBlack 1 = .ok true := by
      simp only [isBlack]; rw [show (loop z : RedBlackTree K V M).allocator.getRegister 1 COLOR = .ok 0 from h3]; rfl
    have h5 : (loop z : RedBlackTree K V M).isRed 1 = .ok false := loop_isRed hM
    simp [validLoop, isLeaf, redPair, h0, h1, h4, h5, SENTINEL, ih]

end RedBlackTree
end Sokoban
