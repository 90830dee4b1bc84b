import Verif.Proof.Alloc
import Verif.Proof.Intact

/-
Ghost binary trees labelled with node indices, and zippers.
-/
namespace Sokoban

/-- a ghost node: index, content of the bookkeeping register (colour / height), key, value -/
structure GN (K V : Type) where
  idx : Nat
  tag : Nat
  key : K
  val : V

namespace GN
variable {K V : Type}
/-- the entry in a node -/
def ent (x : GN K V) : Nat × K × V := (x.idx, x.key, x.val)
/-- change the tag -/
def setTag (x : GN K V) (v : Nat) : GN K V := { x with tag := v }
@[simp] theorem idx_setTag (x : GN K V) (v : Nat) : (x.setTag v).idx = x.idx := rfl
@[simp] theorem tag_setTag (x : GN K V) (v : Nat) : (x.setTag v).tag = v := rfl
@[simp] theorem key_setTag (x : GN K V) (v : Nat) : (x.setTag v).key = x.key := rfl
@[simp] theorem ent_setTag (x : GN K V) (v : Nat) : (x.setTag v).ent = x.ent := rfl
@[simp] theorem setTag_self (x : GN K V) : x.setTag x.tag = x := rfl
@[simp] theorem ent_fst (x : GN K V) : x.ent.1 = x.idx := rfl
end GN

/-- ghost binary tree -/
inductive BT (K V : Type) where
  | nil
  | node (l : BT K V) (x : GN K V) (r : BT K V)

/-- zipper context, innermost frame first: (direction of the hole, node, other child) -/
abbrev Ctx (K V : Type) := List (Bool × GN K V × BT K V)

namespace BT
variable {K V : Type}

/-- index of the root, 0 for the empty tree -/
def root : BT K V → Nat
  | nil => 0
  | node _ x _ => x.idx

/-- entries in order -/
def ents : BT K V → List (Nat × K × V)
  | nil => []
  | node l x r => l.ents ++ x.ent :: r.ents

/-- node indices -/
def ids (t : BT K V) : List Nat := t.ents.map Prod.fst

/-- number of nodes on a longest path -/
def height : BT K V → Nat
  | nil => 0
  | node l _ r => max l.height r.height + 1

/-- node with child `a` in direction `d` and `b` in the other one -/
def br (d : Bool) (a : BT K V) (x : GN K V) (b : BT K V) : BT K V :=
  if d then node b x a else node a x b

@[simp] theorem root_nil : (nil : BT K V).root = 0 := rfl
@[simp] theorem root_node (l : BT K V) (x : GN K V) (r : BT K V) : (node l x r).root = x.idx := rfl
@[simp] theorem root_br (d : Bool) (a : BT K V) (x : GN K V) (b : BT K V) : (br d a x b).root = x.idx := by
  cases d <;> rfl
@[simp] theorem br_false (a : BT K V) (x : GN K V) (b : BT K V) : br false a x b = node a x b := rfl
@[simp] theorem br_true (a : BT K V) (x : GN K V) (b : BT K V) : br true a x b = node b x a := rfl
theorem br_not (d : Bool) (a : BT K V) (x : GN K V) (b : BT K V) : br (!d) a x b = br d b x a := by
  cases d <;> rfl
theorem br_ne_nil (d : Bool) (a : BT K V) (x : GN K V) (b : BT K V) : br d a x b ≠ nil := by
  cases d <;> simp

@[simp] theorem ents_nil : (nil : BT K V).ents = [] := rfl
@[simp] theorem ents_node (l : BT K V) (x : GN K V) (r : BT K V) :
    (node l x r).ents = l.ents ++ x.ent :: r.ents := rfl
@[simp] theorem ids_nil : (nil : BT K V).ids = [] := rfl
@[simp] theorem ids_node (l : BT K V) (x : GN K V) (r : BT K V) :
    (node l x r).ids = l.ids ++ x.idx :: r.ids := by simp [ids, GN.ent]

theorem ids_br_perm (d : Bool) (a : BT K V) (x : GN K V) (b : BT K V) :
    (br d a x b).ids.Perm (x.idx :: (a.ids ++ b.ids)) := by
  cases d
  · simp
  · simp only [br_true, ids_node]
    exact List.perm_middle.trans (List.Perm.cons _ List.perm_append_comm)

theorem mem_ids_br {d : Bool} {a : BT K V} {x : GN K V} {b : BT K V} {i : Nat} :
    i ∈ (br d a x b).ids ↔ i = x.idx ∨ i ∈ a.ids ∨ i ∈ b.ids := by
  rw [(ids_br_perm d a x b).mem_iff]; simp

theorem root_mem {t : BT K V} (h : t ≠ nil) : t.root ∈ t.ids := by
  cases t with
  | nil => exact absurd rfl h
  | node l x r => simp

theorem length_ids (t : BT K V) : t.ids.length = t.ents.length := by simp [ids]

theorem height_le (t : BT K V) : t.height ≤ t.ents.length := by
  induction t with
  | nil => simp [height]
  | node l x r ihl ihr => simp [height]; omega

theorem as_br {t : BT K V} (h : t ≠ .nil) (d : Bool) : ∃ a x b, t = br d a x b := by
  cases t with
  | nil => exact absurd rfl h
  | node l x r =>
    cases d
    · exact ⟨l, x, r, rfl⟩
    · exact ⟨r, x, l, rfl⟩

end BT

namespace Ctx
open BT
variable {K V : Type}

/-- fill the hole -/
def plug : Ctx K V → BT K V → BT K V
  | [], t => t
  | (d, x, s) :: c, t => plug c (br d t x s)

/-- index of the node above the hole -/
def par : Ctx K V → Nat
  | [] => 0
  | (_, x, _) :: _ => x.idx

/-- entries left of the hole -/
def lft : Ctx K V → List (Nat × K × V)
  | [] => []
  | (d, x, s) :: c => lft c ++ (if d then s.ents ++ [x.ent] else [])

/-- entries right of the hole -/
def rgt : Ctx K V → List (Nat × K × V)
  | [] => []
  | (d, x, s) :: c => (if d then [] else x.ent :: s.ents) ++ rgt c

/-- indices of the context -/
def cids : Ctx K V → List Nat
  | [] => []
  | (_, x, s) :: c => x.idx :: (s.ids ++ cids c)

theorem ents_plug : ∀ (c : Ctx K V) (t : BT K V), (plug c t).ents = lft c ++ t.ents ++ rgt c
  | [], t => by simp [plug, lft, rgt]
  | (d, x, s) :: c, t => by
    rw [plug, ents_plug c]
    cases d <;> simp [lft, rgt]

theorem perm_ids : ∀ (c : Ctx K V) (t : BT K V),
    ((lft c ++ t.ents ++ rgt c).map Prod.fst).Perm (t.ids ++ cids c)
  | [], t => by simp [lft, rgt, cids, BT.ids]
  | (d, x, s) :: c, t => by
    have ih := perm_ids c (br d t x s)
    have e : lft c ++ (br d t x s).ents ++ rgt c = lft ((d, x, s) :: c) ++ t.ents ++ rgt ((d, x, s) :: c) := by
      cases d <;> simp [lft, rgt]
    rw [← e]
    refine ih.trans ?_
    refine ((ids_br_perm d t x s).append_right (cids c)).trans ?_
    simp only [cids, List.cons_append, List.append_assoc]
    exact List.perm_middle.symm

theorem plug_append : ∀ (c c' : Ctx K V) (t : BT K V), plug (c ++ c') t = plug c' (plug c t)
  | [], c', t => rfl
  | (d, x, s) :: c, c', t => by simp [plug, plug_append c]

theorem length_le (c : Ctx K V) : c.length ≤ (cids c).length := by
  induction c with
  | nil => simp
  | cons f c ih => obtain ⟨d, x, s⟩ := f; simp [cids]; omega

theorem height_plug : ∀ (c : Ctx K V) (t : BT K V), c.length + t.height ≤ (plug c t).height
  | [], t => by simp [plug]
  | (d, x, s) :: c, t => by
    have ih := height_plug c (br d t x s)
    have : t.height + 1 ≤ (br d t x s).height := by cases d <;> simp only [br_true, br_false, height] <;> omega
    simp only [plug, List.length_cons]
    omega

theorem par_mem {c : Ctx K V} (h : c ≠ []) : par c ∈ cids c := by
  cases c with
  | nil => exact absurd rfl h
  | cons f c => obtain ⟨d, x, s⟩ := f; simp [par, cids]

theorem par_append (c c' : Ctx K V) (h : c ≠ []) : par (c ++ c') = par c := by
  cases c with
  | nil => exact absurd rfl h
  | cons f c => obtain ⟨d, x, s⟩ := f; rfl

end Ctx

/-- the child links spell the tree -/
def Links {K V : Type} (reg : Nat → Nat → Nat) : BT K V → Prop
  | .nil => True
  | .node l x r => reg x.idx 0 = l.root ∧ reg x.idx 1 = r.root ∧ Links reg l ∧ Links reg r

end Sokoban

namespace Sokoban
open NodeAllocator

/-- the allocator holds exactly the entries `E` (`f` builds the stored value) and the slots in use elsewhere, and
registers in `S` of other nodes are zero -/
structure Base [kn : Known] {K V T : Type} {M : Nat} (f : K → V → T) (S : Nat → Prop) (a : NodeAllocator T M 4)
    (E : List (Nat × K × V)) : Prop where
  known : ∃ free, kn.Ok free ∧ AInv a free (kn.lost ++ E.map Prod.fst)
  clean : Clean a S (kn.lost ++ E.map Prod.fst)
  vals : ∀ e ∈ E, a.val? e.1 = some (f e.2.1 e.2.2)
  kept : kn.Intact a

namespace Base
variable {K V T : Type} {M : Nat} {f : K → V → T} {S : Nat → Prop} {a : NodeAllocator T M 4}
  {E E' : List (Nat × K × V)}

theorem new (z : T) : Base f S (NodeAllocator.new z : NodeAllocator T M 4) [] :=
  ⟨⟨[], Known.nothing_ok _, new_AInv z⟩, new_Clean z S, by simp, fun _ h => nomatch h⟩

theorem newF (z : T) : Base (kn := .exactly []) f S (NodeAllocator.new z : NodeAllocator T M 4) [] :=
  @Base.mk (.exactly []) _ _ _ _ _ _ _ _ ⟨[], fun _ h => by cases h; rfl, new_AInv z⟩ (new_Clean z S) (by simp)
    (fun _ h => nomatch h)

variable {kn : Known}

theorem inv (h : Base f S a E) : ∃ free, AInv a free (kn.lost ++ E.map Prod.fst) := by
  obtain ⟨free, _, hf⟩ := h.known
  exact ⟨free, hf⟩

theorem forget (h : Base (kn := kn) f S a E) : Base (kn := kn.quiet) f S a E :=
  @Base.mk kn.quiet _ _ _ _ _ _ _ _ (by obtain ⟨free, _, hf⟩ := h.known; exact ⟨free, Known.quiet_ok _ _, hf⟩) h.clean
    h.vals h.kept

theorem nodup (h : Base f S a E) : (E.map Prod.fst).Nodup := by
  obtain ⟨free, hf⟩ := h.inv
  exact (List.nodup_append.1 (List.nodup_append.1 hf.nodup).2.1).2.1

theorem apart (h : Base f S a E) {i : Nat} (hi : i ∈ kn.lost) : i ∉ E.map Prod.fst := by
  obtain ⟨free, hf⟩ := h.inv
  exact fun hc => (List.nodup_append.1 (List.nodup_append.1 hf.nodup).2.1).2.2 i hi i hc rfl

theorem range (h : Base f S a E) {i : Nat} (hi : i ∈ E.map Prod.fst) : 1 ≤ i ∧ i ≤ M := by
  obtain ⟨free, hf⟩ := h.inv
  exact hf.live_range (List.mem_append_right _ hi)

theorem lost_range (h : Base f S a E) {i : Nat} (hi : i ∈ kn.lost) : 1 ≤ i ∧ i ≤ M := by
  obtain ⟨free, hf⟩ := h.inv
  exact hf.live_range (List.mem_append_left _ hi)

theorem sizeL (h : Base f S a E) : a.size = E.length + kn.lost.length := by
  obtain ⟨free, hf⟩ := h.inv
  rw [hf.size, List.length_append, List.length_map, Nat.add_comm]

theorem size (h : Base f S a E) (hL : kn.lost = [] := by rfl) : a.size = E.length := by
  rw [h.sizeL, hL]; rfl

theorem leL (h : Base f S a E) : E.length + kn.lost.length ≤ M := by
  obtain ⟨free, hf⟩ := h.inv
  have := hf.live_le
  rwa [List.length_append, List.length_map, Nat.add_comm] at this

theorem le (h : Base f S a E) : E.length ≤ M := Nat.le_trans (Nat.le_add_right _ _) h.leL

theorem perm (h : Base f S a E) (hp : E.Perm E') : Base f S a E' where
  known := by obtain ⟨free, hk, hf⟩ := h.known; exact ⟨free, hk, hf.perm ((hp.map _).append_left _)⟩
  clean := h.clean.perm ((hp.map _).append_left _)
  vals e he := h.vals e (hp.mem_iff.2 he)
  kept := h.kept

theorem setReg (h : Base f S a E) {i : Nat} (r v : Nat) (hi : i ∈ E.map Prod.fst ∨ i = 0) :
    Base f S (a.setReg i r v) E where
  known := by
    obtain ⟨free, hk, hf⟩ := h.known
    exact ⟨free, hk, hf.setReg r v (hi.imp_left (List.mem_append_right _))⟩
  clean := h.clean.setReg r v (hi.imp_left (List.mem_append_right _))
  vals e he := by rw [val?_setReg]; exact h.vals e he
  kept := by
    refine h.kept.of (fun j hj r' => ?_) (fun j _ => by rw [val?_setReg])
    rw [reg_setReg, if_neg]
    rintro ⟨⟨rfl, _⟩, _⟩
    rcases hi with hi | rfl
    · exact h.apart hj hi
    · have := h.lost_range hj; omega

theorem setVal {L1 L2 : List (Nat × K × V)} {i : Nat} {k : K} {v : V}
    (h : Base f S a (L1 ++ (i, k, v) :: L2)) (w : V) :
    Base f S (a.setVal i (f k w)) (L1 ++ (i, k, w) :: L2) where
  known := by
    obtain ⟨free, hk, hf⟩ := h.known
    refine ⟨free, hk, ?_⟩
    have : (L1 ++ (i, k, w) :: L2).map Prod.fst = (L1 ++ (i, k, v) :: L2).map Prod.fst := by simp
    rw [this]; exact hf.setVal i _
  clean := by
    have : (L1 ++ (i, k, w) :: L2).map Prod.fst = (L1 ++ (i, k, v) :: L2).map Prod.fst := by simp
    rw [this]; exact h.clean.setVal i _
  vals e he := by
    have hr := h.range (i := i) (by simp)
    have hn := h.nodup
    simp only [List.map_append, List.map_cons] at hn
    obtain ⟨_, hn2, hn3⟩ := List.nodup_append.1 hn
    have hne : e ∈ L1 ∨ e ∈ L2 → e.1 ≠ i := by
      rintro (h' | h') rfl
      · exact hn3 e.1 (List.mem_map_of_mem h') e.1 (by simp) rfl
      · exact (List.nodup_cons.1 hn2).1 (List.mem_map_of_mem h')
    rw [val?_setVal]
    simp only [List.mem_append, List.mem_cons] at he
    rcases he with he | rfl | he
    · rw [if_neg (fun hc => hne (Or.inl he) hc.1)]; exact h.vals e (by simp [he])
    · rw [if_pos ⟨rfl, hr⟩]
    · rw [if_neg (fun hc => hne (Or.inr he) hc.1)]; exact h.vals e (by simp [he])
  kept := by
    refine h.kept.of (fun j hj r' => by simp) (fun j hj => ?_)
    rw [val?_setVal, if_neg]
    rintro ⟨rfl, _⟩
    exact h.apart hj (by simp)

theorem addL (h : Base f S a E) (hM : M + 1 < 2 ^ 32) (hlt : E.length + kn.lost.length < M) (k : K) (v : V) :
    ∃ a' i, a.addNode (f k v) = .ok (a', i) ∧ i ∉ E.map Prod.fst ∧ 1 ≤ i ∧ i ≤ M ∧
      Base (kn := kn.pop) f S a' ((i, k, v) :: E) ∧ (∀ r, S r → a'.reg i r = 0) ∧
      (∀ j r, j ≠ i → a'.reg j r = a.reg j r) := by
  obtain ⟨free, hk, hf⟩ := h.known
  obtain ⟨a', i, e, _, h1, h2, h3, h4, h5, h6, h7, _, h8⟩ :=
    addNode_clean hf h.clean hM (by omega) (by rw [List.length_append, List.length_map]; omega) (f k v)
  have hp : (i :: (kn.lost ++ E.map Prod.fst)).Perm (kn.lost ++ i :: E.map Prod.fst) := List.perm_middle.symm
  have hne : ∀ j ∈ kn.lost, j ≠ i := by
    rintro j hj rfl
    exact h1 (List.mem_append_left _ hj)
  refine ⟨a', i, e, fun hc => h1 (List.mem_append_right _ hc), h2, h3,
    @Base.mk kn.pop _ _ _ _ _ _ _ _ ⟨_, hk.pop, h4.perm hp⟩ (h5.perm hp) ?_
      (Known.Intact.of (kn := kn.pop) (a := a) h.kept (fun j hj r => h7 j r (hne j hj)) fun j hj => by rw [h8, if_neg (hne j hj)]), h6, h7⟩
  intro e he
  rcases List.mem_cons.1 he with rfl | he'
  · rw [h8, if_pos rfl]
  · rw [h8, if_neg]
    · exact h.vals e he'
    · rintro rfl; exact h1 (List.mem_append_right _ (List.mem_map_of_mem he'))

theorem add (h : Base f S a E) (hM : M + 1 < 2 ^ 32) (hlt : E.length < M) (k : K) (v : V)
    (hL : kn.lost = [] := by rfl) :
    ∃ a' i, a.addNode (f k v) = .ok (a', i) ∧ i ∉ E.map Prod.fst ∧ 1 ≤ i ∧ i ≤ M ∧
      Base (kn := kn.pop) f S a' ((i, k, v) :: E) ∧ (∀ r, S r → a'.reg i r = 0) ∧
      (∀ j r, j ≠ i → a'.reg j r = a.reg j r) :=
  h.addL hM (by rw [hL]; exact hlt) k v

theorem fullL (h : Base f S a E) (hM : M + 1 < 2 ^ 32) (hfull : E.length + kn.lost.length = M) (x : T) :
    a.addNode x = .error .bufferFull := by
  obtain ⟨free, hf⟩ := h.inv
  exact addNode_full hf hM (by rw [List.length_append, List.length_map]; omega) x

theorem full (h : Base f S a E) (hM : M + 1 < 2 ^ 32) (hfull : E.length = M) (x : T) (hL : kn.lost = [] := by rfl) :
    a.addNode x = .error .bufferFull := h.fullL hM (by rw [hL]; exact hfull) x

theorem remove {i : Nat} {k : K} {v : V} (h : Base f S a ((i, k, v) :: E))
    (hz : ∀ r, S r → r ≠ 0 → a.reg i r = 0) :
    ∃ a', a.removeNode i = .ok (a', some (f k v)) ∧ Base (kn := kn.push i) f S a' E ∧
      (∀ j r, j ≠ i → a'.reg j r = a.reg j r) := by
  obtain ⟨free, hk, hf⟩ := h.known
  obtain ⟨a', w, e, h1, h2, h3, _, h4, _, h5⟩ :=
    removeNode_clean hf h.clean (by omega) (i := i) (by simp) hz
  have hv := h.vals (i, k, v) (by simp)
  rw [h1] at hv; cases hv
  have hi : i ∉ kn.lost := fun hc => h.apart hc (by simp)
  simp only [List.map_cons, List.erase_append_right _ hi, List.erase_cons_head] at h2 h3
  exact ⟨a', e, @Base.mk (kn.push i) _ _ _ _ _ _ _ _ ⟨_, hk.push i, h2⟩ h3
    (fun e he => by rw [h5]; exact h.vals e (by simp [he]))
    (Known.Intact.of (kn := kn.push i) (a := a) h.kept (fun j hj r => h4 j r (by rintro rfl; exact hi hj)) fun j _ => h5 j), h4⟩

end Base
section
open Ctx
variable {K V : Type}

theorem Ctx.cids_append : ∀ (c c' : Ctx K V), cids (c ++ c') = cids c ++ cids c'
  | [], _ => rfl
  | (d, x, s) :: c, c' => by simp [cids, cids_append c]

theorem Ctx.lft_append : ∀ (c c' : Ctx K V), lft (c ++ c') = lft c' ++ lft c
  | [], c' => by simp [lft]
  | (d, x, s) :: c, c' => by simp [lft, lft_append c]

theorem Ctx.rgt_append : ∀ (c c' : Ctx K V), rgt (c ++ c') = rgt c ++ rgt c'
  | [], c' => by simp [rgt]
  | (d, x, s) :: c, c' => by simp [rgt, rgt_append c]

end

end Sokoban
