/-
What is known about the free list of an allocator and about slots which are in use elsewhere: a class, so that
representations can speak of it or not.
-/
namespace Sokoban

/-- What a statement says about the free list: nothing, or that it is a certain list (the slot freed last comes
first); and which slots are in use although the structure does not reach them (`lost`), with their registers and
values. Passed as an instance so that the statements which do not care need not mention it. -/
class Known where
  list : Option (List Nat)
  lost : List Nat
  reg : Nat → Nat → Nat
  val : Nat → Option ((T : Type) × T)

/-- by default nothing is said -/
instance (priority := low) Known.nothing : Known := ⟨none, [], fun _ _ => 0, fun _ => none⟩

/-- the list which is known -/
@[reducible] def Known.exactly (F : List Nat) : Known := ⟨some F, [], fun _ _ => 0, fun _ => none⟩

/-- the same without the free list -/
@[reducible] def Known.quiet (c : Known) : Known := ⟨none, c.lost, c.reg, c.val⟩

/-- after an allocation -/
@[reducible] def Known.pop (c : Known) : Known := ⟨c.list.map List.tail, c.lost, c.reg, c.val⟩

/-- after `i` was freed -/
@[reducible] def Known.push (c : Known) (i : Nat) : Known := ⟨c.list.map (i :: ·), c.lost, c.reg, c.val⟩

/-- after the slot `o` was freed, if there is one -/
@[reducible] def Known.free (c : Known) : Option Nat → Known
  | none => c
  | some i => c.push i

/-- after an insertion at `i`, `live` being the slots in use before: nothing happens if `i` is among them -/
@[reducible] def Known.ins (c : Known) (live : List Nat) (i : Nat) : Known :=
  ⟨c.list.map fun F => if i ∈ live then F else F.tail, c.lost, c.reg, c.val⟩

theorem Known.ins_old (c : Known) {live : List Nat} {i : Nat} (h : i ∈ live) : c.ins live i = c := by
  obtain ⟨l, _, _, _⟩ := c
  simp [Known.ins, h]

theorem Known.ins_new (c : Known) {live : List Nat} {i : Nat} (h : i ∉ live) : c.ins live i = c.pop := by
  obtain ⟨l, _, _, _⟩ := c
  simp only [Known.ins, h, if_false]; rfl

/-- register 2 of the slots in use elsewhere (the height, in an AVL tree) is small -/
class Known.Low (c : Known) : Prop where
  low : ∀ i ∈ c.lost, c.reg i 2 ≤ 64

instance : Known.nothing.Low := ⟨fun _ h => nomatch h⟩
instance (F : List Nat) : (Known.exactly F).Low := ⟨fun _ h => nomatch h⟩
instance (c : Known) [h : c.Low] : c.quiet.Low := ⟨h.low⟩
instance (c : Known) [h : c.Low] : c.pop.Low := ⟨h.low⟩
instance (c : Known) [h : c.Low] (i : Nat) : (c.push i).Low := ⟨h.low⟩
instance (c : Known) [h : c.Low] (o : Option Nat) : (c.free o).Low := ⟨by cases o <;> exact h.low⟩
instance (c : Known) [h : c.Low] (live : List Nat) (i : Nat) : (c.ins live i).Low := ⟨h.low⟩

/-- the list agrees with what is known -/
def Known.Ok (c : Known) (free : List Nat) : Prop := ∀ F, c.list = some F → free = F

theorem Known.Ok.pop {c : Known} {free : List Nat} (h : c.Ok free) : c.pop.Ok free.tail := by
  intro F hF
  obtain ⟨G, hG, rfl⟩ := Option.map_eq_some_iff.1 hF
  rw [h G hG]

theorem Known.Ok.push {c : Known} {free : List Nat} (h : c.Ok free) (i : Nat) : (c.push i).Ok (i :: free) := by
  intro F hF
  obtain ⟨G, hG, rfl⟩ := Option.map_eq_some_iff.1 hF
  rw [h G hG]

theorem Known.quiet_ok (c : Known) (free : List Nat) : c.quiet.Ok free := fun _ h => by cases h

theorem Known.nothing_ok (free : List Nat) : Known.nothing.Ok free := fun _ h => by cases h

end Sokoban
