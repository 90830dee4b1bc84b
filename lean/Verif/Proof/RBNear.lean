import Verif.Proof.Near
import Verif.Model.RedBlack

/-
How many nodes a call of a red-black tree re-links. Nothing is assumed about the state.
-/
namespace Sokoban.RedBlackTree
open NodeAllocator
variable {K V : Type} {M : Nat} {s s' s'' : RedBlackTree K V M} {S S' : List Nat}

/-- outside `S` the links and the entries are the same -/
abbrev Links (S : List Nat) (s s' : RedBlackTree K V M) : Prop := Same (· ≠ COLOR) S s.allocator s'.allocator

/-- links and entries are the same but for `n` nodes -/
def Near (n : Nat) (s s' : RedBlackTree K V M) : Prop := ∃ S : List Nat, S.length ≤ n ∧ Links S s s'

theorem Near.refl (n : Nat) : Near n s s := ⟨[], Nat.zero_le _, Same.refl⟩

theorem _root_.Sokoban.NodeAllocator.Same.near (h : Links S s s') : Near S.length s s' := ⟨S, Nat.le_refl _, h⟩

theorem Near.trans {n m : Nat} (h : Near n s s') (h' : Near m s' s'') : Near (n + m) s s'' := by
  obtain ⟨S, h1, h2⟩ := h
  obtain ⟨S', k1, k2⟩ := h'
  exact ⟨S ++ S', by simp; omega, h2.trans k2⟩

theorem Near.mono {n m : Nat} (h : Near n s s') (hn : n ≤ m) : Near m s s' := by
  obtain ⟨S, h1, h2⟩ := h
  exact ⟨S, by omega, h2⟩

theorem links_setColor {i v : Nat} (h : (do
    return { s with allocator := ← s.allocator.setRegister i v COLOR } : R (RedBlackTree K V M)) = .ok s') : Links [] s s' := by
  obtain ⟨a, h1, h2⟩ := ok_bind h
  cases h2
  exact Same.setRegister_other (by simp) h1

theorem links_colorRed {i : Nat} (h : s.colorRed i = .ok s') : Links [] s s' := by
  unfold colorRed at h
  split at h
  · exact links_setColor h
  · cases h; exact Same.refl

theorem links_colorBlack {i : Nat} (h : s.colorBlack i = .ok s') : Links [] s s' := links_setColor h

theorem links_colorNode {i v : Nat} (h : s.colorNode i v = .ok s') : Links [] s s' := links_setColor h

theorem links_connect {i j d : Nat} (h : s.connect i j d = .ok s') : Links [i, j] s s' := by
  unfold connect at h
  obtain ⟨a, h1, h2⟩ := ok_bind h
  cases h2
  exact Same.connect h1

theorem near_rotateDir {i d : Nat} {o : Option Nat} (h : s.rotateDir i d = .ok (s', o)) : Near 4 s s' := by
  unfold rotateDir at h
  obtain ⟨g, hg, h⟩ := ok_bind h
  split at h
  · cases h; exact .refl _
  obtain ⟨b, hb, h⟩ := ok_bind h
  split at h
  · cases h; exact .refl _
  obtain ⟨c, hc, h⟩ := ok_bind h
  obtain ⟨s1, h1, h⟩ := ok_bind h
  obtain ⟨s2, h2, h⟩ := ok_bind h
  refine ⟨[g, i, b, c], by simp, ?_⟩
  have h12 := (links_connect h1).trans (links_connect h2)
  split at h
  · obtain ⟨d', hd, h⟩ := ok_bind h
    obtain ⟨s3, h3, h⟩ := ok_bind h
    cases h
    exact (h12.trans (links_connect h3)).mono (by intro x hx; simp at hx ⊢; omega)
  · obtain ⟨a3, h3, h⟩ := ok_bind h
    cases h
    exact (h12.trans (Same.clearRegister h3)).mono (by intro x hx; simp at hx ⊢; omega)

theorem links_transplant {i j : Nat} (h : s.transplant i j = .ok s') : ∃ p, Links [p, j] s s' := by
  unfold transplant at h
  obtain ⟨p, hp, h⟩ := ok_bind h
  refine ⟨p, ?_⟩
  split at h
  · obtain ⟨a, ha, h⟩ := ok_bind h
    cases h
    exact (Same.setRegister ha).mono (by simp)
  · obtain ⟨d, hd, h⟩ := ok_bind h
    exact links_connect h

theorem links_removeAllocatorNode {i : Nat} (h : s.removeAllocatorNode i = .ok s') : Links [i] s s' := by
  unfold removeAllocatorNode at h
  obtain ⟨a1, h1, h⟩ := ok_bind h
  obtain ⟨a2, h2, h⟩ := ok_bind h
  obtain ⟨a3, h3, h⟩ := ok_bind h
  obtain ⟨a4, h4, h⟩ := ok_bind h
  obtain ⟨⟨a5, o⟩, h5, h⟩ := ok_bind h
  cases h
  exact (((((Same.clearRegister h1).trans (Same.clearRegister h2)).trans (Same.clearRegister h3)).trans
    (Same.clearRegister h4)).trans (Same.removeNode h5)).mono (by simp)

/-- the new node below its parent -/
theorem links_setNodeValue {i : Nat} {v : V} (h : s.setNodeValue i v = .ok s') : Links [i] s s' := by
  unfold setNodeValue at h
  obtain ⟨n, hn, h⟩ := ok_bind h
  obtain ⟨a, ha, h⟩ := ok_bind h
  cases h
  exact Same.setValue ha

end Sokoban.RedBlackTree
