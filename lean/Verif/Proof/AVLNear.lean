import Verif.Proof.Near
import Verif.Model.AVL

/-
How many nodes the rotations of an AVL tree re-link. Nothing is assumed about the state.
-/
namespace Sokoban.AVLTree
open NodeAllocator
variable {K V : Type} {M : Nat} {s s' s'' : AVLTree K V M} {S S' : List Nat}

/-- outside `S` the links and the entries are the same -/
abbrev Links (S : List Nat) (s s' : AVLTree K V M) : Prop := Same (· ≠ HEIGHT) S s.allocator s'.allocator

/-- links and entries are the same but for `n` nodes -/
def Near (n : Nat) (s s' : AVLTree K V M) : Prop := ∃ S : List Nat, S.length ≤ n ∧ Links S s s'

theorem Near.refl (n : Nat) : Near n s s := ⟨[], Nat.zero_le _, Same.refl⟩

theorem near_links (h : Links S s s') : Near S.length s s' := ⟨S, Nat.le_refl _, h⟩

theorem Near.trans {n m : Nat} (h : Near n s s') (h' : Near m s' s'') : Near (n + m) s s'' := by
  obtain ⟨S, h1, h2⟩ := h
  obtain ⟨S', k1, k2⟩ := h'
  exact ⟨S ++ S', by simp; omega, h2.trans k2⟩

theorem Near.mono {n m : Nat} (h : Near n s s') (hn : n ≤ m) : Near m s s' := by
  obtain ⟨S, h1, h2⟩ := h
  exact ⟨S, by omega, h2⟩

theorem links_setHeight {i v : Nat} (h : s.setHeight i v = .ok s') : Links [] s s' := by
  unfold setHeight at h
  split at h
  · obtain ⟨a, h1, h2⟩ := ok_bind h
    cases h2
    exact Same.setRegister_other (by simp) h1
  · cases h; exact Same.refl

theorem links_updateHeight {i : Nat} (h : s.updateHeight i = .ok s') : Links [] s s' := by
  unfold updateHeight at h
  obtain ⟨_, _, h⟩ := ok_bind h
  obtain ⟨_, _, h⟩ := ok_bind h
  obtain ⟨_, _, h⟩ := ok_bind h
  exact links_setHeight h

theorem links_setField {i r v : Nat} (h : s.setField i r v = .ok s') : Links [i] s s' := by
  unfold setField at h
  split at h
  · obtain ⟨a, h1, h⟩ := ok_bind h
    dsimp only at h
    split at h
    · exact (Same.trans (Same.setRegister h1) (links_updateHeight h)).mono (by simp)
    · cases h; exact Same.setRegister h1
  · cases h; exact Same.refl

theorem near_leftRotate {i j : Nat} (h : s.leftRotate i = .ok (s', j)) : Near 2 s s' := by
  unfold leftRotate at h
  obtain ⟨r, _, h⟩ := ok_bind h
  obtain ⟨l, _, h⟩ := ok_bind h
  obtain ⟨s1, h1, h⟩ := ok_bind h
  obtain ⟨s2, h2, h⟩ := ok_bind h
  cases h
  exact near_links ((links_setField h1).trans (links_setField h2))

theorem near_rightRotate {i j : Nat} (h : s.rightRotate i = .ok (s', j)) : Near 2 s s' := by
  unfold rightRotate at h
  obtain ⟨r, _, h⟩ := ok_bind h
  obtain ⟨l, _, h⟩ := ok_bind h
  obtain ⟨s1, h1, h⟩ := ok_bind h
  obtain ⟨s2, h2, h⟩ := ok_bind h
  cases h
  exact near_links ((links_setField h1).trans (links_setField h2))

theorem near_rebalanceNode {i : Nat} {o : Option Nat} (h : s.rebalanceNode i = .ok (s', o)) :
    (o = none → Near 0 s s') ∧ Near 5 s s' := by
  unfold rebalanceNode at h
  obtain ⟨l, _, h⟩ := ok_bind h
  obtain ⟨r, _, h⟩ := ok_bind h
  obtain ⟨b, _, h⟩ := ok_bind h
  split at h
  · obtain ⟨_, _, h⟩ := ok_bind h
    obtain ⟨_, _, h⟩ := ok_bind h
    obtain ⟨_, _, h⟩ := ok_bind h
    obtain ⟨s1, h1, h⟩ := ok_bind h
    obtain ⟨⟨s2, j⟩, h2, h⟩ := ok_bind h
    cases h
    refine ⟨by rintro ⟨⟩, ?_⟩
    have e1 : Near 3 s s1 := by
      split at h1
      · obtain ⟨⟨s3, k⟩, h3, h1⟩ := ok_bind h1
        exact (near_leftRotate h3).trans (near_links (links_setField h1))
      · cases h1; exact .refl _
    exact e1.trans (near_rightRotate h2)
  split at h
  · obtain ⟨_, _, h⟩ := ok_bind h
    obtain ⟨_, _, h⟩ := ok_bind h
    obtain ⟨_, _, h⟩ := ok_bind h
    obtain ⟨s1, h1, h⟩ := ok_bind h
    obtain ⟨⟨s2, j⟩, h2, h⟩ := ok_bind h
    cases h
    refine ⟨by rintro ⟨⟩, ?_⟩
    have e1 : Near 3 s s1 := by
      split at h1
      · obtain ⟨⟨s3, k⟩, h3, h1⟩ := ok_bind h1
        exact (near_rightRotate h3).trans (near_links (links_setField h1))
      · cases h1; exact .refl _
    exact e1.trans (near_leftRotate h2)
  · obtain ⟨s1, h1, h⟩ := ok_bind h
    cases h
    have e1 : Near 0 s s' := near_links (links_updateHeight h1)
    exact ⟨fun _ => e1, e1.mono (by omega)⟩

end Sokoban.AVLTree
