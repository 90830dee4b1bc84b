import Verif.Proof.InPlaceCritbit
import Verif.Proof.Uninit

/-
For C83: the in-place `add_node` on zeroed memory, and agreement of the in-place insertions with those of the model.
-/
namespace Sokoban.InPlace
variable {T K V : Type} {B M N : Nat}

theorem addNode_zeroed (hM : (M + 1) % 2 ^ 32 ≠ 0) (z v : T) :
    Alloc.addNode v (NodeAllocator.zeroed z : NodeAllocator T M N) = .error .indexOutOfBounds (NodeAllocator.new z) := by
  unfold Alloc.addNode NodeAllocator.zeroed
  simp only [run_bind, run_get, run_ite, if_true]
  rw [if_neg (fun h => hM h.symm)]
  rfl

theorem func_rbInsert [Ord K] (k : K) (v : V) (t : RedBlackTree K V M) : func (rbInsert k v) t = t.insert k v := by
  unfold rbInsert
  inplace'
  split
  · unfold RedBlackTree.insert; rw [if_pos ‹_›]; rfl
  · rfl

theorem func_avlInsert [LT K] [DecidableLT K] [PartialGt K] (k : K) (v : V) (t : AVLTree K V M) :
    func (avlInsert k v) t = t.insert k v := by
  unfold avlInsert
  inplace'
  split
  · unfold AVLTree.insert; rw [if_pos ‹_›]; rfl
  · rfl

theorem func_hashInsert [BEq K] (hash : K → Nat) (k : K) (v : V) (t : HashTable K V B M) :
    func (hashInsert hash k v) t = t.insert hash k v := by
  unfold hashInsert HashTable.insert
  inplace'

end Sokoban.InPlace
