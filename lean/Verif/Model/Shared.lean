import Verif.Model.RedBlack
import Verif.Model.AVL
import Verif.Model.HashTable
import Verif.Model.Deque
import Verif.Model.Critbit

/-
Assignments to the public fields of the structures by client code. The allocators are private in the three trees, `allocator`
is public in `HashTable`; `root`, `buckets`, and `head` and `tail` of the deque, are public.
-/
namespace Sokoban

/-- `t.root = r` by a client: `pub root: u32` (red_black_tree.rs:73). -/
def RedBlackTree.setRoot {K V : Type} {M : Nat} (t : RedBlackTree K V M) (r : Nat) : RedBlackTree K V M :=
  { t with root := r }

/-- `t.root = r` by a client: `pub root: u64` (avl_tree.rs:71). -/
def AVLTree.setRoot {K V : Type} {M : Nat} (t : AVLTree K V M) (r : Nat) : AVLTree K V M :=
  { t with root := r }

/-- `t.root = r` by a client: `pub root: u32` (critbit.rs:39). -/
def Critbit.setRoot {V : Type} {N M : Nat} (t : Critbit V N M) (r : Nat) : Critbit V N M := { t with root := r }

/-- `h.buckets = b` by a client: `pub buckets: [u32; NUM_BUCKETS]` (hash_table.rs:53). -/
def HashTable.setBuckets {K V : Type} {B M : Nat} (h : HashTable K V B M) (b : Vector Nat B) : HashTable K V B M :=
  { h with buckets := b }

/-- `(d.head, d.tail)` as a client sees them: `pub head: u32`, `pub tail: u32` (deque.rs:14-15). -/
def Deque.ends {T : Type} {M : Nat} (d : Deque T M) : Nat × Nat := (d.head, d.tail)

/-- `d.head = e.0; d.tail = e.1` by a client (deque.rs:14-15). -/
def Deque.setEnds {T : Type} {M : Nat} (d : Deque T M) (e : Nat × Nat) : Deque T M := { d with head := e.1, tail := e.2 }

end Sokoban
