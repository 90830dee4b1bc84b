import Verif.Spec.Deque
import Verif.Spec.Shared
import Verif.Model.Shared

/-
Several queues in the memory of one deque. A client keeps `head` and `tail` for each of its queues, and assigns the ones
of the queue it wants to work with before it calls.
-/
namespace Sokoban.Queues
open Shared (Client)
variable {n M : Nat} {T : Type}

/-- What a client does: call a method, or go to the queue with number `j`. -/
inductive Op (n : Nat) (T : Type) where
  | call (op : DequeSpec.Op T)
  | switch (j : Fin n)

/-- What it gets. -/
inductive Out (T : Type) where
  | did (o : DequeSpec.Out T)
  | switched
deriving DecidableEq

/-- One action of the client. -/
def exec (c : Client n (Deque T M) (Nat × Nat)) : Op n T → R (Client n (Deque T M) (Nat × Nat) × Out T)
  | .call op => do let (d, o) ← DequeSpec.call c.state op; return ({ c with state := d }, .did o)
  | .switch j => return (c.switch Deque.ends Deque.setEnds j, .switched)

/-- Several plain queues (front first) of which one is in place. -/
structure Lists (n : Nat) (T : Type) where
  queues : Fin n → List T
  cur : Fin n

/-- all elements of all queues -/
def Lists.total (x : Lists n T) : Nat := ((List.finRange n).map fun j => (x.queues j).length).sum

/-- the elements of the queues which are not in place -/
def Lists.others (x : Lists n T) : Nat := x.total - (x.queues x.cur).length

/-- One action on the plain queues: a call is a call on the queue in place alone, whose capacity is what the others leave;
`none`: a push when there is no room. -/
def step (maxSize : Nat) (x : Lists n T) : Op n T → Option (Lists n T × Out T)
  | .call op => (DequeSpec.step (maxSize - x.others) (x.queues x.cur) op).map fun (l, o) =>
      (⟨fun j => if j = x.cur then l else x.queues j, x.cur⟩, .did o)
  | .switch j => some (⟨x.queues, j⟩, .switched)

/-- 1 if the action changed a queue, else 0 -/
def changed : Op n T → Out T → Nat
  | .call op, .did o => DequeSpec.changed op o
  | _, _ => 0

/-- Number of actions that changed a queue. -/
def mutations : List (Op n T) → List (Out T) → Nat
  | op :: ops, o :: os => changed op o + mutations ops os
  | _, _ => 0

/-- A deque shows the queue `l`: at both ends, and by iteration from both ends. -/
def Shows (d : Deque T M) (l : List T) : Prop :=
  d.front = .ok l.head? ∧ d.back = .ok l.getLast? ∧
  ∀ es, ∃ it' items, drive (Deque.Iter.next d) (Deque.Iter.nextBack d) d.iter es = .ok (it', items) ∧
    items.map (Option.map Prod.snd) = consume l es

end Sokoban.Queues
