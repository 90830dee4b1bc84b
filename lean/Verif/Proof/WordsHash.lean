import Verif.Proof.Post

/-
No function of the hash table leaves the Rust types.
-/
namespace Sokoban

namespace HashTable
variable {K V : Type} {numBuckets maxSize : Nat} {t : HashTable K V numBuckets maxSize}
instance : Rng (HashTable K V numBuckets maxSize) := ⟨InRange⟩
theorem ok_setAllocator {a : NodeAllocator (HashNode K V) maxSize 4} (h : Rng.ok t) (ha : Rng.ok a) :
    Rng.ok { t with allocator := a } := ⟨h.buckets, ha⟩
theorem ok_allocator (h : Rng.ok t) : Rng.ok t.allocator := h.allocator
end HashTable
macro_rules | `(tactic| rng_core) => `(tactic| ((with_reducible refine HashTable.ok_setAllocator ?_ ?_) <;> rng))
macro_rules | `(tactic| rng_core) => `(tactic| ((with_reducible refine HashTable.ok_allocator ?_); rng))

namespace HashTable
variable {K V : Type} {numBuckets maxSize : Nat} {t : HashTable K V numBuckets maxSize}
theorem safe_initialise  (h : Rng.ok t) : Safe (t.initialise) := by
  unfold initialise; safe
end HashTable
macro_rules | `(tactic| safe_call) => `(tactic| ((with_reducible refine HashTable.safe_initialise ?_); rng))

namespace HashTable
variable {K V : Type} {numBuckets maxSize : Nat} {t : HashTable K V numBuckets maxSize}
theorem safe_newFromSlice  (h : Rng.ok t) : Safe (t.newFromSlice) := by
  unfold newFromSlice; safe
end HashTable
macro_rules | `(tactic| safe_call) => `(tactic| ((with_reducible refine HashTable.safe_newFromSlice ?_); rng))

namespace HashTable
variable {K V : Type} {numBuckets maxSize : Nat} {t : HashTable K V numBuckets maxSize}
theorem safe_setNodeValue {i : Nat} {v : V} (h : Rng.ok t) : Safe (t.setNodeValue i v) := by
  unfold setNodeValue; safe
end HashTable
macro_rules | `(tactic| safe_call) => `(tactic| ((with_reducible refine HashTable.safe_setNodeValue ?_); rng))

namespace HashTable
variable {K V : Type} {numBuckets maxSize : Nat} {t : HashTable K V numBuckets maxSize}
theorem safe_getNext {i : Nat} (h : Rng.ok t) : Safe (t.getNext i) := by
  unfold getNext; safe
end HashTable
macro_rules | `(tactic| safe_call) => `(tactic| ((with_reducible refine HashTable.safe_getNext ?_); rng))

namespace HashTable
variable {K V : Type} {numBuckets maxSize : Nat} {t : HashTable K V numBuckets maxSize}
theorem safe_getPrev {i : Nat} (h : Rng.ok t) : Safe (t.getPrev i) := by
  unfold getPrev; safe
end HashTable
macro_rules | `(tactic| safe_call) => `(tactic| ((with_reducible refine HashTable.safe_getPrev ?_); rng))

namespace HashTable
variable {K V : Type} {numBuckets maxSize : Nat} {t : HashTable K V numBuckets maxSize}
theorem safe_bucket {i : Nat} (h : Rng.ok t) : Safe (t.bucket i) := by
  unfold bucket
  exact Safe.mk_dite (fun hb => Safe.mk_ok (h.buckets _ hb)) (fun _ => Safe.mk_error)
end HashTable
macro_rules | `(tactic| safe_call) => `(tactic| ((with_reducible refine HashTable.safe_bucket ?_); rng))

namespace HashTable
variable {K V : Type} {numBuckets maxSize : Nat} {t : HashTable K V numBuckets maxSize}
theorem safe_setBucket {i j : Nat} (h : Rng.ok t) (hj : Rng.ok j) : Safe (t.setBucket i j) := by
  unfold setBucket
  refine Safe.mk_dite (fun hb => Safe.mk_ok ⟨fun b' hb' => ?_, h.allocator⟩) (fun _ => Safe.mk_error)
  show (t.buckets.set i j hb)[b'] < _
  rw [Vector.getElem_set]
  split
  · exact hj
  · exact h.buckets b' hb'
end HashTable
macro_rules | `(tactic| safe_call) => `(tactic| ((with_reducible refine HashTable.safe_setBucket ?_ ?_) <;> rng))

namespace HashTable
variable {K V : Type} {numBuckets maxSize : Nat} {t : HashTable K V numBuckets maxSize}
theorem safe_findLoop [BEq K] {k : K} {fuel i : Nat} (h : Rng.ok t) (hi : Rng.ok i) : Safe (t.findLoop k fuel i) := by
  induction fuel generalizing i with
  | zero => exact Safe.mk_error
  | succ fuel ih =>
    unfold findLoop
    repeat' first | (exact ih (by rng)) | safe_step
end HashTable
macro_rules | `(tactic| safe_call) => `(tactic| ((with_reducible refine HashTable.safe_findLoop ?_ ?_) <;> rng))

namespace HashTable
variable {K V : Type} {numBuckets maxSize : Nat} {t : HashTable K V numBuckets maxSize}
theorem safe_getMut [BEq K] {hash : K → Nat} {k : K}  (h : Rng.ok t) : Safe (t.getMut hash k) := by
  unfold getMut
  cases bucketIndex numBuckets hash k with
  | error p => exact Safe.mk_error
  | ok b =>
    show Safe (do let head ← t.bucket b; _)
    safe
end HashTable
macro_rules | `(tactic| safe_call) => `(tactic| ((with_reducible refine HashTable.safe_getMut ?_); rng))

namespace HashTable
variable {K V : Type} {numBuckets maxSize : Nat} {t : HashTable K V numBuckets maxSize}
theorem safe_insert [BEq K] {hash : K → Nat} {k : K} {v : V} (h : Rng.ok t) : Safe (t.insert hash k v) := by
  unfold insert
  cases bucketIndex numBuckets hash k with
  | error p => exact Safe.mk_error
  | ok b =>
    show Safe (do let head ← t.bucket b; _)
    safe
end HashTable
macro_rules | `(tactic| safe_call) => `(tactic| ((with_reducible refine HashTable.safe_insert ?_); rng))

namespace HashTable
variable {K V : Type} {numBuckets maxSize : Nat} {t : HashTable K V numBuckets maxSize}
theorem safe_remove [BEq K] {hash : K → Nat} {k : K}  (h : Rng.ok t) : Safe (t.remove hash k) := by
  unfold remove
  cases bucketIndex numBuckets hash k with
  | error p => exact Safe.mk_error
  | ok b =>
    show Safe (do let head ← t.bucket b; _)
    safe
end HashTable
macro_rules | `(tactic| safe_call) => `(tactic| ((with_reducible refine HashTable.safe_remove ?_); rng))

end Sokoban
