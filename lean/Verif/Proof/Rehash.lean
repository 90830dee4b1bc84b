import Verif.Spec.Rehash
import Verif.Proof.Poke

/-
Proofs about hash tables whose hash function changes.
-/
namespace Sokoban.HashTable
open NodeAllocator MapSpec HashTableSpec AnyEq
variable {K V : Type} {B M : Nat} {st : Prop} {hash hash' : K → Nat} {h : HashTable K V B M} {c : Nat → List (Ent K V)}

/-- what does not say where entries are says nothing about the hash function -/
theorem HHeld.rehash (H : HHeld st hash h c) (hash' : K → Nat) : HHeld False hash' h c where
  pos := H.pos
  known := H.known
  clean := H.clean
  seg := H.seg
  head := H.head
  vals := H.vals
  home := nofun
  kept := H.kept

theorem run_rehash [BEq K] (hM : M + 1 < 2 ^ 32) (hash : K → Nat) : ∀ (xs : List ((K → Nat) × Op K V))
    (h : HashTable K V B M) (c : Nat → List (Ent K V)), HHeld False hash h c →
    ∃ h' c', run Rehash.call h xs = .ok (h', (Rehash.steps M (rowsOf B c) xs).2) ∧ HHeld False hash h' c' ∧
      rowsOf B c' = (Rehash.steps M (rowsOf B c) xs).1
  | [], h, c, H => ⟨h, c, rfl, H, rfl⟩
  | (hash1, op) :: xs, h, c, H => by
    obtain ⟨h1, c1, e1, H1, hr⟩ := call_any hM (H.rehash hash1) op
    obtain ⟨h2, c2, e2, H2, hr2⟩ := run_rehash hM hash xs h1 c1 (H1.rehash hash)
    rw [hr] at e2 hr2
    refine ⟨h2, c2, ?_, H2, hr2⟩
    have e1 : Rehash.call h (hash1, op) = _ := e1
    simp only [run, e1, except_bind_ok, e2, Rehash.steps, except_pure]

theorem bucketIndex_congr {k : K} (hk : hash' k % B = hash k % B) : bucketIndex B hash' k = bucketIndex B hash k := by
  unfold bucketIndex; rw [hk]

/-- only the bucket of the key counts -/
theorem calls_congr [BEq K] (h : HashTable K V B M) {k : K} (hk : hash' k % B = hash k % B) :
    h.get hash' k = h.get hash k ∧ h.contains hash' k = h.contains hash k ∧ h.getAddr hash' k = h.getAddr hash k ∧
    h.getMut hash' k = h.getMut hash k ∧ h.remove hash' k = h.remove hash k ∧
    ∀ v, h.insert hash' k v = h.insert hash k v := by
  have e := bucketIndex_congr hk
  have hg : h.get hash' k = h.get hash k := by unfold get; rw [e]
  refine ⟨hg, by unfold contains; rw [hg], by unfold getAddr; rw [e], by unfold getMut; rw [e], by unfold remove; rw [e],
    fun v => by unfold insert; rw [e]⟩

theorem call_congr [BEq K] (h : HashTable K V B M) (hk : ∀ k, hash' k % B = hash k % B) (op : Op K V) :
    call hash' h op = call hash h op := by
  cases op with
  | insert k v => simp only [call, (calls_congr h (hk k)).2.2.2.2.2]
  | remove k => simp only [call, (calls_congr h (hk k)).2.2.2.2.1]
  | getMut k f => simp only [call, getMutWrite, (calls_congr h (hk k)).2.2.2.1]
  | iterMut es => rfl

theorem run_congr [BEq K] : ∀ (xs : List ((K → Nat) × Op K V)) (h : HashTable K V B M),
    (∀ x ∈ xs, ∀ k, x.1 k % B = hash k % B) → run Rehash.call h xs = run (call hash) h (xs.map Prod.snd)
  | [], h, _ => rfl
  | x :: xs, h, hx => by
    have e : Rehash.call h x = call hash h x.2 := call_congr h (hx x (by simp)) x.2
    simp only [run, List.map_cons, e]
    cases call hash h x.2 with
    | error p => rfl
    | ok r => simp only [except_bind_ok, run_congr xs r.1 fun y hy => hx y (by simp [hy])]

section lawful
variable [DecidableEq K]

/-- another bucket does not hold the key -/
theorem find_elsewhere (H : HRep hash h c) {k : K} (hk : hash' k % B ≠ hash k % B) :
    (c (hash' k % B)).find? (fun e => e.2.1 == k) = none := by
  rw [List.find?_eq_none]
  intro e he hek
  have he' : e.2.1 = k := by simpa using hek
  have := H.home trivial _ (Nat.mod_lt _ H.pos) e he
  rw [he'] at this
  exact hk this.symm

end lawful
end Sokoban.HashTable
