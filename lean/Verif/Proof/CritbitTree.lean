import Verif.Proof.CritbitBits
import Verif.Proof.Api
import Verif.Proof.TreeMap

/-
The tree that the registers of a `Critbit` spell: shape, radix order, framing.
-/
namespace Sokoban
open NodeAllocator
variable {V : Type} {N M : Nat}

/-- a critbit tree: leaves with their node, leaf slot, key and value; inner nodes with their node,
prefix length and key -/
inductive CT (V : Type) where
  | leaf (i s : Nat) (k : BitVec 128) (v : V)
  | inner (i p : Nat) (k : BitVec 128) (l r : CT V)

namespace CT

/-- node at the top -/
def root : CT V → Nat
  | leaf i _ _ _ => i
  | inner i _ _ _ _ => i

/-- nodes -/
def ids : CT V → List Nat
  | leaf i _ _ _ => [i]
  | inner i _ _ l r => i :: (l.ids ++ r.ids)

/-- entries from left to right -/
def ents : CT V → List (Nat × BitVec 128 × V)
  | leaf _ s k v => [(s, k, v)]
  | inner _ _ _ l r => l.ents ++ r.ents

/-- entries with the node of their leaf -/
def nents : CT V → List (Nat × Nat × BitVec 128 × V)
  | leaf i s k v => [(i, s, k, v)]
  | inner _ _ _ l r => l.nents ++ r.nents

/-- number of levels -/
def height : CT V → Nat
  | leaf _ _ _ _ => 1
  | inner _ _ _ l r => max l.height r.height + 1

/-- the same tree with another node at the top -/
def reroot (b : Nat) : CT V → CT V
  | leaf _ s k v => leaf b s k v
  | inner _ p k l r => inner b p k l r

/-- the value in slot `j` replaced -/
def put (j : Nat) (w : V) : CT V → CT V
  | leaf i s k v => leaf i s k (if s = j then w else v)
  | inner i p k l r => inner i p k (l.put j w) (r.put j w)

@[simp] theorem root_leaf (i s : Nat) (k) (v : V) : (leaf i s k v).root = i := rfl
@[simp] theorem root_inner (i p : Nat) (k) (l r : CT V) : (inner i p k l r).root = i := rfl
@[simp] theorem ids_leaf (i s : Nat) (k) (v : V) : (leaf i s k v).ids = [i] := rfl
@[simp] theorem ids_inner (i p : Nat) (k) (l r : CT V) : (inner i p k l r).ids = i :: (l.ids ++ r.ids) := rfl
@[simp] theorem ents_leaf (i s : Nat) (k) (v : V) : (leaf i s k v).ents = [(s, k, v)] := rfl
@[simp] theorem ents_inner (i p : Nat) (k) (l r : CT V) : (inner i p k l r).ents = l.ents ++ r.ents := rfl
@[simp] theorem nents_leaf (i s : Nat) (k) (v : V) : (leaf i s k v).nents = [(i, s, k, v)] := rfl
@[simp] theorem nents_inner (i p : Nat) (k) (l r : CT V) : (inner i p k l r).nents = l.nents ++ r.nents := rfl
@[simp] theorem root_reroot (b : Nat) (t : CT V) : (t.reroot b).root = b := by cases t <;> rfl
@[simp] theorem ents_reroot (b : Nat) (t : CT V) : (t.reroot b).ents = t.ents := by cases t <;> rfl

theorem root_mem (t : CT V) : t.root ∈ t.ids := by cases t <;> simp

theorem map_nents (t : CT V) : t.nents.map Prod.snd = t.ents := by
  induction t with
  | leaf => rfl
  | inner i p k l r ihl ihr => simp [ihl, ihr]

theorem mem_nents {t : CT V} {n j : Nat} {k : BitVec 128} {v : V} (h : (n, j, k, v) ∈ t.nents) :
    (j, k, v) ∈ t.ents ∧ n ∈ t.ids := by
  refine ⟨by rw [← map_nents]; exact List.mem_map_of_mem (f := Prod.snd) h, ?_⟩
  induction t with
  | leaf => simp at h; simp [h]
  | inner i p k l r ihl ihr =>
    rcases List.mem_append.1 h with h | h
    · simp [ihl h]
    · simp [ihr h]

theorem mem_ents {t : CT V} {j : Nat} {k : BitVec 128} {v : V} (h : (j, k, v) ∈ t.ents) :
    ∃ n, (n, j, k, v) ∈ t.nents := by
  rw [← map_nents] at h
  obtain ⟨⟨n, e⟩, he, rfl⟩ := List.mem_map.1 h
  exact ⟨n, he⟩

theorem ids_reroot (b : Nat) (t : CT V) : (t.reroot b).ids = b :: t.ids.tail := by cases t <;> rfl

theorem ids_cons (t : CT V) : t.ids = t.root :: t.ids.tail := by cases t <;> rfl

theorem ids_length (t : CT V) : t.ids.length + 1 = 2 * t.ents.length := by
  induction t with
  | leaf => rfl
  | inner i p k l r ihl ihr => simp; omega

theorem ents_ne (t : CT V) : t.ents ≠ [] := by
  induction t with
  | leaf => simp
  | inner i p k l r ihl _ => simp [ihl]

theorem height_le (t : CT V) : t.height ≤ t.ids.length := by
  induction t with
  | leaf => simp [height]
  | inner i p k l r ihl ihr => simp [height]; omega

@[simp] theorem root_put (j : Nat) (w : V) (t : CT V) : (t.put j w).root = t.root := by cases t <;> rfl

@[simp] theorem ids_put (j : Nat) (w : V) (t : CT V) : (t.put j w).ids = t.ids := by
  induction t with
  | leaf => rfl
  | inner i p k l r ihl ihr => simp [put, ihl, ihr]

theorem ents_put (j : Nat) (w : V) (t : CT V) : (t.put j w).ents = t.ents.map (BT.putE j w) := by
  induction t with
  | leaf i s k v =>
    simp only [put, ents_leaf, List.map_cons, List.map_nil, BT.putE]
    split <;> rfl
  | inner i p k l r ihl ihr => simp [put, ihl, ihr]

end CT

namespace Critbit
open CT
variable {s s' : Critbit V N M} {t l r : CT V}

/-- the registers and values of `s` spell the tree `t` below the node `par` -/
def Sh (s : Critbit V N M) : Nat → CT V → Prop
  | par, .leaf i j k v => s.nodeAllocator.reg i 0 = 0 ∧ s.nodeAllocator.reg i 1 = 0 ∧
      s.nodeAllocator.reg i 2 = par ∧ s.nodeAllocator.reg i 3 = j ∧
      s.nodeAllocator.val? i = some ⟨k, 128⟩ ∧ s.leaves.val? j = some v
  | par, .inner i p k l r => s.nodeAllocator.reg i 0 = l.root ∧ s.nodeAllocator.reg i 1 = r.root ∧
      s.nodeAllocator.reg i 2 = par ∧ s.nodeAllocator.reg i 3 = 0 ∧
      s.nodeAllocator.val? i = some ⟨k, p⟩ ∧ Sh s i l ∧ Sh s i r

/-- radix order -/
def Rad : CT V → Prop
  | .leaf _ _ _ _ => True
  | .inner _ p k l r => p < 128 ∧ (∀ e ∈ l.ents, Agree p k e.2.1 ∧ e.2.1.getMsbD p = false) ∧
      (∀ e ∈ r.ents, Agree p k e.2.1 ∧ e.2.1.getMsbD p = true) ∧ Rad l ∧ Rad r

theorem Rad.reroot {b : Nat} (h : Rad t) : Rad (t.reroot b) := by
  cases t with
  | leaf => trivial
  | inner => exact h

theorem Rad.put {j : Nat} {w : V} (h : Rad t) : Rad (t.put j w) := by
  induction t with
  | leaf => trivial
  | inner i p k l r ihl ihr =>
    obtain ⟨h1, h2, h3, h4, h5⟩ := h
    refine ⟨h1, ?_, ?_, ihl h4, ihr h5⟩
    · intro e he
      rw [ents_put] at he
      obtain ⟨e', he', rfl⟩ := List.mem_map.1 he
      have := h2 e' he'
      unfold BT.putE; split <;> exact this
    · intro e he
      rw [ents_put] at he
      obtain ⟨e', he', rfl⟩ := List.mem_map.1 he
      have := h3 e' he'
      unfold BT.putE; split <;> exact this

theorem Rad.sorted (h : Rad t) : t.ents.Pairwise (fun a b => a.2.1 < b.2.1) := by
  induction t with
  | leaf => simp
  | inner i p k l r ihl ihr =>
    obtain ⟨h1, h2, h3, h4, h5⟩ := h
    rw [ents_inner, List.pairwise_append]
    refine ⟨ihl h4, ihr h5, ?_⟩
    intro a ha b hb
    exact lt_of_bits h1 ((h2 a ha).1.symm.trans (h3 b hb).1) (h2 a ha).2 (h3 b hb).2

/-- every level consumes a bit -/
theorem Rad.height_le {q : Nat} (h : Rad t) (hq : q ≤ 128) (ha : ∀ a ∈ t.ents, ∀ b ∈ t.ents, Agree q a.2.1 b.2.1) :
    t.height + q ≤ 129 := by
  induction t generalizing q with
  | leaf => simp [height]; omega
  | inner i p k l r ihl ihr =>
    obtain ⟨h1, h2, h3, h4, h5⟩ := h
    have hqp : q ≤ p := by
      refine Classical.byContradiction fun hc => ?_
      obtain ⟨a, ha'⟩ := List.exists_mem_of_ne_nil _ l.ents_ne
      obtain ⟨b, hb'⟩ := List.exists_mem_of_ne_nil _ r.ents_ne
      have := ha a (by simp [ha']) b (by simp [hb']) p (by omega)
      rw [(h2 a ha').2, (h3 b hb').2] at this
      cases this
    have hl := ihl (q := p + 1) h4 (by omega) (by
      intro a ha0 b hb j hj
      by_cases hjp : j = p
      · subst hjp; rw [(h2 a ha0).2, (h2 b hb).2]
      · exact ((h2 a ha0).1.symm.trans (h2 b hb).1) j (by omega))
    have hr := ihr (q := p + 1) h5 (by omega) (by
      intro a ha0 b hb j hj
      by_cases hjp : j = p
      · subst hjp; rw [(h3 a ha0).2, (h3 b hb).2]
      · exact ((h3 a ha0).1.symm.trans (h3 b hb).1) j (by omega))
    simp only [height]; omega

theorem Rad.height_129 (h : Rad t) : t.height ≤ 129 :=
  h.height_le (q := 0) (by omega) (fun _ _ _ _ j hj => by omega)

theorem Sh.par {p : Nat} (h : Sh s p t) : s.nodeAllocator.reg t.root 2 = p := by
  cases t <;> exact h.2.2.1

theorem Sh.range {p : Nat} (h : Sh s p t) {i : Nat} (hi : i ∈ t.ids) : 1 ≤ i ∧ i ≤ N := by
  induction t generalizing p with
  | leaf j sl k v =>
    simp only [ids_leaf, List.mem_singleton] at hi
    subst hi; exact s.nodeAllocator.val?_range h.2.2.2.2.1
  | inner j q k l r ihl ihr =>
    simp only [ids_inner, List.mem_cons, List.mem_append] at hi
    obtain ⟨_, _, _, _, h5, h6, h7⟩ := h
    rcases hi with rfl | hi | hi
    · exact s.nodeAllocator.val?_range h5
    · exact ihl h6 hi
    · exact ihr h7 hi

theorem Sh.root_pos {p : Nat} (h : Sh s p t) : t.root ≠ 0 := by
  have := h.range t.root_mem; omega

theorem Sh.slot_range {p : Nat} (h : Sh s p t) {j : Nat} (hj : j ∈ t.ents.map Prod.fst) : 1 ≤ j ∧ j ≤ M := by
  induction t generalizing p with
  | leaf i sl k v =>
    simp at hj; subst hj
    exact s.leaves.val?_range h.2.2.2.2.2
  | inner i q k l r ihl ihr =>
    obtain ⟨_, _, _, _, _, h6, h7⟩ := h
    rw [ents_inner, List.map_append, List.mem_append] at hj
    rcases hj with hj | hj
    · exact ihl h6 hj
    · exact ihr h7 hj

/-- only the parent of the top changes -/
theorem Sh.frame {p q : Nat} (h : Sh s p t) (hn : t.ids.Nodup)
    (hr : ∀ i ∈ t.ids, ∀ r, (i = t.root ∧ r = 2) ∨ s'.nodeAllocator.reg i r = s.nodeAllocator.reg i r)
    (hp : s'.nodeAllocator.reg t.root 2 = q)
    (hv : ∀ i ∈ t.ids, s'.nodeAllocator.val? i = s.nodeAllocator.val? i)
    (hl : ∀ j ∈ t.ents.map Prod.fst, s'.leaves.val? j = s.leaves.val? j) : Sh s' q t := by
  induction t generalizing p q with
  | leaf i j k v =>
    obtain ⟨h1, h2, h3, h4, h5, h6⟩ := h
    have hr' := fun r => hr i (by simp) r
    refine ⟨?_, ?_, hp, ?_, ?_, ?_⟩
    · rw [(hr' 0).resolve_left (by simp)]; exact h1
    · rw [(hr' 1).resolve_left (by simp)]; exact h2
    · rw [(hr' 3).resolve_left (by simp)]; exact h4
    · rw [hv i (by simp)]; exact h5
    · rw [hl j (by simp)]; exact h6
  | inner i p k l r ihl ihr =>
    obtain ⟨h1, h2, h3, h4, h5, h6, h7⟩ := h
    have hr' := fun r => hr i (by simp) r
    simp only [ids_inner, List.nodup_cons, List.mem_append, not_or] at hn
    obtain ⟨⟨hil, hir⟩, hn⟩ := hn
    obtain ⟨hnl, hnr, _⟩ := List.nodup_append.1 hn
    refine ⟨?_, ?_, hp, ?_, ?_, ?_, ?_⟩
    · rw [(hr' 0).resolve_left (by simp)]; exact h1
    · rw [(hr' 1).resolve_left (by simp)]; exact h2
    · rw [(hr' 3).resolve_left (by simp)]; exact h4
    · rw [hv i (by simp)]; exact h5
    · refine ihl h6 hnl ?_ ?_ (fun x hx => hv x (by simp [hx])) (fun x hx => hl x (by
        rw [ents_inner, List.map_append, List.mem_append]; exact Or.inl hx))
      · intro x hx q
        exact Or.inr ((hr x (by simp [hx]) q).resolve_left (fun hc => hil (by rw [← show x = i from hc.1]; exact hx)))
      · rw [(hr l.root (by simp [root_mem]) 2).resolve_left (fun hc => hil (by rw [← show l.root = i from hc.1]; exact root_mem l))]
        exact h6.par
    · refine ihr h7 hnr ?_ ?_ (fun x hx => hv x (by simp [hx])) (fun x hx => hl x (by
        rw [ents_inner, List.map_append, List.mem_append]; exact Or.inr hx))
      · intro x hx q
        exact Or.inr ((hr x (by simp [hx]) q).resolve_left (fun hc => hir (by rw [← show x = i from hc.1]; exact hx)))
      · rw [(hr r.root (by simp [root_mem]) 2).resolve_left (fun hc => hir (by rw [← show r.root = i from hc.1]; exact root_mem r))]
        exact h7.par

/-- nothing of the tree changes -/
theorem Sh.same {p : Nat} (h : Sh s p t) (hn : t.ids.Nodup)
    (hr : ∀ i ∈ t.ids, ∀ r, s'.nodeAllocator.reg i r = s.nodeAllocator.reg i r)
    (hv : ∀ i ∈ t.ids, s'.nodeAllocator.val? i = s.nodeAllocator.val? i)
    (hl : ∀ j ∈ t.ents.map Prod.fst, s'.leaves.val? j = s.leaves.val? j) : Sh s' p t :=
  h.frame hn (fun i hi r => Or.inr (hr i hi r)) (by rw [hr _ t.root_mem]; exact h.par) hv hl

/-- the top moved to another node -/
theorem Sh.reroot {p q b : Nat} (h : Sh s p t) (hn : t.ids.Nodup)
    (h0 : s'.nodeAllocator.reg b 0 = s.nodeAllocator.reg t.root 0)
    (h1 : s'.nodeAllocator.reg b 1 = s.nodeAllocator.reg t.root 1)
    (h2 : s'.nodeAllocator.reg b 2 = q)
    (h3 : s'.nodeAllocator.reg b 3 = s.nodeAllocator.reg t.root 3)
    (h4 : s'.nodeAllocator.val? b = s.nodeAllocator.val? t.root)
    (hc : ∀ x ∈ t.ids, x ≠ t.root → ∀ r,
      ¬ (r = 2 ∧ (x = s.nodeAllocator.reg t.root 0 ∨ x = s.nodeAllocator.reg t.root 1)) →
      s'.nodeAllocator.reg x r = s.nodeAllocator.reg x r)
    (hc2 : ∀ x ∈ t.ids, x ≠ t.root → (x = s.nodeAllocator.reg t.root 0 ∨ x = s.nodeAllocator.reg t.root 1) →
      s'.nodeAllocator.reg x 2 = b)
    (hv : ∀ x ∈ t.ids, x ≠ t.root → s'.nodeAllocator.val? x = s.nodeAllocator.val? x)
    (hl : ∀ j ∈ t.ents.map Prod.fst, s'.leaves.val? j = s.leaves.val? j) : Sh s' q (t.reroot b) := by
  cases t with
  | leaf i j k v =>
    obtain ⟨e0, e1, e2, e3, e4, e5⟩ := h
    refine ⟨by rw [h0]; exact e0, by rw [h1]; exact e1, h2, by rw [h3]; exact e3, by rw [h4]; exact e4, ?_⟩
    rw [hl j (by simp)]; exact e5
  | inner i p k l r =>
    obtain ⟨e0, e1, e2, e3, e4, e5, e6⟩ := h
    simp only [ids_inner, List.nodup_cons, List.mem_append, not_or] at hn
    obtain ⟨⟨hil, hir⟩, hn⟩ := hn
    obtain ⟨hnl, hnr, hlr⟩ := List.nodup_append.1 hn
    simp only [root_inner] at *
    simp only [e0, e1] at hc hc2
    refine ⟨by rw [h0]; exact e0, by rw [h1]; exact e1, h2, by rw [h3]; exact e3, by rw [h4]; exact e4, ?_, ?_⟩
    · refine e5.frame hnl ?_ ?_ (fun x hx => hv x (by simp [hx]) (fun hc => hil (hc ▸ hx))) (fun x hx => hl x (by
        rw [ents_inner, List.map_append, List.mem_append]; exact Or.inl hx))
      · intro x hx q
        by_cases hx2 : x = l.root ∧ q = 2
        · exact Or.inl hx2
        · right
          refine hc x (by simp [hx]) (fun hc => hil (hc ▸ hx)) q ?_
          rintro ⟨hq, hx' | hx'⟩
          · exact hx2 ⟨hx', hq⟩
          · exact hlr x hx r.root r.root_mem hx'
      · exact hc2 l.root (by simp [root_mem]) (fun hc => hil (hc ▸ l.root_mem)) (Or.inl rfl)
    · refine e6.frame hnr ?_ ?_ (fun x hx => hv x (by simp [hx]) (fun hc => hir (hc ▸ hx))) (fun x hx => hl x (by
        rw [ents_inner, List.map_append, List.mem_append]; exact Or.inr hx))
      · intro x hx q
        by_cases hx2 : x = r.root ∧ q = 2
        · exact Or.inl hx2
        · right
          refine hc x (by simp [hx]) (fun hc => hir (hc ▸ hx)) q ?_
          rintro ⟨hq, hx' | hx'⟩
          · exact hlr l.root l.root_mem x hx hx'.symm
          · exact hx2 ⟨hx', hq⟩
      · exact hc2 r.root (by simp [root_mem]) (fun hc => hir (hc ▸ r.root_mem)) (Or.inr rfl)

/-- a value of a leaf changes -/
theorem Sh.put {p j : Nat} {w : V} (h : Sh s p t)
    (hr : s'.nodeAllocator = s.nodeAllocator)
    (hl : ∀ i, s'.leaves.val? i = if i = j ∧ 1 ≤ j ∧ j ≤ M then some w else s.leaves.val? i) :
    Sh s' p (t.put j w) := by
  induction t generalizing p with
  | leaf i sl k v =>
    obtain ⟨e0, e1, e2, e3, e4, e5⟩ := h
    refine ⟨by rw [hr]; exact e0, by rw [hr]; exact e1, by rw [hr]; exact e2, by rw [hr]; exact e3, by rw [hr]; exact e4, ?_⟩
    rw [hl]
    have := s.leaves.val?_range e5
    by_cases hj : sl = j
    · subst hj; rw [if_pos ⟨rfl, this⟩]; simp
    · rw [if_neg (fun hc => hj hc.1), e5]; simp [hj]
  | inner i p k l r ihl ihr =>
    obtain ⟨e0, e1, e2, e3, e4, e5, e6⟩ := h
    exact ⟨by rw [hr, root_put]; exact e0, by rw [hr, root_put]; exact e1, by rw [hr]; exact e2,
      by rw [hr]; exact e3, by rw [hr]; exact e4, ihl e5, ihr e6⟩

theorem Sh.nents {par n j : Nat} {k : BitVec 128} {v : V} (h : Sh s par t) (hm : (n, j, k, v) ∈ t.nents) :
    s.nodeAllocator.reg n 3 = j ∧ s.nodeAllocator.val? n = some ⟨k, 128⟩ ∧ s.leaves.val? j = some v := by
  induction t generalizing par with
  | leaf => simp at hm; obtain ⟨rfl, rfl, rfl, rfl⟩ := hm; exact h.2.2.2
  | inner i p k l r ihl ihr =>
    rcases List.mem_append.1 hm with hm | hm
    · exact ihl h.2.2.2.2.2.1 hm
    · exact ihr h.2.2.2.2.2.2 hm

/-- a key has one leaf -/
theorem Rad.unique (h : Rad t) {n n' j j' : Nat} {k : BitVec 128} {v v' : V} (h1 : (n, j, k, v) ∈ t.nents)
    (h2 : (n', j', k, v') ∈ t.nents) : n = n' ∧ j = j' ∧ v = v' := by
  have hp := h.sorted
  rw [← map_nents, List.pairwise_map] at hp
  have : ∀ {l : List (Nat × Nat × BitVec 128 × V)}, l.Pairwise (fun a b => a.2.2.1 < b.2.2.1) → (n, j, k, v) ∈ l →
      (n', j', k, v') ∈ l → n = n' ∧ j = j' ∧ v = v' := by
    intro l hl h1 h2
    induction l with
    | nil => cases h1
    | cons e l ih =>
      obtain ⟨he, hl⟩ := List.pairwise_cons.1 hl
      rcases List.mem_cons.1 h1 with h1 | h1
      · rcases List.mem_cons.1 h2 with h2 | h2
        · rw [← h1] at h2; simp at h2; obtain ⟨rfl, rfl, rfl⟩ := h2; exact ⟨rfl, rfl, rfl⟩
        · have := he _ h2
          rw [← h1] at this; exact absurd this (BitVec.lt_irrefl _)
      · rcases List.mem_cons.1 h2 with h2 | h2
        · have := he _ h1
          rw [← h2] at this; exact absurd this (BitVec.lt_irrefl _)
        · exact ih hl h1 h2
  exact this hp h1 h2

/-! ### reading -/

theorem getLeft_ok {i : Nat} (hi : i ≤ N) : s.getLeft i = .ok (s.nodeAllocator.reg i 0) :=
  s.nodeAllocator.getRegister_ok hi (by decide)
theorem getRight_ok {i : Nat} (hi : i ≤ N) : s.getRight i = .ok (s.nodeAllocator.reg i 1) :=
  s.nodeAllocator.getRegister_ok hi (by decide)
theorem getParent_ok {i : Nat} (hi : i ≤ N) : s.getParent i = .ok (s.nodeAllocator.reg i 2) :=
  s.nodeAllocator.getRegister_ok hi (by decide)
theorem getLeafIndex_ok {i : Nat} (hi : i ≤ N) : s.getLeafIndex i = .ok (s.nodeAllocator.reg i 3) :=
  s.nodeAllocator.getRegister_ok hi (by decide)
theorem isInnerNode_ok {i : Nat} (hi : i ≤ N) :
    s.isInnerNode i = .ok (decide (s.nodeAllocator.reg i 3 = 0)) := by
  unfold isInnerNode
  rw [s.nodeAllocator.getRegister_ok hi (by decide)]; rfl

theorem getChild_ok {i p : Nat} (hi : i ≤ N) (hp : p < 128) (k : BitVec 128) :
    s.getChild p i k = .ok (if k.getMsbD p then (s.nodeAllocator.reg i 1, true)
      else (s.nodeAllocator.reg i 0, false)) := by
  unfold getChild
  rw [critBitMask_ok hp, except_bind_ok, getLeft_ok hi, getRight_ok hi]
  have := mask_iff hp k
  by_cases h : k.getMsbD p = true
  · rw [if_pos h, if_pos (this.2 h)]; rfl
  · rw [if_neg h, if_neg (fun hc => h (this.1 hc))]; rfl

/-- facts about a node that is a leaf -/
theorem Sh.leaf {par i j : Nat} {k : BitVec 128} {v : V} (h : Sh s par (.leaf i j k v)) :
    s.getNode i = .ok ⟨k, 128⟩ ∧ s.isInnerNode i = .ok false ∧ s.getLeafIndex i = .ok j ∧
      s.getLeaf j = .ok v ∧ i ≤ N ∧ j ≠ 0 := by
  have hi := h.range (i := i) (by simp)
  obtain ⟨e0, e1, e2, e3, e4, e5⟩ := h
  have hj := s.leaves.val?_range e5
  refine ⟨s.nodeAllocator.getValue_ok e4, ?_, ?_, s.leaves.getValue_ok e5, hi.2, by omega⟩
  · rw [isInnerNode_ok hi.2, e3]; simp; omega
  · rw [getLeafIndex_ok hi.2, e3]

/-- facts about a node that is an inner node -/
theorem Sh.inner {par i p : Nat} {k : BitVec 128} (h : Sh s par (.inner i p k l r)) (hp : p < 128) :
    s.getNode i = .ok ⟨k, p⟩ ∧ s.isInnerNode i = .ok true ∧ s.getLeft i = .ok l.root ∧
      s.getRight i = .ok r.root ∧ i ≤ N ∧
      ∀ key, s.getChild p i key = .ok (if key.getMsbD p then (r.root, true) else (l.root, false)) := by
  have hi := h.range (i := i) (by simp)
  obtain ⟨e0, e1, e2, e3, e4, e5⟩ := h
  refine ⟨s.nodeAllocator.getValue_ok e4, ?_, ?_, ?_, hi.2, ?_⟩
  · rw [isInnerNode_ok hi.2, e3]; rfl
  · rw [getLeft_ok hi.2, e0]
  · rw [getRight_ok hi.2, e1]
  · intro key; rw [getChild_ok hi.2 hp, e0, e1]

open Ents

/-- The search loop. -/
theorem findLoop_spec : ∀ {t : CT V} {par fuel : Nat} (key : BitVec 128), Sh s par t → Rad t → t.height ≤ fuel →
    (Absent t.ents key ∧ s.findLoop key fuel t.root = .ok none) ∨
    (∃ n j v, s.findLoop key fuel t.root = .ok (some n) ∧ (n, j, key, v) ∈ t.nents) := by
  intro t
  induction t with
  | leaf i j k v =>
    intro par fuel key h _ hf
    obtain ⟨fuel, rfl⟩ : ∃ f, fuel = f + 1 := ⟨fuel - 1, by simp [height] at hf; omega⟩
    obtain ⟨h1, h2, h3, h4, h5, h6⟩ := h.leaf
    simp only [root_leaf, findLoop, h1, h2, except_bind_ok]
    by_cases hk : k = key
    · subst hk
      right
      exact ⟨i, j, v, by simp, by simp⟩
    · left
      refine ⟨?_, by simp [hk]⟩
      intro e he
      simp at he; subst he; exact hk
  | inner i p k l r ihl ihr =>
    intro par fuel key h hrad hf
    obtain ⟨fuel, rfl⟩ : ∃ f, fuel = f + 1 := ⟨fuel - 1, by simp [height] at hf; omega⟩
    obtain ⟨r1, r2, r3, r4, r5⟩ := hrad
    obtain ⟨h1, h2, h3, h4, h5, h6⟩ := h.inner r1
    simp only [height] at hf
    simp only [root_inner, findLoop, h1, h2, h6, except_bind_ok]
    simp only [Bool.not_true, Bool.false_eq_true, if_false, ge_iff_le]
    by_cases hs : p ≤ leadingZeros (k ^^^ key)
    · rw [if_pos hs]
      have hag := (le_leadingZeros (by omega)).1 hs
      by_cases hb : key.getMsbD p = true
      · rw [if_pos hb]
        rcases ihr (fuel := fuel) key h.2.2.2.2.2.2 r5 (by omega) with ⟨ha, e⟩ | ⟨n, j, v, e, hm⟩
        · left
          refine ⟨?_, e⟩
          intro x hx
          rcases List.mem_append.1 hx with hx | hx
          · intro hc
            have := (r2 x hx).2
            rw [hc, hb] at this; cases this
          · exact ha x hx
        · exact Or.inr ⟨n, j, v, e, List.mem_append_right _ hm⟩
      · rw [if_neg hb]
        rcases ihl (fuel := fuel) key h.2.2.2.2.2.1 r4 (by omega) with ⟨ha, e⟩ | ⟨n, j, v, e, hm⟩
        · left
          refine ⟨?_, e⟩
          intro x hx
          rcases List.mem_append.1 hx with hx | hx
          · exact ha x hx
          · intro hc
            have := (r3 x hx).2
            rw [hc] at this; exact hb this
        · exact Or.inr ⟨n, j, v, e, List.mem_append_left _ hm⟩
    · rw [if_neg hs]
      left
      refine ⟨?_, rfl⟩
      intro x hx hc
      have : Agree p k x.2.1 := by
        rcases List.mem_append.1 hx with hx | hx
        · exact (r2 x hx).1
        · exact (r3 x hx).1
      rw [hc] at this
      exact hs ((le_leadingZeros (by omega)).2 this)

end Critbit
end Sokoban
