import Verif.Proof.SimulateVerify

/-
The randomised test as a whole, and the four structures that it is run on.
-/
namespace Sokoban.Simulate
open MapSpec Fuzz

variable {S K V It P : Type} [DecidableEq K] [LT K]

namespace Fits
variable [DecidableLT K] {D : TestMap S K V It P} {M : Nat} {srt : Bool}
  {refuses : FMap K V → K → Prop} {Inv : S → FMap K V → Prop} {Walk : S → FMap K V → It → List K → Prop}
  (H : Fits D M srt refuses Inv Walk) (T : Tot K)
include H T
variable {tree : S} {c : Choices K V}

omit H T [DecidableLT K] [DecidableEq K] in
theorem tracks_new (h : Inv tree FMap.empty) : Tracks Inv ⟨tree, [], [], 0⟩ FMap.empty :=
  ⟨h, Same.empty, by simp [FMap.empty], rfl⟩

/-- lines 54-131, without a repetition -/
theorem churn (hr : Room M refuses) (h : Inv tree FMap.empty) (hl : c.fill.length = M)
    (hn : (c.fill.map Prod.fst).Nodup)
    (hx : ∀ m : FMap K V, m.len = M → (∀ k, k ∈ c.fill.map Prod.fst ↔ (m.get k).isSome) → refuses m c.extra.1)
    (hp : c.shuffled.Perm (c.fill.map Prod.fst)) (hd : (c.rounds.dropLast.flatMap (drawn M)).Nodup) :
    ∃ x m, Simulate.churn D c tree = .ok x ∧ Tracks Inv x m := by
  rcases H.fill T hr c.fill (tracks_new h) (by simp) (by simp [FMap.empty, hl]) with ⟨_, x1, m1, e1, h1, hk1⟩ | ⟨hc, _⟩
  · rw [List.nil_append] at hk1
    have hk : ∀ k, k ∈ c.fill.map Prod.fst ↔ (m1.get k).isSome := by rw [← hk1]; exact h1.keys
    have hlen : m1.len = M := by
      have := (len_keys h1.same.lists hk).2.2 hn
      rw [← this, List.length_map, hl]
    rcases H.insert h1.inv c.extra.1 c.extra.2 with ⟨_, e2⟩ | ⟨hf, _⟩
    · obtain ⟨x2, m2, e3, h2⟩ := H.drain T c.shuffled h1.inv h1.same (fun k => by rw [hp.mem_iff, hk])
        (hp.nodup_iff.2 hn) (by rw [h1.s, hk1, hp.length_eq])
      have h0 : D.len x2.tree = 0 := by
        have := (H.s_eq h2).2 (by simp)
        rw [h2.s] at this
        exact this.symm
      obtain ⟨x3, m3, e4, h3⟩ := H.rounds T hr c.rounds h2 (by simp) (by simpa using hd)
      refine ⟨x3, m3, ?_, h3⟩
      unfold Simulate.churn
      simp only [e1, e2, e3, e4, h0, except_bind_ok, Option.isNone_none, check_true, decide_true]
    · exact absurd (hx m1 hlen hk) hf
  · exact absurd (by simpa using hn) hc

/-- a key drawn twice in lines 58-66 -/
theorem churn_fill (hr : Room M refuses) (h : Inv tree FMap.empty) (hl : c.fill.length ≤ M)
    (hn : ¬ (c.fill.map Prod.fst).Nodup) : Simulate.churn D c tree = .error .assertion := by
  rcases H.fill T hr c.fill (tracks_new h) (by simp) (by simpa [FMap.empty] using hl) with ⟨hc, _⟩ | ⟨_, e1⟩
  · exact absurd (by simpa using hc) hn
  · unfold Simulate.churn
    rw [e1]; rfl

/-- the key of line 68 is accepted -/
theorem churn_extra (hr : Room M refuses) (h : Inv tree FMap.empty) (hl : c.fill.length ≤ M)
    (hn : (c.fill.map Prod.fst).Nodup)
    (hx : ∀ m : FMap K V, (∀ k, k ∈ c.fill.map Prod.fst ↔ (m.get k).isSome) → ¬ refuses m c.extra.1) :
    Simulate.churn D c tree = .error .assertion := by
  rcases H.fill T hr c.fill (tracks_new h) (by simp) (by simpa [FMap.empty] using hl) with
    ⟨_, x1, m1, e1, h1, hk1⟩ | ⟨hc, _⟩
  · rw [List.nil_append] at hk1
    have hk : ∀ k, k ∈ c.fill.map Prod.fst ↔ (m1.get k).isSome := by rw [← hk1]; exact h1.keys
    rcases H.insert h1.inv c.extra.1 c.extra.2 with ⟨hf, _⟩ | ⟨_, s', i, e2, _⟩
    · exact absurd hf (hx m1 hk)
    · unfold Simulate.churn
      simp only [e1, e2, except_bind_ok, Option.isNone_some]
      rfl
  · exact absurd (by simpa using hn) hc

omit H T [DecidableEq K] in
theorem roundsLoop_append : ∀ (rs rs' : List (Round K V)) {x x' : Vars S K V}, roundsLoop D rs x = .ok x' →
    roundsLoop D (rs ++ rs') x = roundsLoop D rs' x'
  | [], _, _, _, h => by cases h; rfl
  | r :: rs, rs', x, x', h => by
    simp only [roundsLoop, List.cons_append] at h ⊢
    cases e : Simulate.round D r x with
    | error _ => rw [e] at h; cases h
    | ok y =>
      rw [e] at h
      simp only [except_bind_ok] at h ⊢
      exact roundsLoop_append rs rs' h

omit H T [DecidableEq K] in
theorem churn_append {rs rs' : List (Round K V)} {x : Vars S K V}
    (h : Simulate.churn D { c with rounds := rs } tree = .ok x) :
    Simulate.churn D { c with rounds := rs ++ rs' } tree = roundsLoop D rs' x := by
  unfold Simulate.churn at h ⊢
  simp only at h ⊢
  cases e1 : Simulate.fill D c.fill { tree := tree, keys := [], map := [], s := 0 } with
  | error _ => rw [e1] at h; cases h
  | ok x1 =>
    rw [e1] at h
    simp only [except_bind_ok] at h ⊢
    cases e2 : D.insert x1.tree c.extra.1 c.extra.2 with
    | error _ => rw [e2] at h; cases h
    | ok p =>
      rw [e2] at h
      simp only [except_bind_ok] at h ⊢
      cases e3 : check p.2.isNone with
      | error _ => rw [e3] at h; cases h
      | ok _ =>
        rw [e3] at h
        simp only [except_bind_ok] at h ⊢
        cases e4 : Simulate.drain D c.shuffled { x1 with tree := p.1 } with
        | error _ => rw [e4] at h; cases h
        | ok x2 =>
          rw [e4] at h
          simp only [except_bind_ok] at h ⊢
          cases e5 : check (decide (D.len x2.tree = 0)) with
          | error _ => rw [e5] at h; cases h
          | ok _ =>
            rw [e5] at h
            simp only [except_bind_ok] at h ⊢
            exact roundsLoop_append rs rs' h

/-- the keys that the first branch of a round inserts if the tree holds `n` entries -/
def inserted (M n : Nat) (r : Round K V) : List K := (List.range (r.count % (M - n))).map r.key

/-- a round that draws a key which is there already, and one more round -/
theorem rounds_repeat (hr : Room M refuses) {x : Vars S K V} {m : FMap K V} (h : Tracks Inv x m) {r r2 : Round K V}
    (h0 : r.third = 0) (hl : D.len x.tree < M) (hs : x.s = D.len x.tree)
    (hd : ¬ (x.keys ++ inserted M (D.len x.tree) r).Nodup) (rs : List (Round K V)) :
    roundsLoop D (r :: r2 :: rs) x = .error .assertion := by
  rw [H.len h.inv] at hl hd
  have hm := Nat.mod_lt r.count (show 0 < M - m.len by omega)
  obtain ⟨x', m', e, h', hk⟩ := H.insertMany T hr r (r.count % (M - m.len)) 0 h (by omega)
  have e1 : Simulate.round D r x = .ok x' := by
    unfold Simulate.round
    rw [check_true (by simpa using hs), except_bind_ok]
    simp only [h0, H.cap, H.len h.inv]
    rw [show sub M m.len = .ok (M - m.len) from if_pos (by omega), except_bind_ok, if_neg (by omega),
      show genRange 0 (M - m.len) r.count = .ok (r.count % (M - m.len)) by
        unfold genRange; rw [if_pos (by omega)]; simp, except_bind_ok, e]
  have e2 := H.round_dup r2 h' (by rw [hk, ← List.range_eq_range']; exact hd)
  simp only [roundsLoop, e1, e2, except_bind_ok]
  rfl

end Fits

/-! ### structures with the functions of `Api` -/

/-- a structure with the functions of `Api` -/
def ofApi (A : Api S K V) (M : Nat) : TestMap S K V A.Iter A.Ref where
  toDynMap := Fuzz.ofApi A
  len := A.len
  capacity _ := M
  read := A.read
  slot := A.slot

/-- where an iterator is -/
def ApiWalk (A : Api S K V) (Rep : S → Ents K V → Prop) (It : S → A.Iter → List A.Ref → Prop) (s : S) (m : FMap K V)
    (it : A.Iter) (R : List K) : Prop :=
  ∃ (E : Ents K V) (Q : List (A.Ref × K)), Rep s E ∧ m.Lists (E.map Prod.snd) ∧ It s it (Q.map Prod.fst) ∧
    Q.map Prod.snd = R ∧ ∀ x ∈ Q, ∃ v, (A.slot x.1, x.2, v) ∈ E

theorem Fits.ofLaws {A : Api S K V} {M : Nat} {refuses : Ents K V → K → Prop}
    {Rep : S → Ents K V → Prop} {It : S → A.Iter → List A.Ref → Prop} (H : A.Laws M refuses Rep It)
    {ref : FMap K V → K → Prop}
    (hr : ∀ {E : Ents K V} {m : FMap K V} {k : K}, m.Lists (E.map Prod.snd) → (refuses E k ↔ ref m k)) :
    Fits (ofApi A M) M true ref (fun s m => ∃ E, Rep s E ∧ m.Lists (E.map Prod.snd)) (ApiWalk A Rep It) where
  toGood := Good.ofLaws H hr
  len := fun ⟨_, h, hm⟩ => H.len' h hm
  le := fun ⟨_, h, hm⟩ => by rw [hm.len, List.length_map]; exact H.le h
  cap _ := rfl
  lists := fun ⟨_, _, hm⟩ => ⟨_, hm⟩
  inv := fun ⟨E, _, h, hm, _⟩ => ⟨E, h, hm⟩
  start := by
    rintro s m ⟨E, h, hm⟩
    obtain ⟨Q, hQ, hi, hs⟩ := H.toWalks.refs h
    refine ⟨A.iter s, E.map (fun e => e.2.1), rfl, ⟨E, Q.map (fun x => (x.1, x.2.2.1)), h, hm, ?_, ?_, ?_⟩, fun k => ?_,
      H.keys h, fun _ => ?_⟩
    · rw [List.map_map]; exact hi
    · rw [List.map_map, ← hQ, List.map_map]; rfl
    · intro x hx
      obtain ⟨y, hy, rfl⟩ := List.mem_map.1 hx
      refine ⟨y.2.2.2, ?_⟩
      simp only [hs y hy]
      rw [← hQ]; exact List.mem_map_of_mem hy
    · have := hm.get_none' (k := k)
      rw [List.map_map] at this
      rw [← not_iff_not, show (E.map fun e => e.2.1) = E.map (Prod.fst ∘ Prod.snd) from rfl, ← this]
      cases m.get k <;> simp
    · rw [List.pairwise_map]; exact H.sorted h
  read := by
    rintro e s m it R - ⟨E, Q, h, hm, hi, rfl, hs⟩
    cases e with
    | front =>
      obtain ⟨it', e1, hi'⟩ := H.nextMut h hi
      cases Q with
      | nil =>
        refine Or.inl ⟨rfl, it', ?_, E, [], h, hm, hi', rfl, by simp⟩
        show A.next s it = _
        rw [H.next, e1]; rfl
      | cons x Q =>
        obtain ⟨v, hv⟩ := hs x (by simp)
        refine Or.inr ⟨x.2, Q.map Prod.snd, it', v, rfl, Ents.get_some hm hv, ?_,
          E, Q, h, hm, by simpa using hi', rfl, fun y hy => hs y (by simp [hy])⟩
        show A.next s it = _
        rw [H.next, e1]
        show (A.read s x.1 >>= _) = _
        rw [H.read h hi (r := x.1) (by simp) hv]; rfl
    | back =>
      obtain ⟨it', e1, hi'⟩ := H.nextBackMut h hi
      rcases List.eq_nil_or_concat Q with rfl | ⟨Q, x, rfl⟩
      · refine Or.inl ⟨rfl, it', ?_, E, [], h, hm, hi', rfl, by simp⟩
        show A.nextBack s it = _
        rw [H.nextBack, e1]; rfl
      · simp only [List.concat_eq_append, List.map_append, List.map_cons, List.map_nil, List.getLast?_concat,
          List.dropLast_concat] at *
        obtain ⟨v, hv⟩ := hs x (by simp)
        refine Or.inr ⟨x.2, Q.map Prod.snd, it', v, rfl, Ents.get_some hm hv, ?_,
          E, Q, h, hm, hi', rfl, fun y hy => hs y (by simp [hy])⟩
        show A.nextBack s it = _
        rw [H.nextBack, e1]
        show (A.read s x.1 >>= _) = _
        rw [H.read h hi (r := x.1) (by simp) hv]; rfl
  readMut := by
    have key : ∀ {s : S} {E : Ents K V} {m : FMap K V} {it' : A.Iter} {x : A.Ref × K} {Q : List (A.Ref × K)} {v : V},
        Rep s E → m.Lists (E.map Prod.snd) → It s it' (Q.map Prod.fst) → (A.slot x.1, x.2, v) ∈ E →
        (∀ y ∈ Q, ∃ v, (A.slot y.1, y.2, v) ∈ E) → ∀ w, ∃ s', A.write s (A.slot x.1) w = .ok s' ∧
          ApiWalk A Rep It s' (m.insert x.2 w) it' (Q.map Prod.snd) := by
      intro s E m it' x Q v h hm hi hv hs w
      obtain ⟨L1, L2, rfl⟩ := List.append_of_mem hv
      obtain ⟨s', e, h', hit⟩ := H.write h w
      refine ⟨s', e, _, Q, h', ?_, hit _ _ hi, rfl, fun y hy => ?_⟩
      · simp only [List.map_append, List.map_cons] at hm ⊢
        exact hm.insert_old _
      · obtain ⟨v', hv'⟩ := hs y hy
        simp only [List.mem_append, List.mem_cons, Prod.mk.injEq] at hv' ⊢
        rcases hv' with hv' | ⟨ha, hb, _⟩ | hv'
        · exact ⟨v', Or.inl hv'⟩
        · exact ⟨w, Or.inr (Or.inl ⟨ha, hb, rfl⟩)⟩
        · exact ⟨v', Or.inr (Or.inr hv')⟩
    rintro e s m it R - ⟨E, Q, h, hm, hi, rfl, hs⟩
    cases e with
    | front =>
      obtain ⟨it', e1, hi'⟩ := H.nextMut h hi
      cases Q with
      | nil => exact Or.inl ⟨rfl, it', e1, E, [], h, hm, hi', rfl, by simp⟩
      | cons x Q =>
        obtain ⟨v, hv⟩ := hs x (by simp)
        exact Or.inr ⟨x.2, Q.map Prod.snd, it', x.1, v, rfl, Ents.get_some hm hv, e1,
          H.read h hi (r := x.1) (by simp) hv,
          key h hm (by simpa using hi') hv fun y hy => hs y (by simp [hy])⟩
    | back =>
      obtain ⟨it', e1, hi'⟩ := H.nextBackMut h hi
      rcases List.eq_nil_or_concat Q with rfl | ⟨Q, x, rfl⟩
      · exact Or.inl ⟨rfl, it', e1, E, [], h, hm, hi', rfl, by simp⟩
      · simp only [List.concat_eq_append, List.map_append, List.map_cons, List.map_nil, List.getLast?_concat,
          List.dropLast_concat] at *
        obtain ⟨v, hv⟩ := hs x (by simp)
        exact Or.inr ⟨x.2, Q.map Prod.snd, it', x.1, v, rfl, Ents.get_some hm hv, e1,
          H.read h hi (r := x.1) (by simp) hv,
          key h hm hi' hv fun y hy => hs y (by simp [hy])⟩
  noBack h := by cases h

/-! ### the four structures -/

theorem fits_redBlack {K V : Type} [LinearOrder K] {M : Nat} (hM : M + 1 < 2 ^ 32) (hM0 : 0 < M) :
    Fits (redBlack : TestMap (RedBlackTree K V M) K V _ _) M true (fun m k => m.get k = none ∧ m.len = M)
      (fun s m => ∃ E, RedBlackTree.Inv s E ∧ m.Lists (E.map Prod.snd)) (ApiWalk RedBlackSpec.api RedBlackTree.Inv RedBlackTree.It) :=
  Fits.ofLaws (RedBlackTree.laws hM hM0) full_iff

theorem fits_avl {K V : Type} [LinearOrder K] {M : Nat} (hM : M + 1 < 2 ^ 32) (hM0 : 0 < M) :
    Fits (avl : TestMap (AVLTree K V M) K V _ _) M true (fun m k => m.get k = none ∧ m.len = M)
      (fun s m => ∃ E, AVLTree.Inv s E ∧ m.Lists (E.map Prod.snd)) (ApiWalk AVLSpec.api AVLTree.Inv AVLTree.It) :=
  Fits.ofLaws (AVLTree.laws hM hM0) full_iff

theorem fits_critbit {V : Type} {N M : Nat} (hN : N + 1 < 2 ^ 32) (hNM : 2 * M ≤ N) (hM0 : 0 < M) :
    Fits (critbit : TestMap (Critbit V N M) (BitVec 128) V _ _) M true (fun m _ => m.len = M)
      (fun s m => ∃ E, Critbit.Inv s E ∧ m.Lists (E.map Prod.snd)) (ApiWalk CritbitSpec.api Critbit.Inv Critbit.It) :=
  Fits.ofLaws (Critbit.laws hN hNM hM0) (fun hm => by rw [hm.len, List.length_map])

section
open HashTable
variable {K V : Type} [DecidableEq K] [LT K] {B M : Nat} {hash : K → Nat}

/-- where an iterator of a hash table is -/
def HashWalk (hash : K → Nat) (h : HashTable K V B M) (m : FMap K V) (it : Iter) (R : List K) : Prop :=
  ∃ c pre l, HRep (kn := .nothing) hash h c ∧ m.Lists (kvs (all B c)) ∧ IterInv B c it pre l ∧
    l.map (fun e => e.2.1) = R

theorem fits_hashTable (hM : M + 1 < 2 ^ 32) :
    Fits (hashTable hash : TestMap (HashTable K V B M) K V _ _) M false (fun m k => m.get k = none ∧ m.len = M)
      (fun s m => ∃ c, HRep (kn := .nothing) hash s c ∧ m.Lists (kvs (all B c))) (HashWalk hash) where
  toGood := good_hashTable hM
  len := fun ⟨c, H, hm⟩ => by
    show HashTable.len _ = _
    rw [hm.len]
    simpa [kvs] using H.toHHeld.len
  le := fun ⟨c, H, hm⟩ => by rw [hm.len]; simpa [kvs] using H.toHHeld.le
  cap _ := rfl
  lists := fun ⟨_, _, hm⟩ => ⟨_, hm⟩
  inv := fun ⟨c, _, _, H, hm, _⟩ => ⟨c, H, hm⟩
  start := by
    rintro s m ⟨c, H, hm⟩
    obtain ⟨it, e, hI⟩ := iter_ok H.toHHeld
    have hk : (kvs (all B c)).map Prod.fst = (all B c).map fun e => e.2.1 := by simp [kvs]
    refine ⟨it, _, e, ⟨c, [], _, H, hm, hI, rfl⟩, fun k => ?_, by rw [← hk]; exact hm.nodup, by simp⟩
    rw [← hk, ← not_iff_not, ← hm.get_none']
    cases m.get k <;> simp
  read := by
    rintro e s m it R (rfl | hc) ⟨c, pre, l, H, hm, hI, rfl⟩
    · rcases next_spec H.toHHeld hI with ⟨rfl, it', e1, _, hI'⟩ |
        ⟨x, l, it', b, done, r, rfl, e1, _, hb, hbk, hn, hc, hp, hl⟩
      · exact Or.inl ⟨rfl, it', e1, c, pre, [], H, hm, hI', rfl⟩
      · refine Or.inr ⟨x.2.1, l.map (fun e : Ent K V => e.2.1), it', x.2.2, List.map_cons, (hm.mem _ _).1 ?_, e1, c, pre ++ [x], l, H, hm,
          Or.inl ⟨by rw [hbk]; exact hb, done ++ [x], r, by rw [hbk, hc]; simp, hn, by rw [hp, hbk]; simp,
            by rw [hl, hbk]⟩, rfl⟩
        have : x ∈ all B c := mem_all.2 ⟨b, hb, by rw [hc]; simp⟩
        exact List.mem_map_of_mem this
    · cases hc
  readMut := by
    rintro e s m it R (rfl | hc) ⟨c, pre, l, H, hm, hI, rfl⟩
    · rcases next_spec H.toHHeld hI with ⟨rfl, it', _, e1, hI'⟩ |
        ⟨x, l, it', b, done, r, rfl, _, e1, hb, hbk, hn, hc, hp, hl⟩
      · exact Or.inl ⟨rfl, it', e1, c, pre, [], H, hm, hI', rfl⟩
      · have hmem : x ∈ all B c := mem_all.2 ⟨b, hb, by rw [hc]; simp⟩
        have hv := H.toHHeld.vals _ hb x (by rw [hc]; simp)
        refine Or.inr ⟨x.2.1, l.map (fun e : Ent K V => e.2.1), it', x.1, x.2.2, List.map_cons,
          (hm.mem _ _).1 (List.mem_map_of_mem (f := Prod.snd) hmem), e1, ?_, fun w => ?_⟩
        · show (do let n ← s.getNode x.1; return (n.key, n.value)) = _
          unfold getNode; rw [NodeAllocator.getValue_ok _ hv]; rfl
        · obtain ⟨h', ew, H'⟩ := setNodeValue_spec H hb (i := x.1) (k := x.2.1) (v := x.2.2) hc w
          refine ⟨h', ew, _, pre ++ [(x.1, x.2.1, w)], l, H', ?_, Or.inl ⟨by rw [hbk]; exact hb,
            done ++ [(x.1, x.2.1, w)], r, by rw [hbk]; simp [updB], hn, ?_, ?_⟩, rfl⟩
          · obtain ⟨A, C, eA, eA'⟩ := all_split c hb
            rw [eA']
            rw [eA, hc] at hm
            simp only [kvs, List.map_append, List.map_cons] at hm ⊢
            have h2 : m.Lists ((A.map Prod.snd ++ done.map Prod.snd) ++ (x.2.1, x.2.2) ::
              (r.map Prod.snd ++ C.map Prod.snd)) := by simpa using hm
            simpa using h2.insert_old w
          · rw [hp, hbk, flatMap_updB_lt]; simp
          · rw [hl, hbk, rest_updB]
    · cases hc
  noBack _ _ it := ⟨it, rfl⟩

end

/-! ### the test does not call `get` -/

section
variable {S K V It P : Type} [DecidableEq K] [LT K] [DecidableLT K] (D : TestMap S K V It P) (g : S → K → R (Option V))

omit [DecidableEq K] in
theorem fill_get : ∀ (l : List (K × V)) (x : Vars S K V), fill { D with get := g } l x = fill D l x
  | [], _ => rfl
  | e :: l, x => by simp only [fill, fill_get l]

omit [DecidableEq K] in
theorem drain_get : ∀ (l : List K) (x : Vars S K V), drain { D with get := g } l x = drain D l x
  | [], _ => rfl
  | e :: l, x => by simp only [drain, drain_get l]

omit [DecidableEq K] in
theorem insertMany_get (r : Round K V) : ∀ (n i : Nat) (x : Vars S K V),
    insertMany { D with get := g } r n i x = insertMany D r n i x
  | 0, _, _ => rfl
  | n + 1, i, x => by simp only [insertMany, insertMany_get r n]

omit [DecidableEq K] in
theorem removeMany_get (r : Round K V) : ∀ (n i : Nat) (x : Vars S K V),
    removeMany { D with get := g } r n i x = removeMany D r n i x
  | 0, _, _ => rfl
  | n + 1, i, x => by simp only [removeMany, removeMany_get r n]

omit [DecidableEq K] in
theorem replaceMany_get (r : Round K V) : ∀ (n i : Nat) (x : Vars S K V),
    replaceMany { D with get := g } r n i x = replaceMany D r n i x
  | 0, _, _ => rfl
  | n + 1, i, x => by simp only [replaceMany, replaceMany_get r n]

omit [DecidableEq K] in
theorem rounds_get : ∀ (l : List (Round K V)) (x : Vars S K V), roundsLoop { D with get := g } l x = roundsLoop D l x
  | [], _ => rfl
  | r :: l, x => by
    have : Simulate.round { D with get := g } r x = Simulate.round D r x := by
      unfold Simulate.round
      simp only [insertMany_get, removeMany_get, replaceMany_get]
    simp only [roundsLoop, this, rounds_get l]

omit [DecidableEq K] in
theorem overwrite_get (next : S → It → R (It × Option P)) (w : Nat → V) : ∀ (f i : Nat) (s : S) (it : It)
    (l : List (K × V)), overwrite { D with get := g } next w f i s it l = overwrite D next w f i s it l
  | 0, _, _, _, _ => rfl
  | f + 1, i, s, it, l => by simp only [overwrite, overwrite_get next w f]

omit [LT K] [DecidableLT K] in
theorem stepFrontMut_get [DecidableEq V] (w : Nat → V) : ∀ (f i : Nat) (s : S) (it : It) (l : List (K × V)),
    stepFrontMut { D with get := g } w f i s it l = stepFrontMut D w f i s it l
  | 0, _, _, _, _ => rfl
  | f + 1, i, s, it, l => by simp only [stepFrontMut, stepFrontMut_get w f]

omit [LT K] [DecidableLT K] in
theorem stepBackMut_get [DecidableEq V] (w : Nat → V) : ∀ (f i : Nat) (s : S) (it : It) (l : List (K × V)),
    stepBackMut { D with get := g } w f i s it l = stepBackMut D w f i s it l
  | 0, _, _, _, _ => rfl
  | f + 1, i, s, it, l => by simp only [stepBackMut, stepBackMut_get w f]

theorem simulate_get [LinearOrder V] (fuel : Nat) (sorted : Bool) (c : Choices K V) (new : S) :
    simulate { D with get := g } fuel sorted c new = simulate D fuel sorted c new := by
  simp only [simulate, churn, verify, Simulate.compare, doubleEnded, consumed, doubleEndedMut, fill_get, drain_get,
    rounds_get, overwrite_get, stepFrontMut_get, stepBackMut_get]

end

end Sokoban.Simulate

namespace Sokoban.Simulate
section Zip
variable {It K V : Type} [DecidableEq K] [DecidableEq V]

theorem zipList_ok (l m : List (K × V)) : zipList l m = .ok () ↔ l <+: m ∨ m <+: l := by
  induction l generalizing m with
  | nil => simp [zipList]
  | cons e l ih =>
    cases m with
    | nil => simp [zipList]
    | cons x m =>
      rw [zipList]
      by_cases h1 : e.1 = x.1
      · by_cases h2 : e.2 = x.2
        · have : e = x := Prod.ext h1 h2
          subst this
          simp [check, ih, Except.bind, bind]
        · have : e ≠ x := fun h => h2 (h ▸ rfl)
          simp [check, h1, h2, bind, Except.bind, List.cons_prefix_cons, this, Ne.symm this]
      · have : e ≠ x := fun h => h1 (h ▸ rfl)
        simp [check, h1, bind, Except.bind, List.cons_prefix_cons, this, Ne.symm this]

theorem zipIter_zipList (next : It → R (It × Option (K × V))) (l L : List (K × V)) (fuel : Nat) (it : It)
    (h : collect next fuel it = .ok L) : zipIter next l it = zipList l L := by
  induction l generalizing L fuel it with
  | nil => cases L <;> simp [zipIter, zipList]
  | cons e l ih =>
    cases fuel with
    | zero => cases h
    | succ fuel =>
      rw [collect] at h
      rw [zipIter]
      cases hn : next it with
      | error e => rw [hn] at h; cases h
      | ok r =>
        obtain ⟨it', x⟩ := r
        rw [hn] at h
        cases x with
        | none => cases h; rfl
        | some x =>
          cases hc : collect next fuel it' with
          | error e => simp [bind, Except.bind, hc] at h
          | ok L' =>
            simp [bind, Except.bind, hc, pure, Except.pure] at h
            subst h
            simp only [bind, Except.bind, zipList, ih L' fuel it' hc]

end Zip
end Sokoban.Simulate
