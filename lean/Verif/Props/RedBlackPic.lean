import Verif.Proof.RBLaws

/-
Properties C60 (printing) and C61 (the validity check on arbitrary tree-shaped memory).
-/
namespace Sokoban.Props
open RedBlackSpec MapSpec
variable {K V : Type} [LinearOrder K] {M : Nat}

/-- C60: after every history the memory is a tree with the keys of the map in order, and
`pretty_print` writes that tree, one line per entry; it writes nothing for the empty tree. -/
theorem C60_rb_pretty_print (hM0 : 0 < M) (hM : M + 1 < 2 ^ 32) (z : RBNode K V) (ops : List (TOp K V))
    {t : RedBlackTree K V M} {outs : List (TOut K V)}
    (hrun : run call (RedBlackTree.new z) ops = .ok (t, outs)) (debug : K → String) :
    ∃ m p, TSteps M FMap.empty ops outs m ∧ Pictured t p ∧ p.IsRedBlack ∧
      (p.nodes.map Prod.snd).Pairwise (· < ·) ∧ (∀ k, k ∈ p.nodes.map Prod.snd ↔ (m.get k).isSome) ∧
      p.nodes.length = m.len ∧
      t.prettyPrint debug = .ok (if m.len = 0 then "" else p.render debug "" "" ++ "\n") := by
  obtain ⟨t0, os, E, m, e, h, hm, hs⟩ := RedBlackTree.run_new hM hM0 z ops
  rw [hrun] at e; cases e
  obtain ⟨p, hp, hrb, hn⟩ := RedBlackSpec.Inv.picture h
  obtain ⟨_, _, _, hlen, _, _⟩ := (RedBlackTree.laws hM hM0).observe h hm
  have hlen : t.len = m.len := hlen
  obtain ⟨_, _, _, hsorted⟩ := id h
  refine ⟨m, p, hs, hp, hrb, ?_, fun k => ?_, by rw [hn, hm.len]; simp, ?_⟩
  · rw [hn, List.map_map]; exact List.pairwise_map.2 hsorted
  · rw [hn, List.map_map, Option.isSome_iff_exists]
    constructor
    · intro hk
      obtain ⟨e, he, rfl⟩ := List.mem_map.1 hk
      exact ⟨e.2.2, (hm.mem _ _).1 (List.mem_map.2 ⟨e, he, rfl⟩)⟩
    · rintro ⟨v, hv⟩
      obtain ⟨e, he, he'⟩ := List.mem_map.1 ((hm.mem _ _).2 hv)
      exact List.mem_map.2 ⟨e, he, by rw [Function.comp_apply, he']⟩
  · by_cases h0 : m.len = 0
    · rw [if_pos h0]; unfold RedBlackTree.prettyPrint; rw [if_pos (hlen.trans h0)]; rfl
    · rw [if_neg h0]; exact prettyPrint_pic debug hp (fun h' => h0 (hlen ▸ h'))

/-- C60 on any memory that holds a finite tree. -/
theorem C60_rb_pretty_print_any {K V : Type} {t : RedBlackTree K V M} {p : Pic K} (hp : Pictured t p)
    (hlen : t.len ≠ 0) (debug : K → String) :
    t.prettyPrint debug = .ok (p.render debug "" "" ++ "\n") :=
  prettyPrint_pic debug hp hlen

/-- C61: on any memory that holds a finite tree, `is_valid_red_black_tree` returns true exactly when
the root is not red, no red node has a red child, and all paths to nodes without children have the
same number of black nodes. -/
theorem C61_rb_is_valid_iff {K V : Type} {t : RedBlackTree K V M} {p : Pic K} (hp : Pictured t p) (hne : p ≠ .nil)
    (hlen : t.len ≠ 0) :
    ∃ b, t.isValid = .ok b ∧
      (b = true ↔ ¬ p.Red ∧ p.NoRedRed ∧ ∀ x ∈ p.leafBlacks, ∀ y ∈ p.leafBlacks, x = y) :=
  isValid_pic hp hne hlen

/-- C61: no red-black tree is rejected. -/
theorem C61_rb_is_valid_complete {K V : Type} {t : RedBlackTree K V M} {p : Pic K} (hp : Pictured t p)
    (hne : p ≠ .nil) (hrb : p.IsRedBlack) : t.isValid = .ok true := by
  by_cases hlen : t.len = 0
  · unfold RedBlackTree.isValid; rw [if_pos hlen]; rfl
  obtain ⟨b, e, hb⟩ := isValid_pic hp hne hlen
  rw [e, hb.2 ⟨hrb.1, hrb.2.1, fun x hx y hy => hrb.2.2 x (leafBlacks_sub p x hx) y (leafBlacks_sub p y hy)⟩]

/-- C61, deviation: trees that are not red-black are accepted, whatever the size. For every capacity
of at least two there is a memory that holds a search tree of `M` nodes, is accepted, and is a single
chain of `M` nodes. -/
theorem C61_rb_is_valid_accepts_chain (hM : 2 ≤ M) (v : V) :
    ∃ (t : RedBlackTree Nat V M) (p : Pic Nat), Pictured t p ∧ t.len = M ∧ p.nodes.length = M ∧
      (p.nodes.map Prod.snd).Pairwise (· < ·) ∧ t.isValid = .ok true ∧ ¬ p.IsRedBlack ∧ p.height = M := by
  obtain ⟨n, rfl⟩ : ∃ n, M = n + 1 := ⟨M - 1, by omega⟩
  have hp : Pictured (chain v : RedBlackTree Nat V (n + 1)) (chainPic (n + 1) 0 (n + 1)) :=
    ⟨chain_holds v (n + 1) 0 (by omega) (by omega), chainPic_nodup _ _⟩
  obtain ⟨h1, h2, h3, h4, h5, h6⟩ := chainPic_facts (M := n + 1) n 0
  refine ⟨chain v, _, hp, rfl, chainPic_length _ _, (chainPic_keys _ _ (by omega)).1, ?_, fun h => ?_, h4⟩
  · obtain ⟨b, e, hb⟩ := isValid_pic hp (by simp [chainPic]) (show n + 1 ≠ 0 by omega)
    rw [e, hb.2 ⟨h2, h1, by rw [h3]; simp⟩]
  · have := h.2.2 _ h5 _ h6
    omega

/-- `C60`, `C61`: a history after which the tree has a red node, and what is printed then. -/
example : ∃ t outs, run call (RedBlackTree.new ⟨0, 0⟩ : RedBlackTree Nat Nat 8)
    [.map (.insert 1 10), .map (.insert 2 20), .map (.insert 3 30), .map (.insert 4 40)] = .ok (t, outs) ∧
    t.isValid = .ok true ∧
    t.prettyPrint (fun k => toString k) =
      .ok "2\n│  ├──1\n│  └──3\n│  │  └──\u001b[31m4\u001b[0m\n\n" :=
  ⟨_, _, rfl, rfl, rfl⟩

/-- `C61`: after the same history, with a black leaf painted red, the check says no; and the smallest
chain that it accepts. -/
example : (∃ t outs t', run call (RedBlackTree.new ⟨0, 0⟩ : RedBlackTree Nat Nat 8)
    [.map (.insert 1 10), .map (.insert 2 20), .map (.insert 3 30), .map (.insert 4 40)] = .ok (t, outs) ∧
    t.colorNode 1 RedBlackTree.RED = .ok t' ∧ t'.isValid = .ok false) ∧
    (chain () : RedBlackTree Nat Unit 3).prettyPrint (fun k => toString k) =
      .ok "3\n│  └──2\n│  │  └──1\n\n" ∧ (chain () : RedBlackTree Nat Unit 3).isValid = .ok true :=
  ⟨⟨_, _, _, rfl, rfl, rfl⟩, rfl, rfl⟩

end Sokoban.Props
