# Formal model of Ellipsis-Labs/sokoban in Lean 4 - design

## Approach

The model is a *pointer-level* transcription of the Rust code: every structure is an
allocator (a vector of nodes with numeric registers, a size, a bump index and a free
list head) plus root / head / tail / bucket words. Each Rust function is one Lean
function. `&mut self` becomes "returns the new state". Every way the Rust code can
panic is an explicit value of type `Panic` in an `Except` monad (out-of-bounds access
including the `i - 1` underflow on SENTINEL, arithmetic overflow, failed assert,
explicit panic!, unwrap of None). Every `loop`/`while` becomes structural recursion on
fuel; running out of fuel is the error `Panic.diverge`. Theorems show that no such
error occurs, so termination and panic freedom are *proved*, not assumed.

Proofs go through ghost structures (lists, binary trees, crit-bit trees labelled with
node indices): a representation relation says that the registers in memory spell out
the ghost structure; each operation preserves it; the abstract map / sequence is read
off the ghost structure. Property theorems do not mention ghost structures: they talk
about histories of API calls (`run call (new z) ops`), results of API calls, and the
small specification in `Verif/Spec`.

Layout of `/verif/lean/Verif`:
* `Model/*`  - the model (definitions only, each citing file:lines).
* `Spec/*`   - small independent specification (finite maps, two-ended sequences, client histories,
  byte buffers, balance conditions stated through the accessor functions).
* `Proof/*`  - helper lemmas, representation relations, invariants.
* `Props/*`  - the property theorems `C01_...`, with non-vacuity examples next to them.

Where the pieces meet:
* `Spec/Run.lean`: `run` executes a history and stops at the first panic; `Trace` is the
  specification side; `drive` / `driveMut` are client loops over iterators (any mix of
  `next` and `next_back`, for `driveMut` with writes through the references);
  `consume` is a plain sequence eaten from both ends.
* `Spec/Map.lean`: finite maps, what each call may do to one (`Step`), and the points in which
  the four maps differ (`Rules`: when `insert` is refused, order of iteration).
* `Spec/Api.lean`: the trait `NodeAllocatorMap` as a record of functions. The four maps fill it.
  `Proof/Api.lean` derives the observable behaviour of a map from a short list of laws, so the
  same statements are proved for all of them.
* `Spec/Bytes.lean`: a structure that lives in a byte buffer and is loaded anew for every call;
  between calls the buffer may move and bytes behind the structure may change.

## How each property is proved

Allocator (C01-C08, C54, C55). Invariant: a list of free indices threaded through register 0
from `free_list_head` to `bump_index`; free and live indices together are a permutation of
1..bump_index-1; size = number of live ones. Client histories are lists of calls whose indices
must be live (the documented contract); what is live, what was last written where and which
indices were freed is computed from the history of events alone. C07, C54, C55 are arithmetic
over arbitrary layouts. C08 is a concrete witness.

Deque (C09-C14). Ghost: list of indices, doubly-linked-list relation. Refinement to a plain
`List`. Iterators: invariant relating the two cursors to the remaining middle segment;
induction over the call sequence.

HashTable (C15-C21, C56). Ghost: one index list per bucket. The hash function is an arbitrary
function parameter. Refinement to finite maps.

RedBlackTree (C22-C32). Ghost: binary tree with index, colour, key, value; zipper contexts for
the upward loops of `_fix_insert` and `_fix_remove`; both child directions treated uniformly.

AVLTree (C30, C33-C41). Same ghost trees with stored heights; zipper path = the `path` vector
of the code.

Critbit (C42-C51). Ghost: crit-bit tree with node and leaf indices. Keys are `BitVec 128`.

Cross-cutting. C52 follows from the refinements. C57: every word of every reachable state is in
the range of its Rust type, which justifies `Nat` words. C53 / C59: byte representation of every
`repr(C)` structure, `load_bytes` / `load_mut_bytes` / `new_from_slice`; every history on a
buffer gives the results of the same history on the structure. C58: layout assertion of
RedBlackTree.

Shape and order. C60 / C61: `pretty_print` and `is_valid_red_black_tree` (a breadth-first walk over a
queue) against the ghost tree, for any memory that holds a finite tree. C62 / C63: the crit-bit tree in
memory is a function (`trie`) of the key set; the depth bound is attained. C66: the iteration order of HashTable is a function of
the history, computed on one list of entries. C64: `iter_mut` on arbitrary memory - the bounds need no
invariant, only the order of reads. C65: the capacity arithmetic for every MAX_SIZE.
C67: with a comparison of keys that obeys no law at all the trees still lose, duplicate or change no other entry (`Spec/AnyOrder.lean`:
a specification on plain sequences), never panic and stay balanced; only which entry is found depends on the comparison.
In the proofs the search path through the ghost tree is a function (`BT.descend`) of the answers of the comparison.
C68: the same for HashTable with any equality of keys, as an exact function on rows of entries (`Spec/AnyEq.lean`); the representation of
the chains (`HHeld`) does not mention equality of keys, `HRep` adds that keys are distinct.
C69: the public accessors for children, parents and chain neighbours are tied to one finite structure (`Spec/Nav.lean`: `Linked`).
C70: frame conditions that need no invariant (`Proof/Keep.lean`: a small logic in the style of `Proof/Post.lean`): no call wipes a slot.
C71: the same logic with the bump index; the peak of a history is defined by recursion over the calls (`Spec/Peak.lean`).
C72: writes of whole nodes through `get_node_mut` (`Model/*: setNode`) are steps of the histories; the invariants `Held` and `HHeld` do not mention keys,
so they survive. Finding: the public `get_node_mut` gives write access to keys (trees, HashTable) and to `prefix_len` (Critbit), so a client can break the map, though (except for Critbit) not the structure.
C73: the bound on loop iterations that the model needs anyway is a parameter (`lim`) of the operations of the trees; the theorems state that a logarithmic
one changes nothing (`Proof/Cost.lean`: a call that returns with one bound returns the same with every larger one).
C74: sessions on one buffer with different capacities (`Spec/Resize.lean`); the proof says which bytes two capacities read alike (`Proof/Resize.lean`: `Flex`, `Alike`).
The unused registers of slots behind the bump index must be zero (`Quiet`), which is why the buffer must be reallocated with zero initialisation. Finding: `MAX_SIZE` is not stored,
so a buffer opened with too small a `MAX_SIZE` is accepted by `load_mut_bytes` and panics later.
C75: a machine on keys and slot numbers (`Spec/Slots.lean`) predicts every address. The representation invariants take what is known about the free list as an instance argument (`Proof/Known.lean`), `nothing` by default, so that the other theorems do not mention it.
C76: frame conditions of the allocator operations without any invariant (`Proof/Near.lean`: `Same`), composed along each function. Only for the insertions into the two trees the invariant is needed,
to see that the loop rotates once (AVL: the height is restored by the rotation after an insertion; red-black: the loop ends after the rotations).
C77: a walk that does not visit a slot twice takes at most as many steps as there are slots, and one that does never ends, since the next position is a function of the position and the memory is not written
(`Proof/Loops.lean`: `Loops.exact`). It justifies the fuel of the model on arbitrary memory (C64).
C78: potential = nodes not yet pushed at that end (buckets not yet passed); `drive_steps` in `Proof/Steps.lean` sums the costs of the calls, `Spec/Steps.lean` says what a cost is.
C79: the fuzzing harness (`Model/Fuzz.lean`) on any structure that is a finite map refusing some insertions (`Proof/Fuzz.lean`: `Good`), instantiated four times. Finding: `fuzz_critbit` fails on an `Upsert` of another value when the tree is full, since Critbit refuses every insertion then (C43).
C80: zeroed memory that nobody initialised (`Spec/Uninit.lean`); every search meets SENTINEL at once, and `add_node` hands out index 0, whose slot does not exist.
C81-C83: what a panic leaves behind when it is caught (`Model/InPlace.lean`: state transformers that keep the state when they fail; `Proof/InPlace.lean`: forgetting that state gives the functions of the other model files). Findings: Critbit's `add_leaf` takes the node before it knows of a leaf, and `_insert` takes the leaf before it knows of a second node; with too few nodes (possible through `initialize`, which does not check) a caught panic makes `len()` one too high, and the assertion in `_remove` then fails after the root was cleared.
C84: `Index` and `IndexMut` by the laws `Api.Laws` behind C22, C33, C42 and by C18.
C85: the harness on an arbitrary `DynMap`; one more action after a run shows what its assertion says about the state reached. The wrong map that passes is `oneValue` (`Proof/FuzzPower.lean`).
C86: the in-place deque with the increment of `sequence_number` as a parameter (checked or wrapping); each call splits into a call on the queue that does not read the field, and the increment (`Proof/Counter.lean`). Finding: with overflow checks a pop at `u64::MAX` takes the element out and then panics.
C87: the invariant without the clause that entries are in the bucket of their hash (`HHeld False`) does not mention the hash function, so each call may come with another one. Finding: with `NUM_BUCKETS` not a power of two, `finish() as usize` gives other buckets on 32-bit machines.
C88: on finite maps, insertions of new keys below the capacity are all accepted and commute (`Proof/Copy.lean`); the rest is the refinement of C15, C22, C33, C42.
C89: `Model/Simulate.lean` transcribes `tests/test.rs` over a record of the functions that the test calls; `Fits` states what it needs of them and follows from the refinement of C15, C22, C33, C42 and of the iterators. Findings: the test panics when fewer than three entries are left; a repeated random key fails it, except in the last round; on a HashTable `rev()` yields nothing, so the last comparison compares nothing; `zip` does not notice missing trailing entries (`C89_compare_sorted`, `C89_compare_unsorted`: exactly what the comparison notices); `get` is never called.
C90: each function commutes with replacing keys and values in memory (`Proof/Par*.lean`, one lemma per function, by a tactic that walks through the code); two corresponding structures are the two sides of one structure over pairs (`Proof/LikePar.lean`), which turns this into the relational statement. Natural numbers as keys: ranks in the set of the keys used (`Proof/LikeRank.lean`).
C91: the ghost trees behind C24, C25 and C34 now also carry the algebraic tree: the repair loops are folds over the path to the root (`balUp`, `insUp`, `delUp` in `Proof/TextbookTree.lean`, `Proof/TextbookRB.lean`), and these folds unwind the recursive functions. Finding: when a removed black node has one red child, the crate runs the repair loop on the red child instead of colouring it black; the result is balanced all the same.
C92: `Model/UnitTests.lean` transcribes the tests of the two modules. The insertion tests follow from C91 (the algebraic tree determines all links the tests ask for), the others from C22, C25 and C12-C14. Finding: the `test_delete_multiple` tests depend on their hash function having no collisions.
C93: the chains, the list and the crit-bit tree determine every register (`Proof/Undo.lean`), free slots included, so it suffices that the ghost state is given back; for the crit-bit tree insertion splits one edge (`Split`) and removal undoes a split (`Pruned`, `Proof/UndoCritbit.lean`).
C94: in any state the search of `insert` takes the way of the search of `get` (`Proof/Overwrite.lean`), so an overwrite is a write through `get_node_mut` (C72), which keeps everything that `Like` (Spec/Like.lean) compares. The benchmarks (`Model/Bench.lean`) then follow from C79's description of the four maps (`Fuzz.Good`). Finding: after its first round an insert benchmark only overwrites and a remove benchmark works on an empty map.
C95: two small knots of links (`Proof/Endless.lean`). The insertion repair reaches a red node that is its own parent and child; one iteration mirrors its two child links (`Trap.endless`, induction on the iterations). The removal repair reaches a black node that is its own parent and left child, where an iteration changes nothing (`own_fix`). C73 excludes both for every tree the API can make.
C96: `Model/Caprice.lean` is a state-and-error monad in which memory survives a panic; the searching loops ask an oracle. `Reads`/`Clean` (`Proof/CapriceBase.lean`) say that everything before the last question only reads, so an unwinding call changes nothing. `rbCall_held`, `avlCall_held`, `hashCall_held` follow the search through the invariants of C67/C68, which never mention the order of keys. `Sub` (`Proof/CapriceTruth.lean`): with true answers or panics a call does nothing or what the ordinary call does.
C97: `Proof/Local.lean`, on finite maps: a call is a step of one variable (`Step.on`, `Step.off`), and two calls commute iff the decisions about room agree (`Step.swap`, `sameRoom_new`, `sameRoom_any`). `Model` is what a structure must offer for this; the four instances come from the invariants.
C98: the class `Known` of the invariants also carries slots in use elsewhere (`lost`) with their registers and values; each of several maps is described as if the slots of the others were lost to it (`Proof/Shared.lean`, `Theory`), and a frame rule (`shift`) moves the description of a map over the calls on another.
C99: the same for queues; `DRepL L` describes a queue while the slots `L` are in use elsewhere (`DRep` is the case `L = []`), `Keeps L` says that a call leaves these alone.
C100: the same for Critbit, where it does not always work; `Critbit.Part F FS` describes a tree while the nodes `F` and leaves `FS` are in use elsewhere, `CritbitFails` (Spec/SharedCritbit) lists the panics.
C101: recolourings are counted by keys (`Recolourings`, Spec/Amortised); the potential counts the black nodes with two red children twice and those with none once, on the algebraic trees of C91.
C102: changes of stored heights are counted by keys (`Rewritings`, Spec/Amortised); the potential counts the nodes whose subtrees have the same height, on the algebraic trees of C91.
C103: `Tree.IsAVL` (Spec/AVLShapes) describes the trees; a deepest leaf of an AVL tree can be taken off and inserted again without a rotation.
C104: `Yields` says what `iter()` yields, `ByBucket` which orders are possible (Spec/HashShapes).
C105: `Iterations` counts the iterations of the search loop by the fuel it needs, `load` the entries of a bucket (Spec/HashCost).
C106: `Wish` and `wished` (Spec/AnySlots) say which addresses are wanted; the proof works on the slots of C75.
C107: `AllBlack` (Spec/RBFull) is about the algebraic trees of C91; the other statement uses `Coloured` of C101.
C108: counts iterations as C24 does, by the fuel of the search loop; the proof reads the right spine as a number with the digits 1, 2 and 3.
C109: `Perfect` (Spec/AVLPerfect) is a statement about the algebraic tree of C91 that the memory holds; the paths are those of `walk`, which reads the registers.
C110: `mirror`, `Reverse`, `callRB` and `callAVL` (Spec/Mirror); the memory is related to the algebraic trees by the relations of C91.

## Modelling conventions and simplifications

* `u32`/`u64` words are `Nat`; each arithmetic operation that could overflow has an explicit
  overflow check yielding `Panic.overflow` (Rust with overflow checks on; the theorems show that
  the check never fires in fewer than 2^64 calls, so wrapping builds behave the same; the only check that
  can fire is that of the deque's `sequence_number`, C86 covers both builds). C57 shows that no word outgrows its type.
* `usize` is 64 bits wide where it matters: `MAX_SIZE + 1` is computed without overflow and then
  truncated to `u32` as in the code. Theorems about histories assume `MAX_SIZE + 1 < 2^32`
  (Critbit: `NUM_NODES + 1 < 2^32`); the allocator theorems C01, C02, C04-C06 and C65 do not; C65 says what happens beyond.
* `AVLTree.root` is a `u64` that the code assigns from `u32` and reads with `as u32`; the model does not reduce it.
  Where a theorem speaks of arbitrary memory (C64, C77) the tree is the one with `root` reduced modulo 2^32.
* `Copy` values are Lean values; references returned by `get`, `iter` are the values they point to;
  `get_mut`/`iter_mut` references are slot numbers plus reads and writes through them. The `unsafe`
  pointer arithmetic of the mutable iterators is modelled as an access that fails when the slot is
  out of bounds; that it never is, and that no slot is handed out twice, is proved (C12, C20, C29, C40, C50).
* `new()` fills the node array with `T::default()`; the model takes the filler as a parameter `z`, and the
  theorems hold for every `z` (so also for zeroed memory).
* `K: Ord` is `[Ord K]` in the model of RedBlackTree; the theorems assume a linear order. `K: PartialOrd`
  is `[LT K] [DecidableLT K] [PartialGt K]` in the model of AVLTree, two relations for `<` and `>`; by default `a > b` is `b < a`; the theorems assume a linear order, C41 shows what happens without.
  `K: Hash + PartialEq` is an arbitrary function `K → Nat` and a lawful `BEq`.
* Bytes: little-endian; C layout rules; `align_of::<u128>()` is 8 or 16 (it depends on the compiler version), theorems cover both;
  a call that panics half-way is given a resulting state only in the in-place model (C81-C83: Deque, Critbit, the allocator, and insertions).
* `Vec::with_capacity(..)` hints, the text of panic messages, the diagnostics the validity check prints, derived `Debug`,
  `Clone`, `PartialEq` are not modelled. Of the code for tests, the functions under `#[test]` are modelled (C89, C92), and so are the fuzz targets (C79) and the benchmarks (C94).
* The rules of Rust on aliasing of references (Stacked Borrows, Tree Borrows) are not modelled. That `iter_mut` hands out no slot twice is
  proved; that its `as_mut_ptr()`, which borrows the whole node array again at every step, leaves earlier references valid is not.
* Standard library behaviour (Vec, Option, DefaultHasher being a function, laws of the key type, bytemuck casts) is assumed as documented.

## Where the code departs from what one would expect

Each of these is proved, with a witness or for all states:
* HashTable's iterators advertise `DoubleEndedIterator` but `next_back` always returns None (C19).
* `NUM_BUCKETS = 0` passes HashTable's assertion; every access then panics (C56).
* The allocator does not notice a double free and then hands out one index twice (C08).
* The layout assertions do not exclude padding in types declared `Pod` (C54, C58); AVLTree and HashTable have no assertion of their own.
* Element types of 1 to 7 bytes cannot be used at all (C55).
* With `MAX_SIZE = 0` the trees panic on insert, HashTable returns None (C31).
* AVLTree accepts keys that are only partially ordered and then overwrites the value of another key (C41).
* A full Critbit refuses to update a present key (C43); the other maps update (C16, C30).
* `Critbit::get_addr` panics on an empty tree (C48); Critbit node addresses are not stable (C49).
* Freed Critbit nodes keep stale Parent registers (`migrate` does not clear them); harmless, since every use of a
  new node overwrites or never reads it - this is part of the invariant behind C46.
* `is_valid_red_black_tree` compares black counts only at nodes without children; it accepts every chain of black nodes (C61).
* `iter_mut` trusts the bytes: on bytes that `load_mut_bytes` accepts it can return two `&mut` to one slot, and Critbit's a
  `&mut` outside the leaf array (C64).
* With `MAX_SIZE` a positive multiple of 2^32 the first insertion of every structure panics (C65).
* `HashTable::get_mut` moves the entry it finds to the front of its bucket, so a lookup changes the order of iteration (C66).
* `Critbit::initialize` does not check `NUM_NODES >= 2 * MAX_SIZE` as `new` does; with too few nodes `insert` panics, and a
  client that catches the panic can lose an entry by a later `remove` (C82). With `MAX_SIZE = 0` each caught panic of
  `Critbit::insert` leaks a node (C81).
* On memory that was never initialised, the panic of the first insertion has the effect of `initialize` (C83).
* `simulate` in `tests/test.rs` panics (`gen_range` on an empty range, or `0 - 1`) when fewer than three entries are left in a sorted map after the rounds, and fails when a random key repeats; it never calls `get` or `contains`, and its comparisons by `zip` ignore missing trailing entries (C89). With capacities in the thousands and random 64- or 128-bit keys this does not show.
* `test_delete_multiple_random_*` in red_black_tree.rs panic in an `unwrap` when the hashes of two numbers collide, although the tree is right (C92).
* In `benches/bench.rs` the insert benchmarks insert, and the remove benchmarks remove, only in the first of the many calls of their closure; what is measured is overwriting and removing from an empty map (C94).
* On bytes from outside `insert` and `remove` of the red-black tree may never return although `get` returns, and `is_valid_red_black_tree` may not return either (C95).
* A tree whose public `root` is set to the sentinel while it is full panics on `insert` (C98), like one of capacity zero (C31): the check for a full tree is made only below a root.
* `Critbit` asks `len() == 0` and `is_empty()` where the other trees ask `root == SENTINEL`. The two agree unless the client assigns the public `root`. If it does, lookups in an empty tree index out of bounds and the last entry of a tree cannot be removed while the memory holds other entries (C100).

## Trusted base

Lean's kernel; the axioms listed below; the faithfulness of the transcription in `Model/*` (by reading;
nothing was executed) and the conventions above. No own axioms, no `sorry`, no `native_decide` / `bv_decide`.

Axioms per property theorem (`#print axioms`):
* no axioms: C53_frame, C54_padding_not_excluded.
* propext: C08_double_free, C19_hash_rev_yields_nothing, C31_avl_capacity_zero_panics, C31_rb_capacity_zero_panics, C51_critbit_new_checked, C53_layout_agrees, C56_hash_create_iff_even, C56_hash_zero_buckets_panics, C72_rb_key_write_breaks_the_map, C72_avl_key_write_breaks_the_map, C72_hash_key_write_breaks_the_map, C74_grow_into_garbage, C81_rb_caught, C81_avl_caught, C82_critbit_initialize_any_nodes, C87_hash_same_buckets, C91_avl_unique, C91_redBlack_unique, C93_shape_changes, C96_rb_unwind, C96_avl_unwind, C96_hash_unwind, C97_rb_remove_root_tells.
* propext, Quot.sound: C31_critbit_capacity_zero_panics, C31_hash_capacity_zero, C57_alloc_in_range, C57_deque_in_range, C57_hash_in_range, C57_rb_in_range, C57_avl_in_range, C58_rb_padding, C72_rb_value_write_is_insert, C72_rb_node_write_out_of_range, C72_avl_value_write_is_insert, C72_avl_node_write_out_of_range, C72_hash_value_write_is_insert, C72_hash_node_write_out_of_range, C72_critbit_node_write_panics, C74_shrink_below_peak, C74_critbit_nodes, C80_rb_uninitialised, C80_avl_uninitialised, C80_critbit_uninitialised, C80_deque_uninitialised, C81_deque_calls, C82_critbit_calls, C83_insert_calls, C83_alloc, C83_deque, C83_rb, C83_avl, C83_hash, C85_fuzz_detects, C89_get_unused, C89_compare_sorted, C89_compare_unsorted, C90_rb_new, C90_avl_new, C90_critbit_new, C90_hash_new, C90_deque_new, C96_rb_honest, C96_avl_honest, C96_hash_honest, C101_rb_count, C102_avl_count.
* propext, Classical.choice, Quot.sound: the other 337 theorems of MANIFEST.json.

## What is modelled

Code ranges cited by the definitions of `Model/*` (generated from the comments). Everything outside `#[cfg(test)]` that is not listed
is type and trait headers, imports, constants and field lists covered by the definition of the type.

**AVL.lean** - `` avl_tree.rs:138, 159, 297, 338, 550 · `AVLNode` avl_tree.rs:31-39 · `AVLTree` avl_tree.rs:64-73 · `LEFT` avl_tree.rs:22 · `RIGHT` avl_tree.rs:23 · `HEIGHT` avl_tree.rs:24 · `Ancestor` avl_tree.rs:29 · `new` avl_tree.rs:233-238, 247-249 · `initialise` avl_tree.rs:251-253 · `getNode` avl_tree.rs:255-257 · `setNodeValue` avl_tree.rs:259-261, 303 · `setNode` avl_tree.rs:259-261 · `getField` avl_tree.rs:275-277 · `setHeight` avl_tree.rs:264-272 · `updateHeight` avl_tree.rs:466-488 · `setField` avl_tree.rs:264-272 · `balanceFactor` avl_tree.rs:430-444 · `leftRotate` avl_tree.rs:446-454 · `rightRotate` avl_tree.rs:456-464 · `delete` avl_tree.rs:490-495 · `rebalanceNode` avl_tree.rs:499-530 · `rebalance` avl_tree.rs:497-539 · `len` avl_tree.rs:171-177 · `capacity` avl_tree.rs:179-181 · `isEmpty` node_allocator.rs:43-45 · `insertLoop` avl_tree.rs:290-319 · `insert` avl_tree.rs:279-320 · `removePath` avl_tree.rs:330-345 · `leftmostLoop` avl_tree.rs:362-366 · `removeTwo` avl_tree.rs:357-397 · `removeOne` avl_tree.rs:398-418 · `removeNode` avl_tree.rs:352-427 · `remove` avl_tree.rs:322-428 · `searchLoop` avl_tree.rs:134-147, 155-168, 546-559 · `getAddr` avl_tree.rs:541-560 · `get` avl_tree.rs:129-148 · `contains` avl_tree.rs:125-127 · `getMut` avl_tree.rs:150-169 · `index` avl_tree.rs:834-836 · `indexMut` avl_tree.rs:845-847 · `minLoop` avl_tree.rs:567-569 · `maxLoop` avl_tree.rs:578-580 · `getMinIndex` avl_tree.rs:562-571, 198-200 · `getMaxIndex` avl_tree.rs:573-582, 202-204 · `getMin` avl_tree.rs:206-214 · `getMax` avl_tree.rs:216-224 · `findMin` avl_tree.rs:584-591 · `findMax` avl_tree.rs:593-600 · `Iter` avl_tree.rs:658-672, 732-746 · `iter` avl_tree.rs:602-627 · `Iter.nextLoop` avl_tree.rs:683-701, 757-785 · `Iter.nextBackLoop` avl_tree.rs:711-729, 795-823 · `Iter.item` avl_tree.rs:695-697, 723-725 · `Iter.next` avl_tree.rs:683-701 · `Iter.nextBack` avl_tree.rs:711-729 · `Iter.nextMut` avl_tree.rs:757-785 · `Iter.nextBackMut` avl_tree.rs:795-823

**Alloc.lean** - `R` node_allocator.rs:255, 260; node_allocator.rs:269; node_allocator.rs:249; red_black_tree.rs:441; critbit.rs:379; hash_table.rs:121 · `SENTINEL` node_allocator.rs:71 · `Node` node_allocator.rs:73-80 · `getRegister` node_allocator.rs:103-105 · `setRegister` node_allocator.rs:113-115 · `getFreeListRegister` node_allocator.rs:98-100 · `setFreeListRegister` node_allocator.rs:108-110 · `setValue` node_allocator.rs:118-120 · `NodeAllocator` node_allocator.rs:133-153 · `new` node_allocator.rs:184-205 · `initialise` node_allocator.rs:242-251 · `get` node_allocator.rs:254-256 · `put` node_allocator.rs:259-261 · `addNode` node_allocator.rs:265-280 · `removeNode` node_allocator.rs:284-293 · `clearRegister` node_allocator.rs:308-312 · `disconnect` node_allocator.rs:296-305 · `connect` node_allocator.rs:315-322 · `setRegister` node_allocator.rs:325-329 · `getRegister` node_allocator.rs:332-338 · `getValue` node_allocator.rs:128-130, 254-256 · `setValue` node_allocator.rs:118-125, 259-261

**Bench.lean** - `insertAll` bench.rs:61-63 · `removeAll` bench.rs:260-262 · `getAll` bench.rs:355-357 · `iter` bench.rs:60 · `insertBench` bench.rs:55-145, 169-215 · `removeBench` bench.rs:249-315 · `lookupBench` bench.rs:346-404

**Bytes.lean** - `node` node_allocator.rs:73-80 · `nodeAllocator` node_allocator.rs:133-153 · `dequeHead` deque.rs:13-16 · `deque` deque.rs:11-18 · `hashNode` hash_table.rs:12-20 · `hashHead` hash_table.rs:53 · `hashTable` hash_table.rs:45-55 · `rbNode` red_black_tree.rs:33-41 · `rbHead` red_black_tree.rs:73-74 · `redBlackTree` red_black_tree.rs:66-76 · `avlNode` avl_tree.rs:31-39 · `avlHead` avl_tree.rs:71 · `avlTree` avl_tree.rs:64-73 · `critbitNode` critbit.rs:9-15 · `critbitHead` critbit.rs:37-40 · `critbit` critbit.rs:30-46 · `tryFromBytes` node_allocator.rs:62, 67 · `load` node_allocator.rs:59-69 · `initialiseAt` node_allocator.rs:242-251 · `dequeInit` deque.rs:62-64 · `dequeFromSlice` deque.rs:37-41 · `hashInit` hash_table.rs:218-220 · `hashFromSlice` hash_table.rs:199-204 · `rbAssert` red_black_tree.rs:266-271 · `rbInit` red_black_tree.rs:321-323 · `rbFromSlice` red_black_tree.rs:123-128 · `avlInit` avl_tree.rs:251-253 · `avlFromSlice` avl_tree.rs:104-108 · `critbitInit` critbit.rs:216-219 · `critbitFromSlice` critbit.rs:81-86 · `allocFromSlice` node_allocator.rs:59-63, 242-251

**Caprice.lean** - `rbAttach` red_black_tree.rs:491-502 · `rbInsertLoop` red_black_tree.rs:482-507 · `rbInsert` red_black_tree.rs:474-508 · `rbRemoveLoop` red_black_tree.rs:546-563 · `rbRemove` red_black_tree.rs:541-564 · `rbSearchLoop` red_black_tree.rs:694-705 · `rbGetAddr` red_black_tree.rs:689-706 · `rbGetMut` red_black_tree.rs:158-165 · `avlAttach` avl_tree.rs:306-317 · `avlInsertLoop` avl_tree.rs:290-319 · `avlInsert` avl_tree.rs:279-320 · `avlRemovePath` avl_tree.rs:330-345 · `avlRemove` avl_tree.rs:322-428 · `avlSearchLoop` avl_tree.rs:134-147, 155-168, 546-559 · `avlGetMut` avl_tree.rs:150-169 · `hashFindLoop` hash_table.rs:123-130, 140-167, 248-256, 279-300, 309-316, 325-332 · `hashInsertAt` hash_table.rs:250-270 · `hashRemoveAt` hash_table.rs:282-297 · `hashGetMutAt` hash_table.rs:144-164 · `hashInsert` hash_table.rs:242-271 · `hashRemove` hash_table.rs:273-302 · `hashGetMut` hash_table.rs:134-169

**Critbit.lean** - `CritbitNode` critbit.rs:9-15 · `Critbit` critbit.rs:30-46 · `LEFT` node_allocator.rs:12 · `RIGHT` node_allocator.rs:13 · `PARENT` node_allocator.rs:14 · `VALUE` node_allocator.rs:15 · `leadingZeros` critbit.rs:119, 144, 397, 426 · `new` critbit.rs:68-75 · `newChecked` critbit.rs:66-76, 212-214 · `initialise` critbit.rs:216-219 · `newFromSlice` critbit.rs:81-86 · `len` critbit.rs:154-160 · `isEmpty` node_allocator.rs:43-45 · `capacity` critbit.rs:162-164 · `getLeaf` critbit.rs:221-223 · `replaceLeaf` critbit.rs:225-227; critbit.rs:265-267 · `setNode` critbit.rs:260-262 · `getLeafIndex` critbit.rs:229-231 · `isInnerNode` critbit.rs:233-235 · `getNode` critbit.rs:237-239 · `getKey` critbit.rs:241-243 · `getLeft` critbit.rs:246-248 · `getRight` critbit.rs:251-253 · `getParent` critbit.rs:256-258 · `critBitMask` critbit.rs:281, 431 · `addLeaf` critbit.rs:270-277 · `getChild` critbit.rs:280-287 · `duplicate` critbit.rs:290-304 · `replaceNode` critbit.rs:307-321 · `migrateLeaf` critbit.rs:327-335 · `migrate` critbit.rs:324-354 · `removeLeaf` critbit.rs:357-384 · `findLoop` critbit.rs:108-126 · `get` critbit.rs:104-127 · `getMut` critbit.rs:129-152 · `contains` critbit.rs:100-102 · `index` critbit.rs:776-783 · `indexMut` critbit.rs:785-792 · `getAddr` critbit.rs:386-405 · `insertSplit` critbit.rs:431-441 · `insertLoop` critbit.rs:418-442 · `insert` critbit.rs:92-94, 407-443 · `removeLoop` critbit.rs:470-485 · `removeAt` critbit.rs:486-491 · `remove` critbit.rs:96-98, 445-494 · `minLoop` critbit.rs:496-502 · `maxLoop` critbit.rs:504-510 · `getMinIndex` critbit.rs:178-180 · `getMaxIndex` critbit.rs:182-184 · `entryAt` critbit.rs:190-192, 201-203 · `getMin` critbit.rs:186-195 · `getMax` critbit.rs:197-206 · `Iter` critbit.rs:588-601, 672-685 · `iter` critbit.rs:512-555 · `Iter.nextLoop` critbit.rs:611-635, 695-729 · `Iter.nextBackLoop` critbit.rs:645-669, 739-773 · `Iter.item` critbit.rs:622-624, 656-658 · `Iter.next` critbit.rs:611-635 · `Iter.nextBack` critbit.rs:645-669 · `Iter.nextMut` critbit.rs:695-729 · `Iter.nextBackMut` critbit.rs:739-773

**Deque.lean** - `Deque` deque.rs:11-18 · `PREV` deque.rs:8 · `NEXT` deque.rs:9 · `new` deque.rs:44-60 · `initialise` deque.rs:62-64 · `getNode` deque.rs:89-91 · `front` deque.rs:66-71 · `back` deque.rs:73-78 · `getNext` deque.rs:80-82 · `getPrev` deque.rs:84-86 · `bumpSeq` deque.rs:102, 114, 154 · `pushBack` deque.rs:93-103 · `pushFront` deque.rs:105-115 · `remove'` deque.rs:133-156 · `popFront` deque.rs:117-123 · `popBack` deque.rs:125-131 · `len` deque.rs:158-160 · `isEmpty` deque.rs:162-164 · `Iter` deque.rs:187-192, 238-243 · `iter` deque.rs:166-184 · `Iter.next` deque.rs:199-214 · `Iter.nextBack` deque.rs:220-235 · `Iter.nextMut` deque.rs:250-273 · `Iter.nextBackMut` deque.rs:279-302 · `writeSlot` deque.rs:262-270

**Fuzz.lean** - `DynMap` node_allocator.rs:34-49 · `Action` lib.rs:7-17 · `performAction` lib.rs:19-76 · `redBlack` red_black_tree.rs:131-186 · `avl` avl_tree.rs:111-190 · `hashTable` hash_table.rs:99-190 · `critbit` critbit.rs:89-173 · `assertValid` fuzz_red_black_tree.rs:12 · `assertNothing` fuzz_avl_tree.rs:10-12

**HashTable.lean** - `HashNode` hash_table.rs:12-20 · `HashTable` hash_table.rs:45-55 · `LEFT` node_allocator.rs:22-25 · `RIGHT` node_allocator.rs:22-25 · `assertProperAlignment` hash_table.rs:214-216 · `new` hash_table.rs:83-97, 222-224 · `create` hash_table.rs:83-97 · `initialise` hash_table.rs:218-220 · `newFromSlice` hash_table.rs:199-204 · `getNext` hash_table.rs:226-228 · `getPrev` hash_table.rs:230-232 · `getNode` hash_table.rs:234-236 · `setNodeValue` hash_table.rs:238-240, 251 · `setNode` hash_table.rs:238-240 · `bucketIndex` hash_table.rs:119-121 · `bucket` hash_table.rs:122 · `setBucket` hash_table.rs:162, 261, 293 · `findLoop` hash_table.rs:123-130, 140-167, 248-256, 279-300, 309-316, 325-332 · `get` hash_table.rs:118-132 · `contains` hash_table.rs:114-116 · `getMut` hash_table.rs:134-169 · `len` hash_table.rs:171-177 · `capacity` hash_table.rs:179-181 · `isEmpty` node_allocator.rs:43-45 · `insert` hash_table.rs:242-271 · `remove` hash_table.rs:273-302 · `containsInherent` hash_table.rs:304-318 · `getAddr` hash_table.rs:320-334 · `Iter` hash_table.rs:386-396, 440-450 · `iter` hash_table.rs:336-351 · `Iter.skip` hash_table.rs:410-417, 464-471 · `Iter.next` hash_table.rs:408-424 · `Iter.nextBack` hash_table.rs:435-437 · `Iter.nextMut` hash_table.rs:462-483 · `Iter.nextBackMut` hash_table.rs:494-496 · `index` hash_table.rs:508-510 · `indexMut` hash_table.rs:520-522

**InPlace.lean** - `put` node_allocator.rs:113-115, 259-261 · `setValue` node_allocator.rs:118-120, 259-261 · `addNode` node_allocator.rs:265-280 · `removeNode` node_allocator.rs:284-293 · `clearRegister` node_allocator.rs:308-312 · `setRegister` node_allocator.rs:325-329 · `connect` node_allocator.rs:315-322 · `disconnect` node_allocator.rs:296-305 · `bumpSeq` deque.rs:102, 114, 154 · `pushBackBy` deque.rs:93-103 · `pushFrontBy` deque.rs:105-115 · `removeBy` deque.rs:133-156 · `popFrontBy` deque.rs:117-123 · `popBackBy` deque.rs:125-131 · `rbInsert` red_black_tree.rs:474-508 · `avlInsert` avl_tree.rs:279-320 · `hashInsert` hash_table.rs:242-271 · `addLeaf` critbit.rs:270-277 · `duplicate` critbit.rs:290-304 · `replaceNode` critbit.rs:307-321 · `insertSplit` critbit.rs:431-441 · `insertLoop` critbit.rs:418-442 · `insert` critbit.rs:92-94, 407-443 · `migrate` critbit.rs:324-354 · `removeLeaf` critbit.rs:357-384 · `remove` critbit.rs:96-98, 445-494

**Layout.lean** - `nodeAlign` node_allocator.rs:73-80 · `selfAlign` node_allocator.rs:133-153 · `assertProperAlignment` node_allocator.rs:207-240

**RedBlack.lean** - `RBNode` red_black_tree.rs:33-41 · `RedBlackTree` red_black_tree.rs:66-76 · `LEFT` node_allocator.rs:12 · `RIGHT` node_allocator.rs:13 · `PARENT` node_allocator.rs:14 · `COLOR` red_black_tree.rs:19; node_allocator.rs:15 · `BLACK` red_black_tree.rs:23 · `RED` red_black_tree.rs:24 · `opposite` red_black_tree.rs:28-31 · `new` red_black_tree.rs:107-114, 316-318 · `initialise` red_black_tree.rs:321-323 · `getNode` red_black_tree.rs:325-327 · `setNodeValue` red_black_tree.rs:329-331, 488 · `setNode` red_black_tree.rs:329-331 · `colorRed` red_black_tree.rs:334-338 · `colorBlack` red_black_tree.rs:341-344 · `colorNode` red_black_tree.rs:347-349 · `isRed` red_black_tree.rs:352-354 · `isBlack` red_black_tree.rs:357-359 · `getChild` red_black_tree.rs:362-364 · `getLeft` red_black_tree.rs:385-387 · `getRight` red_black_tree.rs:390-392 · `isLeaf` red_black_tree.rs:367-369 · `isRoot` red_black_tree.rs:372-374 · `getDir` red_black_tree.rs:376-382 · `getColor` red_black_tree.rs:395-397 · `getParent` red_black_tree.rs:400-402 · `removeAllocatorNode` red_black_tree.rs:416-424 · `connect` red_black_tree.rs:427-430 · `childDir` red_black_tree.rs:433-443 · `rotateDir` red_black_tree.rs:445-472 · `fixInsertLoop` red_black_tree.rs:511-536 · `fixInsert` red_black_tree.rs:510-539 · `len` red_black_tree.rs:167-173 · `capacity` red_black_tree.rs:175-177 · `isEmpty` node_allocator.rs:43-45 · `insertLoop` red_black_tree.rs:482-507 · `insert` red_black_tree.rs:474-508 · `transplant` red_black_tree.rs:677-687 · `findMin` red_black_tree.rs:710-712 · `findMax` red_black_tree.rs:718-720 · `fixRemoveLoop` red_black_tree.rs:641-671 · `fixRemove` red_black_tree.rs:635-672 · `removeTwoChildren` red_black_tree.rs:589-621 · `removeTreeNode` red_black_tree.rs:566-633 · `removeLoop` red_black_tree.rs:546-563 · `remove` red_black_tree.rs:541-564 · `removeRoot` red_black_tree.rs:404-414 · `getAddrLoop` red_black_tree.rs:694-705 · `getAddr` red_black_tree.rs:689-706 · `get` red_black_tree.rs:149-156 · `contains` red_black_tree.rs:145-147 · `getMut` red_black_tree.rs:158-165 · `index` red_black_tree.rs:956-958 · `indexMut` red_black_tree.rs:967-969 · `getMinIndex` red_black_tree.rs:194-196 · `getMaxIndex` red_black_tree.rs:198-200 · `getMin` red_black_tree.rs:202-210 · `getMax` red_black_tree.rs:212-220 · `redPair` red_black_tree.rs:294-299 · `validLoop` red_black_tree.rs:286-308 · `isValid` red_black_tree.rs:273-314 · `prettyLoop` red_black_tree.rs:236-262 · `prettyPrint` red_black_tree.rs:229-264 · `Iter` red_black_tree.rs:780-794, 854-868 · `iter` red_black_tree.rs:724-749 · `Iter.nextLoop` red_black_tree.rs:805-823, 879-907 · `Iter.nextBackLoop` red_black_tree.rs:833-851, 917-945 · `Iter.item` red_black_tree.rs:817-819, 845-847 · `Iter.next` red_black_tree.rs:805-823 · `Iter.nextBack` red_black_tree.rs:833-851 · `Iter.nextMut` red_black_tree.rs:879-907 · `Iter.nextBackMut` red_black_tree.rs:917-945

**Shared.lean** - `RedBlackTree.setRoot` red_black_tree.rs:73 · `AVLTree.setRoot` avl_tree.rs:71 · `Critbit.setRoot` critbit.rs:39 · `HashTable.setBuckets` hash_table.rs:53 · `Deque.ends` deque.rs:14-15 · `Deque.setEnds` deque.rs:14-15

**Simulate.lean** - `TestMap` node_allocator.rs:34-49 · `Round` test.rs:84-131 · `fill` test.rs:58-66 · `drain` test.rs:75-79 · `insertMany` test.rs:93-101 · `removeMany` test.rs:107-116 · `replaceMany` test.rs:122-129 · `round` test.rs:85-130 · `roundsLoop` test.rs:84-131 · `churn` test.rs:54-131 · `compare` test.rs:132-146, 155-163 · `overwrite` test.rs:148-153 · `stepFront` test.rs:171-176 · `stepBack` test.rs:177-182 · `doubleEnded` test.rs:166-193 · `consumed` test.rs:195-213 · `stepFrontMut` test.rs:222-230 · `stepBackMut` test.rs:231-239 · `doubleEndedMut` test.rs:216-250 · `verify` test.rs:132-281 · `simulate` test.rs:40-282 · `redBlack` test.rs:284-288 · `hashTable` test.rs:290-295 · `avl` test.rs:297-301 · `critbit` test.rs:303-308

**UnitTests.lean** - `redParentAndUncle` red_black_tree.rs:975-1013 · `rightRight` red_black_tree.rs:1024-1066 · `leftRight` red_black_tree.rs:1077-1119 · `leftLeft` red_black_tree.rs:1130-1172 · `rightLeft` red_black_tree.rs:1183-1226 · `fillTree` red_black_tree.rs:1238-1245, 1263-1270, 1291-1297, 1309-1313, 1331-1338, 1354-1361 · `drainTree` red_black_tree.rs:1247-1250, 1276-1279, 1316-1319, 1339-1342, 1362-1365 · `addressesKept` red_black_tree.rs:1272-1274 · `deleteAll` red_black_tree.rs:1230-1251, 1323-1343, 1346-1366 · `deleteAllAddresses` red_black_tree.rs:1254-1280 · `deleteAllIndices` red_black_tree.rs:1283-1320 · `removeRootTest` red_black_tree.rs:1369-1385 · `pushBacks` deque.rs:316-320, 381-385 · `pushFronts` deque.rs:321-325, 386-390 · `zipForward` deque.rs:326-328, 391-393 · `zipBackward` deque.rs:329-331, 394-396 · `stepsForward` deque.rs:337-339 · `stepsBackward` deque.rs:340-342 · `endsForGood` deque.rs:344-347, 349-352 · `meet` deque.rs:333-353 · `stepsForwardMut` deque.rs:359-361 · `stepsBackwardMut` deque.rs:362-364 · `endsForGoodMut` deque.rs:366-369, 371-374 · `meetMut` deque.rs:355-375 · `popBacks` deque.rs:377-379 · `popFronts` deque.rs:397-399 · `testDeque` deque.rs:307-401

