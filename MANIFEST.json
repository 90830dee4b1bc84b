{
 "claims": [
  {
   "property": "C01",
   "status": "proved",
   "theorems": [
    "Sokoban.Props.C01_add_node_fresh",
    "Sokoban.Props.C01_live_nodup"
   ],
   "note": "Histories = inductive Reach over all legal client calls; live computed from the event trace."
  },
  {
   "property": "C02",
   "status": "proved",
   "theorems": [
    "Sokoban.Props.C02_live_nodes_undisturbed",
    "Sokoban.Props.C02_remove_returns_value"
   ],
   "note": ""
  },
  {
   "property": "C03",
   "status": "proved",
   "theorems": [
    "Sokoban.Props.C03_size_exact",
    "Sokoban.Props.C03_no_leak"
   ],
   "note": ""
  },
  {
   "property": "C04",
   "status": "proved",
   "theorems": [
    "Sokoban.Props.C04_lifo_reuse"
   ],
   "note": ""
  },
  {
   "property": "C05",
   "status": "proved",
   "theorems": [
    "Sokoban.Props.C05_zeroed_registers"
   ],
   "note": ""
  },
  {
   "property": "C06",
   "status": "proved",
   "theorems": [
    "Sokoban.Props.C06_avl_initialize",
    "Sokoban.Props.C06_initialize_once",
    "Sokoban.Props.C06_critbit_initialize",
    "Sokoban.Props.C06_deque_initialize",
    "Sokoban.Props.C06_hash_initialize",
    "Sokoban.Props.C06_rb_initialize"
   ],
   "note": ""
  },
  {
   "property": "C07",
   "status": "proved",
   "theorems": [
    "Sokoban.Props.C07_slots_aligned"
   ],
   "note": ""
  },
  {
   "property": "C08",
   "status": "proved",
   "theorems": [
    "Sokoban.Props.C08_double_free"
   ],
   "note": "Existential claim, concrete witness."
  },
  {
   "property": "C09",
   "status": "proved",
   "theorems": [
    "Sokoban.Props.C09_deque_refines_queue"
   ],
   "note": ""
  },
  {
   "property": "C10",
   "status": "proved",
   "theorems": [
    "Sokoban.Props.C10_deque_overflow_panics",
    "Sokoban.Props.C10_deque_panics_only_when_full"
   ],
   "note": ""
  },
  {
   "property": "C11",
   "status": "proved",
   "theorems": [
    "Sokoban.Props.C11_deque_iter"
   ],
   "note": ""
  },
  {
   "property": "C12",
   "status": "proved",
   "theorems": [
    "Sokoban.Props.C12_deque_iter_mut"
   ],
   "note": ""
  },
  {
   "property": "C13",
   "status": "proved",
   "theorems": [
    "Sokoban.Props.C13_sequence_number",
    "Sokoban.Props.C13_pop_empty"
   ],
   "note": ""
  },
  {
   "property": "C14",
   "status": "proved",
   "theorems": [
    "Sokoban.Props.C14_linked_list"
   ],
   "note": ""
  },
  {
   "property": "C15",
   "status": "proved",
   "theorems": [
    "Sokoban.Props.C15_hash_refines_map"
   ],
   "note": ""
  },
  {
   "property": "C16",
   "status": "proved",
   "theorems": [
    "Sokoban.Props.C16_hash_insert_refused"
   ],
   "note": ""
  },
  {
   "property": "C17",
   "status": "proved",
   "theorems": [
    "Sokoban.Props.C17_hash_iter"
   ],
   "note": ""
  },
  {
   "property": "C18",
   "status": "proved",
   "theorems": [
    "Sokoban.Props.C18_hash_get_mut"
   ],
   "note": ""
  },
  {
   "property": "C19",
   "status": "proved",
   "theorems": [
    "Sokoban.Props.C19_hash_rev_yields_nothing",
    "Sokoban.Props.C19_hash_rev_contract_refuted",
    "Sokoban.Props.C19_hash_mixed_iteration"
   ],
   "note": "Deviation: the double-ended contract is refuted for every non-empty reachable table; the actual behaviour for mixed call sequences is proved."
  },
  {
   "property": "C20",
   "status": "proved",
   "theorems": [
    "Sokoban.Props.C20_hash_iter_mut"
   ],
   "note": ""
  },
  {
   "property": "C21",
   "status": "proved",
   "theorems": [
    "Sokoban.Props.C21_hash_insert_addr",
    "Sokoban.Props.C21_hash_addr_stable"
   ],
   "note": ""
  },
  {
   "property": "C22",
   "status": "proved",
   "theorems": [
    "Sokoban.Props.C22_rb_refines_map"
   ],
   "note": ""
  },
  {
   "property": "C23",
   "status": "proved",
   "theorems": [
    "Sokoban.Props.C23_rb_is_red_black"
   ],
   "note": ""
  },
  {
   "property": "C24",
   "status": "proved",
   "theorems": [
    "Sokoban.Props.C24_rb_depth"
   ],
   "note": "Loop iterations bounded: the loops with 2*log2(len+1) iterations of fuel give the result of the operation."
  },
  {
   "property": "C25",
   "status": "proved",
   "theorems": [
    "Sokoban.Props.C25_rb_iter"
   ],
   "note": ""
  },
  {
   "property": "C26",
   "status": "proved",
   "theorems": [
    "Sokoban.Props.C26_rb_min",
    "Sokoban.Props.C26_rb_max"
   ],
   "note": ""
  },
  {
   "property": "C27",
   "status": "proved",
   "theorems": [
    "Sokoban.Props.C27_rb_never_panics"
   ],
   "note": ""
  },
  {
   "property": "C28",
   "status": "proved",
   "theorems": [
    "Sokoban.Props.C28_rb_insert_addr",
    "Sokoban.Props.C28_rb_addr_stable"
   ],
   "note": ""
  },
  {
   "property": "C29",
   "status": "proved",
   "theorems": [
    "Sokoban.Props.C29_rb_iter_mut"
   ],
   "note": ""
  },
  {
   "property": "C30",
   "status": "proved",
   "theorems": [
    "Sokoban.Props.C30_avl_insert_refused",
    "Sokoban.Props.C30_rb_insert_refused"
   ],
   "note": ""
  },
  {
   "property": "C31",
   "status": "proved",
   "theorems": [
    "Sokoban.Props.C31_avl_capacity_zero_panics",
    "Sokoban.Props.C31_critbit_capacity_zero_panics",
    "Sokoban.Props.C31_hash_capacity_zero",
    "Sokoban.Props.C31_rb_capacity_zero_panics"
   ],
   "note": "Deviation: the three trees panic, the hash table returns None."
  },
  {
   "property": "C32",
   "status": "proved",
   "theorems": [
    "Sokoban.Props.C32_rb_remove_root"
   ],
   "note": ""
  },
  {
   "property": "C33",
   "status": "proved",
   "theorems": [
    "Sokoban.Props.C33_avl_refines_map"
   ],
   "note": ""
  },
  {
   "property": "C34",
   "status": "proved",
   "theorems": [
    "Sokoban.Props.C34_avl_height_balanced"
   ],
   "note": ""
  },
  {
   "property": "C35",
   "status": "proved",
   "theorems": [
    "Sokoban.Props.C35_avl_depth_fib",
    "Sokoban.Props.C35_avl_depth"
   ],
   "note": "Loop iterations bounded: the loops with that many iterations of fuel give the result of the operation."
  },
  {
   "property": "C36",
   "status": "proved",
   "theorems": [
    "Sokoban.Props.C36_avl_iter"
   ],
   "note": ""
  },
  {
   "property": "C37",
   "status": "proved",
   "theorems": [
    "Sokoban.Props.C37_avl_min",
    "Sokoban.Props.C37_avl_max"
   ],
   "note": ""
  },
  {
   "property": "C38",
   "status": "proved",
   "theorems": [
    "Sokoban.Props.C38_avl_never_panics"
   ],
   "note": ""
  },
  {
   "property": "C39",
   "status": "proved",
   "theorems": [
    "Sokoban.Props.C39_avl_insert_addr",
    "Sokoban.Props.C39_avl_addr_stable"
   ],
   "note": ""
  },
  {
   "property": "C40",
   "status": "proved",
   "theorems": [
    "Sokoban.Props.C40_avl_iter_mut"
   ],
   "note": ""
  },
  {
   "property": "C41",
   "status": "proved",
   "theorems": [
    "Sokoban.Props.C41_avl_incomparable_overwrites"
   ],
   "note": "Proved for every key type and every pair of keys of which neither is less than the other."
  },
  {
   "property": "C42",
   "status": "proved",
   "theorems": [
    "Sokoban.Props.C42_critbit_refines_map"
   ],
   "note": ""
  },
  {
   "property": "C43",
   "status": "proved",
   "theorems": [
    "Sokoban.Props.C43_critbit_full_refuses",
    "Sokoban.Props.C43_critbit_insert_below_capacity",
    "Sokoban.Props.C43_critbit_get_mut_updates"
   ],
   "note": "Deviation, for every reachable full tree; the positive parts (below capacity, get_mut) are separate theorems."
  },
  {
   "property": "C44",
   "status": "proved",
   "theorems": [
    "Sokoban.Props.C44_critbit_iter"
   ],
   "note": ""
  },
  {
   "property": "C45",
   "status": "proved",
   "theorems": [
    "Sokoban.Props.C45_critbit_min",
    "Sokoban.Props.C45_critbit_max"
   ],
   "note": ""
  },
  {
   "property": "C46",
   "status": "proved",
   "theorems": [
    "Sokoban.Props.C46_critbit_never_panics"
   ],
   "note": ""
  },
  {
   "property": "C47",
   "status": "proved",
   "theorems": [
    "Sokoban.Props.C47_critbit_depth"
   ],
   "note": "Loop iterations bounded: the loops with 129 iterations of fuel give the result of the operation, independently of NUM_NODES."
  },
  {
   "property": "C48",
   "status": "proved",
   "theorems": [
    "Sokoban.Props.C48_critbit_get_addr_empty_panics",
    "Sokoban.Props.C48_critbit_get_addr"
   ],
   "note": "Deviation for every reachable empty tree; positive part for every non-empty one."
  },
  {
   "property": "C49",
   "status": "proved",
   "theorems": [
    "Sokoban.Props.C49_critbit_insert_addr",
    "Sokoban.Props.C49_critbit_addr_unstable",
    "Sokoban.Props.C49_critbit_slot_stable"
   ],
   "note": "Instability proved for any two keys after every history that empties the tree; slot stability for every history."
  },
  {
   "property": "C50",
   "status": "proved",
   "theorems": [
    "Sokoban.Props.C50_critbit_iter_mut"
   ],
   "note": ""
  },
  {
   "property": "C51",
   "status": "proved",
   "theorems": [
    "Sokoban.Props.C51_critbit_allocators_in_step",
    "Sokoban.Props.C51_critbit_new_checked"
   ],
   "note": ""
  },
  {
   "property": "C52",
   "status": "proved",
   "theorems": [
    "Sokoban.Props.C52_rb_avl_agree",
    "Sokoban.Props.C52_rb_hash_agree",
    "Sokoban.Props.C52_rb_critbit_agree",
    "Sokoban.Props.C52_all_maps_agree"
   ],
   "note": "Four maps over BitVec 128 keys; histories that stay below capacity."
  },
  {
   "property": "C53",
   "status": "proved",
   "theorems": [
    "Sokoban.Props.C53_load",
    "Sokoban.Props.C53_layout_agrees",
    "Sokoban.Props.C53_frame",
    "Sokoban.Props.C53_alloc_bytes",
    "Sokoban.Props.C53_deque_bytes",
    "Sokoban.Props.C53_hash_bytes",
    "Sokoban.Props.C53_rb_bytes",
    "Sokoban.Props.C53_avl_bytes",
    "Sokoban.Props.C53_critbit_bytes"
   ],
   "note": "Byte model of every repr(C) structure, little-endian; the buffer may be moved and its tail changed before every call."
  },
  {
   "property": "C54",
   "status": "proved",
   "theorems": [
    "Sokoban.Props.C54_no_padding_between_nodes",
    "Sokoban.Props.C54_padding_not_excluded"
   ],
   "note": "C54_padding_not_excluded is the negative (deviation) part with a concrete witness."
  },
  {
   "property": "C55",
   "status": "proved",
   "theorems": [
    "Sokoban.Props.C55_small_values_refused"
   ],
   "note": ""
  },
  {
   "property": "C56",
   "status": "proved",
   "theorems": [
    "Sokoban.Props.C56_hash_create_iff_even",
    "Sokoban.Props.C56_hash_zero_buckets_panics"
   ],
   "note": "Deviation: NUM_BUCKETS = 0 accepted by the assertion, every access panics."
  },
  {
   "property": "C57",
   "status": "proved",
   "theorems": [
    "Sokoban.Props.C57_alloc_in_range",
    "Sokoban.Props.C57_deque_in_range",
    "Sokoban.Props.C57_hash_in_range",
    "Sokoban.Props.C57_rb_in_range",
    "Sokoban.Props.C57_avl_in_range",
    "Sokoban.Props.C57_critbit_in_range"
   ],
   "note": "Justifies modelling u32/u64 words as natural numbers."
  },
  {
   "property": "C58",
   "status": "proved",
   "theorems": [
    "Sokoban.Props.C58_rb_padding",
    "Sokoban.Props.C58_rb_accepts_padding",
    "Sokoban.Props.C58_accepted_types_differ"
   ],
   "note": "Deviation with concrete witnesses, plus the exact condition."
  },
  {
   "property": "C59",
   "status": "proved",
   "theorems": [
    "Sokoban.Props.C59_alloc_initialize",
    "Sokoban.Props.C59_deque_new_from_slice",
    "Sokoban.Props.C59_deque_no_reuse",
    "Sokoban.Props.C59_hash_new_from_slice",
    "Sokoban.Props.C59_hash_no_reuse",
    "Sokoban.Props.C59_rb_new_from_slice",
    "Sokoban.Props.C59_rb_no_reuse",
    "Sokoban.Props.C59_avl_new_from_slice",
    "Sokoban.Props.C59_avl_no_reuse",
    "Sokoban.Props.C59_critbit_new_from_slice",
    "Sokoban.Props.C59_critbit_no_reuse"
   ],
   "note": "Assertions at the address where the allocator lies in the structure; both alignments of u128."
  },
  {
   "property": "C60",
   "status": "proved",
   "theorems": [
    "Sokoban.Props.C60_rb_pretty_print",
    "Sokoban.Props.C60_rb_pretty_print_any"
   ],
   "note": "Text computed by the stack loop equals a recursive rendering of the tree."
  },
  {
   "property": "C61",
   "status": "proved",
   "theorems": [
    "Sokoban.Props.C61_rb_is_valid_iff",
    "Sokoban.Props.C61_rb_is_valid_complete",
    "Sokoban.Props.C61_rb_is_valid_accepts_chain"
   ],
   "note": "Exact characterisation; the deviation is a family of memories, one per capacity (not reachable by operations: see C23)."
  },
  {
   "property": "C62",
   "status": "proved",
   "theorems": [
    "Sokoban.Props.C62_critbit_shape_is_trie",
    "Sokoban.Props.C62_critbit_history_independent"
   ],
   "note": "Keys as any list with the same members; the trie is a recursive function on key lists that does not mention the tree."
  },
  {
   "property": "C63",
   "status": "proved",
   "theorems": [
    "Sokoban.Props.C63_critbit_deep_search",
    "Sokoban.Props.C63_critbit_depth_attained"
   ],
   "note": "Companion of C47: 128 iterations are not enough, 129 are."
  },
  {
   "property": "C64",
   "status": "proved",
   "theorems": [
    "Sokoban.Props.C64_deque_iter_mut_in_bounds",
    "Sokoban.Props.C64_deque_iter_mut_aliases",
    "Sokoban.Props.C64_hash_iter_mut_in_bounds",
    "Sokoban.Props.C64_hash_iter_mut_aliases",
    "Sokoban.Props.C64_rb_iter_mut_in_bounds",
    "Sokoban.Props.C64_rb_iter_mut_aliases",
    "Sokoban.Props.C64_avl_iter_mut_in_bounds",
    "Sokoban.Props.C64_avl_iter_mut_aliases",
    "Sokoban.Props.C64_critbit_iter_mut_key_in_bounds",
    "Sokoban.Props.C64_critbit_iter_mut_out_of_bounds"
   ],
   "note": "Positive part for any memory; negative part as bytes in any fitting buffer. C12, C20, C29 and their siblings show that memories reached by the operations have none of this."
  },
  {
   "property": "C65",
   "status": "proved",
   "theorems": [
    "Sokoban.Props.C65_alloc_usable",
    "Sokoban.Props.C65_deque_multiple",
    "Sokoban.Props.C65_hash_multiple",
    "Sokoban.Props.C65_rb_multiple",
    "Sokoban.Props.C65_avl_multiple",
    "Sokoban.Props.C65_critbit_multiple"
   ],
   "note": "C01, C02, C04, C05 and C06 of the allocator hold without any bound on MAX_SIZE as well. The overflow is a panic in the model (debug profile or overflow-checks); with wrapping arithmetic bump_index would become 0 there and one more node would fit."
  },
  {
   "property": "C66",
   "status": "proved",
   "theorems": [
    "Sokoban.Props.C66_hash_iteration_order",
    "Sokoban.Props.C66_hash_iteration_deterministic",
    "Sokoban.Props.C66_hash_get_mut_reorders"
   ],
   "note": "The order is computed by a function of the history alone; determinism is a corollary."
  },
  {
   "property": "C67",
   "status": "proved",
   "theorems": [
    "Sokoban.Props.C67_rb_any_order",
    "Sokoban.Props.C67_rb_any_order_balanced",
    "Sokoban.Props.C67_avl_any_order",
    "Sokoban.Props.C67_avl_any_order_balanced"
   ],
   "note": "No law of any kind is assumed of the comparison; < and > of the AVL tree are two independent relations."
  },
  {
   "property": "C68",
   "status": "proved",
   "theorems": [
    "Sokoban.Props.C68_hash_any_eq",
    "Sokoban.Props.C68_hash_key_equal_to_none",
    "Sokoban.Props.C68_hash_entry_equal_to_none_stays"
   ],
   "note": "Exact: the rows are a function of the history, the hash and the equality. The equality is a pure function (it does not panic and does not change its answers)."
  },
  {
   "property": "C69",
   "status": "proved",
   "theorems": [
    "Sokoban.Props.C69_rb_links",
    "Sokoban.Props.C69_rb_neighbours",
    "Sokoban.Props.C69_critbit_links",
    "Sokoban.Props.C69_hash_chains"
   ],
   "note": "One inductive predicate (Spec/Nav.lean) for both trees; the red-black and hash parts assume no law of comparison or equality. AVLTree has no public navigation functions."
  },
  {
   "property": "C70",
   "status": "proved",
   "theorems": [
    "Sokoban.Props.C70_rb_writes",
    "Sokoban.Props.C70_rb_remains",
    "Sokoban.Props.C70_avl_writes",
    "Sokoban.Props.C70_avl_remains",
    "Sokoban.Props.C70_hash_writes",
    "Sokoban.Props.C70_hash_remains",
    "Sokoban.Props.C70_critbit_writes",
    "Sokoban.Props.C70_deque_writes",
    "Sokoban.Props.C70_alloc_writes"
   ],
   "note": "Frame conditions without any invariant. For histories the slots handed out are collected in a list (Spec/Keep.lean)."
  },
  {
   "property": "C71",
   "status": "proved",
   "theorems": [
    "Sokoban.Props.C71_rb",
    "Sokoban.Props.C71_avl",
    "Sokoban.Props.C71_hash",
    "Sokoban.Props.C71_deque",
    "Sokoban.Props.C71_critbit",
    "Sokoban.Props.C71_critbit_nodes"
   ],
   "note": "No law of comparison or equality is assumed. Critbit: leaves and nodes."
  },
  {
   "property": "C72",
   "status": "proved",
   "theorems": [
    "Sokoban.Props.C72_rb_node_writes",
    "Sokoban.Props.C72_rb_value_write_is_insert",
    "Sokoban.Props.C72_rb_node_write_out_of_range",
    "Sokoban.Props.C72_avl_node_writes",
    "Sokoban.Props.C72_avl_value_write_is_insert",
    "Sokoban.Props.C72_avl_node_write_out_of_range",
    "Sokoban.Props.C72_hash_node_writes",
    "Sokoban.Props.C72_hash_value_write_is_insert",
    "Sokoban.Props.C72_hash_node_write_out_of_range",
    "Sokoban.Props.C72_rb_key_write_breaks_the_map",
    "Sokoban.Props.C72_avl_key_write_breaks_the_map",
    "Sokoban.Props.C72_hash_key_write_breaks_the_map",
    "Sokoban.Props.C72_critbit_node_write_panics"
   ],
   "note": "Specification on sequences with addresses (Spec/Poke.lean). Critbit only as the negative witness: no positive statement is made for node writes there."
  },
  {
   "property": "C73",
   "status": "proved",
   "theorems": [
    "Sokoban.Props.C73_rb_cost",
    "Sokoban.Props.C73_avl_cost_fib",
    "Sokoban.Props.C73_avl_cost",
    "Sokoban.Props.C73_hash_cost",
    "Sokoban.Props.C73_hash_move_to_front"
   ],
   "note": "The model gives every loop a bound on its iterations, a parameter of insert / remove / remove_root, and fails when it is exceeded; the theorems say that the bound may be logarithmic without any change of the result. For the hash table the count is exact in both directions. Critbit: C47."
  },
  {
   "property": "C74",
   "status": "proved",
   "theorems": [
    "Sokoban.Props.C74_rb",
    "Sokoban.Props.C74_avl",
    "Sokoban.Props.C74_hash",
    "Sokoban.Props.C74_deque",
    "Sokoban.Props.C74_critbit",
    "Sokoban.Props.C74_shrink_below_peak",
    "Sokoban.Props.C74_grow_into_garbage",
    "Sokoban.Props.C74_critbit_nodes"
   ],
   "note": "At the level of bytes (Model/Bytes.lean). The three negative statements are witnesses on concrete buffers. Deque: fewer than 2^64 calls, no push into a full deque."
  },
  {
   "property": "C75",
   "status": "proved",
   "theorems": [
    "Sokoban.Props.C75_rb_slots",
    "Sokoban.Props.C75_avl_slots",
    "Sokoban.Props.C75_hash_slots",
    "Sokoban.Props.C75_critbit_slots",
    "Sokoban.Props.C75_deque_slots",
    "Sokoban.Props.C75_same_slots"
   ],
   "note": "Specified by the slot machines Slots and Line of Spec/Slots.lean. For Critbit the slots are those of the values (the leaves allocator); which tree nodes are used is not predicted."
  },
  {
   "property": "C76",
   "status": "proved",
   "theorems": [
    "Sokoban.Props.C76_rb_insert",
    "Sokoban.Props.C76_rb_remove",
    "Sokoban.Props.C76_avl",
    "Sokoban.Props.C76_deque",
    "Sokoban.Props.C76_hash",
    "Sokoban.Props.C76_critbit"
   ],
   "note": "The bounds count the writes of the code and are not claimed to be least (a write may put back what was there). For the AVL removal the bound is logarithmic, since it may rotate at every node of the path."
  },
  {
   "property": "C77",
   "status": "proved",
   "theorems": [
    "Sokoban.Props.C77_hash",
    "Sokoban.Props.C77_rb",
    "Sokoban.Props.C77_avl",
    "Sokoban.Props.C77_critbit",
    "Sokoban.Props.C77_hash_endless",
    "Sokoban.Props.C77_rb_endless",
    "Sokoban.Props.C77_avl_endless",
    "Sokoban.Props.C77_critbit_endless"
   ],
   "note": "So Panic.diverge of the model means non-termination in these loops, also on memory that no history produces. Not covered: the loops of the red-black fix-ups, which change the memory they walk through (on reachable states: C73), is_valid and the printing functions."
  },
  {
   "property": "C78",
   "status": "proved",
   "theorems": [
    "Sokoban.Props.C78_rb_iteration",
    "Sokoban.Props.C78_avl_iteration",
    "Sokoban.Props.C78_critbit_iteration",
    "Sokoban.Props.C78_hash_iteration"
   ],
   "note": "The loops of iter and iter_mut are the same (Model). The bound is reached for the trees (example); for Critbit and HashTable it is larger by the number of Some, resp. None, results. Deque iterators have no loop."
  },
  {
   "property": "C79",
   "status": "proved",
   "theorems": [
    "Sokoban.Props.C79_rb_fuzz",
    "Sokoban.Props.C79_avl_fuzz",
    "Sokoban.Props.C79_hash_fuzz",
    "Sokoban.Props.C79_critbit_fuzz",
    "Sokoban.Props.C79_critbit_fuzz_fails"
   ],
   "note": "The harness is modelled in Model/Fuzz.lean; random numbers are part of the input. rev() of the HashTable iterators yields nothing (C19), so IterRev checks nothing there. The println! of fuzz_critbit.rs is not modelled."
  },
  {
   "property": "C80",
   "status": "proved",
   "theorems": [
    "Sokoban.Props.C80_rb_uninitialised",
    "Sokoban.Props.C80_avl_uninitialised",
    "Sokoban.Props.C80_critbit_uninitialised",
    "Sokoban.Props.C80_hash_uninitialised",
    "Sokoban.Props.C80_deque_uninitialised"
   ],
   "note": "What the panicking insertion leaves behind is the subject of C83."
  },
  {
   "property": "C81",
   "status": "proved",
   "theorems": [
    "Sokoban.Props.C81_alloc_full_unchanged",
    "Sokoban.Props.C81_deque_calls",
    "Sokoban.Props.C81_deque_caught",
    "Sokoban.Props.C81_deque_full_unchanged",
    "Sokoban.Props.C81_rb_caught",
    "Sokoban.Props.C81_avl_caught",
    "Sokoban.Props.C81_critbit_capacity_zero"
   ],
   "note": "The in-place model (Model/InPlace.lean) keeps the state of a panicking call; C81_deque_calls and C83_insert_calls show that it makes the same calls as the model of the other claims. Unwinding itself (drop order, poisoning) is not modelled: the elements are plain data."
  },
  {
   "property": "C82",
   "status": "proved",
   "theorems": [
    "Sokoban.Props.C82_critbit_calls",
    "Sokoban.Props.C82_critbit_initialize_any_nodes",
    "Sokoban.Props.C82_critbit_any_nodes",
    "Sokoban.Props.C82_critbit_caught_insert",
    "Sokoban.Props.C82_critbit_caught_remove_loses"
   ],
   "note": "The deviation is stated as it is: the statement that a caught panic leaves the map unchanged fails for len (C82_critbit_caught_insert) and for a later remove (C82_critbit_caught_remove_loses). C82_critbit_calls ties the in-place model to the one of C42."
  },
  {
   "property": "C83",
   "status": "proved",
   "theorems": [
    "Sokoban.Props.C83_insert_calls",
    "Sokoban.Props.C83_alloc",
    "Sokoban.Props.C83_deque",
    "Sokoban.Props.C83_rb",
    "Sokoban.Props.C83_avl",
    "Sokoban.Props.C83_hash",
    "Sokoban.Props.C83_critbit"
   ],
   "note": "For RedBlackTree and AVLTree only the first branch of insert is written in place, the rest is one step (it does not panic, C27, C38)."
  },
  {
   "property": "C84",
   "status": "proved",
   "theorems": [
    "Sokoban.Props.C84_rb_index",
    "Sokoban.Props.C84_avl_index",
    "Sokoban.Props.C84_critbit_index",
    "Sokoban.Props.C84_hash_index"
   ],
   "note": "Found by a wrong program (index_mut of HashTable dropping the move to the front) that the earlier theorems did not exclude."
  },
  {
   "property": "C85",
   "status": "proved",
   "theorems": [
    "Sokoban.Props.C85_fuzz_detects",
    "Sokoban.Props.C85_fuzz_misses"
   ],
   "note": "The DynMap of the model stands for dyn NodeAllocatorMap; a panic or endless loop of the implementation counts as a failure of the target."
  },
  {
   "property": "C86",
   "status": "proved",
   "theorems": [
    "Sokoban.Props.C86_deque_checked",
    "Sokoban.Props.C86_deque_wrapping",
    "Sokoban.Props.C86_builds_agree"
   ],
   "note": "Both builds are the same function with another increment of sequence_number; the other additions (size, bump_index) cannot overflow by the invariant."
  },
  {
   "property": "C87",
   "status": "proved",
   "theorems": [
    "Sokoban.Props.C87_hash_changing",
    "Sokoban.Props.C87_hash_other",
    "Sokoban.Props.C87_hash_same_buckets",
    "Sokoban.Props.C87_hash_usize32_loses"
   ],
   "note": "The hash function is a parameter of every call of the model; DefaultHasher itself is not modelled."
  },
  {
   "property": "C88",
   "status": "proved",
   "theorems": [
    "Sokoban.Props.C88_rb_fill",
    "Sokoban.Props.C88_avl_fill",
    "Sokoban.Props.C88_critbit_fill",
    "Sokoban.Props.C88_hash_fill",
    "Sokoban.Props.C88_rb_copy",
    "Sokoban.Props.C88_avl_copy",
    "Sokoban.Props.C88_critbit_copy",
    "Sokoban.Props.C88_hash_copy"
   ],
   "note": "Copies between different kinds of maps follow by combining a fill theorem with the iteration of the other kind."
  },
  {
   "property": "C89",
   "status": "proved",
   "theorems": [
    "Sokoban.Props.C89_rb_simulate",
    "Sokoban.Props.C89_avl_simulate",
    "Sokoban.Props.C89_hash_simulate",
    "Sokoban.Props.C89_critbit_simulate",
    "Sokoban.Props.C89_get_unused",
    "Sokoban.Props.C89_compare_sorted",
    "Sokoban.Props.C89_compare_unsorted"
   ],
   "note": "Random choices are universally quantified inputs; rand and BTreeMap are modelled by their documented behaviour (gen_range panics on an empty range, BTreeMap is an ascending list)."
  },
  {
   "property": "C90",
   "status": "proved",
   "theorems": [
    "Sokoban.Props.C90_rb_trait",
    "Sokoban.Props.C90_rb_run",
    "Sokoban.Props.C90_rb_reads",
    "Sokoban.Props.C90_rb_new",
    "Sokoban.Props.C90_rb_small_keys",
    "Sokoban.Props.C90_avl_trait",
    "Sokoban.Props.C90_avl_run",
    "Sokoban.Props.C90_avl_reads",
    "Sokoban.Props.C90_avl_new",
    "Sokoban.Props.C90_avl_small_keys",
    "Sokoban.Props.C90_critbit_trait",
    "Sokoban.Props.C90_critbit_run",
    "Sokoban.Props.C90_critbit_reads",
    "Sokoban.Props.C90_critbit_new",
    "Sokoban.Props.C90_hash_run",
    "Sokoban.Props.C90_hash_addresses",
    "Sokoban.Props.C90_hash_reads",
    "Sokoban.Props.C90_hash_new",
    "Sokoban.Props.C90_deque_run",
    "Sokoban.Props.C90_deque_reads",
    "Sokoban.Props.C90_deque_new"
   ],
   "note": "Proved without any invariant, by a walk through the code of every function. The pretty printer of the red-black tree is not covered."
  },
  {
   "property": "C91",
   "status": "proved",
   "theorems": [
    "Sokoban.C91_avl_run",
    "Sokoban.C91_avl_step",
    "Sokoban.C91_avl_unique",
    "Sokoban.C91_redBlack_run",
    "Sokoban.C91_redBlack_step",
    "Sokoban.C91_redBlack_unique"
   ],
   "note": "The algebraic functions are this project's own transcription of the textbook algorithms; nothing in them refers to the model."
  },
  {
   "property": "C92",
   "status": "proved",
   "theorems": [
    "Sokoban.C92_red_uncle",
    "Sokoban.C92_right_right",
    "Sokoban.C92_left_right",
    "Sokoban.C92_left_left",
    "Sokoban.C92_right_left",
    "Sokoban.C92_remove_root",
    "Sokoban.C92_delete_multiple",
    "Sokoban.C92_delete_multiple_addresses",
    "Sokoban.C92_delete_multiple_indices",
    "Sokoban.C92_deque"
   ],
   "note": "The VecDeque and the HashMap of the tests are a list and a sorted association list; the hash function that makes the keys is the list of keys."
  },
  {
   "property": "C93",
   "status": "proved",
   "theorems": [
    "Sokoban.Props.C93_hash_insert_remove",
    "Sokoban.Props.C93_hash_remove_insert",
    "Sokoban.Props.C93_deque_push_back_pop_back",
    "Sokoban.Props.C93_deque_push_front_pop_front",
    "Sokoban.Props.C93_deque_pop_back_push_back",
    "Sokoban.Props.C93_deque_pop_front_push_front",
    "Sokoban.Props.C93_critbit_insert_remove",
    "Sokoban.Props.C93_rb_insert_remove",
    "Sokoban.Props.C93_avl_insert_remove",
    "Sokoban.Props.C93_shape_changes"
   ],
   "note": "That AVL and red-black trees do not get their shape back is proved with a witness (C93_shape_changes)."
  },
  {
   "property": "C94",
   "status": "proved",
   "theorems": [
    "Sokoban.Props.C94_rb_overwrite",
    "Sokoban.Props.C94_avl_overwrite",
    "Sokoban.Props.C94_hash_overwrite",
    "Sokoban.Props.C94_critbit_overwrite",
    "Sokoban.Props.C94_rb_benches",
    "Sokoban.Props.C94_avl_benches",
    "Sokoban.Props.C94_hash_benches",
    "Sokoban.Props.C94_critbit_benches",
    "Sokoban.Props.C94_critbit_full_bench"
   ],
   "note": "The number of calls of the closure and the random numbers are arbitrary inputs; time is not modelled. BenchOutcome collects the three kinds of benchmarks."
  },
  {
   "property": "C95",
   "status": "proved",
   "theorems": [
    "Sokoban.Props.C95_insert_endless",
    "Sokoban.Props.C95_remove_endless",
    "Sokoban.Props.C95_valid_endless"
   ],
   "note": "The key and value in the two entries are those in the first bytes of the buffer, so that no element has to be invented. is_valid_red_black_tree counts in u32, hence the bound on its iterations."
  },
  {
   "property": "C96",
   "status": "proved",
   "theorems": [
    "Sokoban.Props.C96_rb_unwind",
    "Sokoban.Props.C96_avl_unwind",
    "Sokoban.Props.C96_hash_unwind",
    "Sokoban.Props.C96_rb_run",
    "Sokoban.Props.C96_avl_run",
    "Sokoban.Props.C96_hash_run",
    "Sokoban.Props.C96_rb_panics",
    "Sokoban.Props.C96_avl_panics",
    "Sokoban.Props.C96_hash_panics",
    "Sokoban.Props.C96_rb_honest",
    "Sokoban.Props.C96_avl_honest",
    "Sokoban.Props.C96_hash_honest"
   ],
   "note": "Model/Caprice.lean writes the searching loops once more on memory that survives a panic, with an oracle for every question; C96_*_honest show that with the answers of fixed instances these are the functions of the other model files. remove_root and iter_mut ask the key type nothing. Critbit has u128 keys and calls no code of the key type."
  },
  {
   "property": "C97",
   "status": "proved",
   "theorems": [
    "Sokoban.Props.C97_rb_local",
    "Sokoban.Props.C97_avl_local",
    "Sokoban.Props.C97_hash_local",
    "Sokoban.Props.C97_critbit_local",
    "Sokoban.Props.C97_rb_reorder",
    "Sokoban.Props.C97_avl_reorder",
    "Sokoban.Props.C97_hash_reorder",
    "Sokoban.Props.C97_critbit_reorder",
    "Sokoban.Props.C97_rb_present",
    "Sokoban.Props.C97_avl_present",
    "Sokoban.Props.C97_critbit_present",
    "Sokoban.Props.C97_hash_present",
    "Sokoban.Props.C97_rb_commute",
    "Sokoban.Props.C97_avl_commute",
    "Sokoban.Props.C97_hash_commute",
    "Sokoban.Props.C97_critbit_commute",
    "Sokoban.Props.C97_rb_remove_root_tells"
   ],
   "note": "For the HashTable (b) leaves out iteration and iter_mut, whose order depends on the history (C66). Addresses (C75) and the shape of the trees (C93) depend on the history too; insert counts as a Boolean result."
  },
  {
   "property": "C98",
   "status": "proved",
   "theorems": [
    "Sokoban.Props.C98_rb_several",
    "Sokoban.Props.C98_rb_forget",
    "Sokoban.Props.C98_avl_several",
    "Sokoban.Props.C98_avl_forget",
    "Sokoban.Props.C98_hash_several",
    "Sokoban.Props.C98_hash_forget"
   ],
   "note": "Only values of the field that the client read itself, or the empty value, are assigned; arbitrary ones are the subject of C77 and C95. remove_root is not treated; for Deque see C99, for Critbit C100. The maps are numbered by Fin n."
  },
  {
   "property": "C99",
   "status": "proved",
   "theorems": [
    "Sokoban.Props.C99_deque_several",
    "Sokoban.Props.C99_deque_several_full",
    "Sokoban.Props.C99_deque_forget"
   ],
   "note": "Both fields are assigned together, and only pairs that the client read itself, or the empty pair."
  },
  {
   "property": "C100",
   "status": "proved",
   "theorems": [
    "Sokoban.Props.C100_critbit_several",
    "Sokoban.Props.C100_critbit_next",
    "Sokoban.Props.C100_critbit_two_stay"
   ],
   "note": "Only roots that the client read itself, or the sentinel, are assigned. What the memory looks like after a panic is not treated."
  },
  {
   "property": "C101",
   "status": "proved",
   "theorems": [
    "Sokoban.Props.C101_rb_recolourings",
    "Sokoban.Props.C101_rb_recolourings_later",
    "Sokoban.Props.C101_rb_count"
   ],
   "note": "The allowances 9 and 13 are not claimed to be the least ones."
  },
  {
   "property": "C102",
   "status": "proved",
   "theorems": [
    "Sokoban.Props.C102_avl_with_removals",
    "Sokoban.Props.C102_avl_rewritings",
    "Sokoban.Props.C102_avl_rewritings_later",
    "Sokoban.Props.C102_avl_count"
   ],
   "note": "The allowance 7 is not claimed to be the least one. C102_avl_with_removals proves that with removals the changes grow with log2 of the capacity per call."
  },
  {
   "property": "C103",
   "status": "proved",
   "theorems": [
    "Sokoban.Props.C103_avl_shapes",
    "Sokoban.Props.C103_avl_insertions",
    "Sokoban.Props.C103_avl_heights"
   ],
   "note": "C102_avl_with_removals uses the same construction for full trees."
  },
  {
   "property": "C104",
   "status": "proved",
   "theorems": [
    "Sokoban.Props.C104_hash_orders",
    "Sokoban.Props.C104_hash_get_mut_orders"
   ],
   "note": "Orders are those that iter() yields; get_mut is called without a write."
  },
  {
   "property": "C105",
   "status": "proved",
   "theorems": [
    "Sokoban.Props.C105_hash_total",
    "Sokoban.Props.C105_hash_each",
    "Sokoban.Props.C105_hash_bounds"
   ],
   "note": "Iterations are those of the search loop of the model; C73 says the same per key."
  },
  {
   "property": "C106",
   "status": "proved",
   "theorems": [
    "Sokoban.Props.C106_any_slots"
   ],
   "note": "The key type is infinite so that there are other keys to fill the memory with for a while."
  },
  {
   "property": "C107",
   "status": "proved",
   "theorems": [
    "Sokoban.Props.C107_rb_full_red",
    "Sokoban.Props.C107_rb_never",
    "Sokoban.Props.C107_rb_without_removals"
   ],
   "note": "Which red-black trees of fewer than MAX_SIZE nodes occur is not stated."
  },
  {
   "property": "C108",
   "status": "proved",
   "theorems": [
    "Sokoban.Props.C108_rb_depth_attained"
   ],
   "note": ""
  },
  {
   "property": "C109",
   "status": "proved",
   "theorems": [
    "Sokoban.Props.C109_avl_ascending"
   ],
   "note": ""
  },
  {
   "property": "C110",
   "status": "proved",
   "theorems": [
    "Sokoban.Props.C110_rb_mirror",
    "Sokoban.Props.C110_avl_mirror",
    "Sokoban.Props.C110_rb_descending",
    "Sokoban.Props.C110_avl_descending",
    "Sokoban.Props.C110_removals"
   ],
   "note": "The two orders are two LinearOrder instances of the same key type."
  }
 ]
}