{"id": "C01", "title": "Allocated indices are fresh and in range", "statement": "NodeAllocator::add_node, when it returns, returns an index in 1..=MAX_SIZE that is not the index of any node currently allocated (added and not yet removed).", "quantifier": "every MAX_SIZE, every register count >= 1, every history of add_node / remove_node-of-live-nodes / register and value writes to live nodes", "why_tests_cant": "Aliasing shows up only after particular free/alloc interleavings; Tests and fuzzing sample finitely many histories of bounded length; the claim is about every history.", "anchors": ["src/node_allocator.rs: NodeAllocator::add_node, remove_node"]}
{"id": "C02", "title": "Live nodes are never disturbed by other nodes' allocation traffic", "statement": "After any such history, NodeAllocator::get(i) on a live index returns exactly the value last stored there and get_register(i,r) the register value last written there; add_node / remove_node of other indices never change them.", "quantifier": "every history of client operations on live indices, every live index and register", "why_tests_cant": "A frame property over unboundedly many later operations. Tests and fuzzing sample finitely many histories of bounded length; the claim is about every history.", "anchors": ["src/node_allocator.rs: add_node, remove_node, get, get_mut, set_register, connect, disconnect, clear_register, get_register"]}
{"id": "C03", "title": "size is exact, add_node panics exactly when MAX_SIZE nodes are live, no slot ever leaks", "statement": "The public `size` field always equals the number of live nodes; add_node panics (Buffer is full) iff size == MAX_SIZE; hence after any history exactly MAX_SIZE - size further additions succeed, and no arithmetic overflow happens in any client history.", "quantifier": "every MAX_SIZE < 2^32-1, every client history", "why_tests_cant": "A leak of one slot along a rare path is only seen by exhausting the buffer after that path. Tests and fuzzing sample finitely many histories of bounded length; the claim is about every history.", "anchors": ["src/node_allocator.rs: add_node, remove_node, size, bump_index, free_list_head"]}
{"id": "C04", "title": "Freed slots are reused last-in first-out before untouched ones", "statement": "add_node returns the most recently removed index that has not been handed out again; only when no removed index is pending does it hand out the next never-used index.", "quantifier": "every client history", "why_tests_cant": "Order over arbitrary alloc/free interleavings. Tests and fuzzing sample finitely many histories of bounded length; the claim is about every history.", "anchors": ["src/node_allocator.rs: free_list_head, add_node, remove_node"]}
{"id": "C05", "title": "Clients that clear registers before freeing always get zeroed nodes", "statement": "If the client clears all registers of a node before remove_node (as the documentation demands), then every index returned by add_node has all NUM_REGISTERS registers equal to SENTINEL.", "quantifier": "every client history obeying the documented rule, every register count", "why_tests_cant": "The freed node's register 0 is overwritten by the free list, so the property depends on the whole later history. Tests and fuzzing sample finitely many histories of bounded length; the claim is about every history.", "anchors": ["src/node_allocator.rs: add_node, remove_node, clear_register"]}
{"id": "C06", "title": "initialize works once on zeroed memory and never again", "statement": "initialize succeeds exactly when size, bump_index and free_list_head are all zero, turning a zeroed buffer into an allocator that behaves as NodeAllocator::new(); at every point of every later history a second initialize (hence new_from_slice on the same buffer) panics and so never wipes data.", "quantifier": "every client history after initialisation, every structure built on the allocator", "why_tests_cant": "Must hold at each point of every history, including when the structure has become empty again.", "anchors": ["src/node_allocator.rs: initialize, default", "src/deque.rs: initialize", "src/hash_table.rs: initialize", "src/red_black_tree.rs: initialize", "src/avl_tree.rs: initialize", "src/critbit.rs: initialize"]}
{"id": "C07", "title": "Passing the alignment assertions means every slot is aligned", "statement": "If assert_proper_alignment's checks pass for an allocator at some address, then the value slot of every node 1..=MAX_SIZE lies at an address that is a multiple of align_of::<T>().", "quantifier": "every base address, size and alignment of T, register count, MAX_SIZE and slot", "why_tests_cant": "Quantifies over every address, layout and index; the code checks only the first two slots.", "anchors": ["src/node_allocator.rs: assert_proper_alignemnt"]}
{"id": "C08", "title": "Freeing a node twice breaks the allocator (contract boundary)", "statement": "remove_node does not detect a double free: there are histories with a second remove_node of the same index after which two consecutive add_node calls return the same index.", "quantifier": "existence of a history; shows the live-index precondition of C01-C05 is necessary", "why_tests_cant": "It is a statement about what the code does outside its contract that no test asserts.", "anchors": ["src/node_allocator.rs: remove_node"]}
{"id": "C09", "title": "Deque behaves as a double-ended queue", "statement": "For every history of push_back, push_front, pop_back, pop_front the results of pop_*, front, back, len and is_empty equal those of a plain sequence to which the same operations are applied.", "quantifier": "every element type, MAX_SIZE < 2^32-1 and history (pushes while full excluded: they panic)", "why_tests_cant": "Tests and fuzzing sample finitely many histories of bounded length; the claim is about every history.", "anchors": ["src/deque.rs: push_back, push_front, pop_front, pop_back, front, back, len, is_empty"]}
{"id": "C10", "title": "Deque panics exactly on a push into a full deque", "statement": "push_back / push_front panic iff len() == MAX_SIZE; no other Deque operation panics or fails to terminate in any history.", "quantifier": "every history and every operation at its end", "why_tests_cant": "Tests and fuzzing sample finitely many histories of bounded length; the claim is about every history.", "anchors": ["src/deque.rs: push_back, push_front, _remove", "src/node_allocator.rs: add_node"]}
{"id": "C11", "title": "Deque iteration yields each element once in order under any mix of next and next_back", "statement": "For every sequence of next()/next_back() calls on iter() the results are those of a plain sequence consumed from both ends: each element exactly once, no element twice after the ends meet, None for ever after.", "quantifier": "every reachable deque and every finite sequence of next/next_back calls", "why_tests_cant": "Exponentially many interleavings; tests try one break point.", "anchors": ["src/deque.rs: DequeIterator::next, next_back"]}
{"id": "C12", "title": "Deque iter_mut hands out pairwise distinct slots and changes only the written values", "statement": "Along any sequence of next/next_back calls iter_mut never returns the same slot twice (so the &mut references it fabricates never alias) and always an in-bounds slot; writing through them changes exactly those elements and leaves order and length alone.", "quantifier": "every reachable deque, every sequence of next/next_back calls with writes", "why_tests_cant": "Aliasing of unsafe references is undefined behaviour that a passing test does not exclude.", "anchors": ["src/deque.rs: DequeIteratorMut::next, next_back, iter_mut"]}
{"id": "C13", "title": "sequence_number counts successful mutations", "statement": "sequence_number equals the number of pushes plus the number of pops that returned Some; pops on an empty deque leave the deque unchanged.", "quantifier": "every history (up to 2^64-1 operations)", "why_tests_cant": "Tests and fuzzing sample finitely many histories of bounded length; the claim is about every history.", "anchors": ["src/deque.rs: sequence_number, push_back, push_front, _remove"]}
{"id": "C14", "title": "head/tail/get_next/get_prev expose a consistent doubly linked list", "statement": "Following get_next from head visits the elements front to back and ends at SENTINEL; get_prev from tail visits them back to front; get_prev and get_next are inverse on neighbours; indices reported by iter() are those of that walk.", "quantifier": "every reachable deque, every position", "why_tests_cant": "Tests and fuzzing sample finitely many histories of bounded length; the claim is about every history.", "anchors": ["src/deque.rs: get_next, get_prev, head, tail"]}
{"id": "C15", "title": "HashTable behaves as a finite map for every hash function", "statement": "For every history of insert, remove, get_mut-writes and iter_mut-writes the results of get, contains, len, is_empty, remove, Index equal those of a mathematical finite map bounded by MAX_SIZE, no matter how keys collide.", "quantifier": "every key type with lawful equality, every hash function, every NUM_BUCKETS > 0, MAX_SIZE < 2^32-1, every history", "why_tests_cant": "All collision patterns of all hash functions cannot be sampled. Tests and fuzzing sample finitely many histories of bounded length; the claim is about every history.", "anchors": ["src/hash_table.rs: insert, _insert, remove, _remove, get, get_mut, contains, len"]}
{"id": "C16", "title": "HashTable::insert refuses exactly new keys on a full table", "statement": "insert returns None iff the key is absent and len() == capacity(); then the table is unchanged. Updating an existing key succeeds even when full, and insert never panics.", "quantifier": "every reachable table, key and value", "why_tests_cant": "Tests and fuzzing sample finitely many histories of bounded length; the claim is about every history.", "anchors": ["src/hash_table.rs: _insert"]}
{"id": "C17", "title": "HashTable iteration visits every entry exactly once", "statement": "Driving iter() to exhaustion yields, in some order, exactly the (key, value) pairs of the map, each once; then None for ever.", "quantifier": "every reachable table", "why_tests_cant": "Tests and fuzzing sample finitely many histories of bounded length; the claim is about every history.", "anchors": ["src/hash_table.rs: HashTableIterator::next, _iter"]}
{"id": "C18", "title": "HashTable::get_mut reorders a bucket without changing the map", "statement": "get_mut(k) moves an entry to the front of its bucket but changes no key's value other than through the returned reference, keeps len, and returns None with no effect for absent keys.", "quantifier": "every reachable table and key", "why_tests_cant": "Pointer surgery on arbitrary chain positions. Tests and fuzzing sample finitely many histories of bounded length; the claim is about every history.", "anchors": ["src/hash_table.rs: get_mut"]}
{"id": "C19", "title": "HashTable reverse iteration yields nothing (deviation)", "statement": "iter().rev() / next_back() on a HashTable returns None even when the table is non-empty, although the trait advertises DoubleEndedIterator; in particular iterating backwards does not visit the entries.", "quantifier": "every table; the full claim 'rev visits every entry' is refuted for every non-empty table", "why_tests_cant": "The repository's test passes vacuously because it zips an empty map.", "anchors": ["src/hash_table.rs: HashTableIterator::next_back, HashTableIteratorMut::next_back"]}
{"id": "C20", "title": "HashTable iter_mut hands out pairwise distinct slots and changes only values", "statement": "iter_mut yields every entry's slot exactly once, never twice, always in bounds; writes change only the values of the entries written.", "quantifier": "every reachable table and every sequence of calls with writes", "why_tests_cant": "Aliasing is undefined behaviour invisible to tests.", "anchors": ["src/hash_table.rs: HashTableIteratorMut::next"]}
{"id": "C21", "title": "HashTable addresses are stable", "statement": "insert returns get_addr(key); that index keeps addressing the key's entry (get_addr unchanged, get_node(i) holds key and current value) until that key is removed, whatever happens to other keys, including get_mut reordering.", "quantifier": "every history, key", "why_tests_cant": "Tests and fuzzing sample finitely many histories of bounded length; the claim is about every history.", "anchors": ["src/hash_table.rs: get_addr, get_node, insert"]}
{"id": "C22", "title": "RedBlackTree behaves as a finite map", "statement": "For every history of insert, remove, remove_root, get_mut-writes and iter_mut-writes the results of get, contains, len, is_empty, remove, Index equal those of a mathematical finite map bounded by MAX_SIZE.", "quantifier": "every totally ordered key type, MAX_SIZE with 0 < MAX_SIZE < 2^32-1, every history", "why_tests_cant": "Tests and fuzzing sample finitely many histories of bounded length; the claim is about every history.", "anchors": ["src/red_black_tree.rs: insert, _insert, _fix_insert, remove, _remove, _remove_tree_node, _fix_remove, _rotate_dir, _transplant, get, get_addr"]}
{"id": "C23", "title": "RedBlackTree stays a red-black tree", "statement": "After every history the root is black, no red node has a red child and all root-to-nil paths carry the same number of black nodes, and is_valid_red_black_tree() returns true.", "quantifier": "every history", "why_tests_cant": "Deletion rebalancing has many pointer cases reachable only by particular shapes. Tests and fuzzing sample finitely many histories of bounded length; the claim is about every history.", "anchors": ["src/red_black_tree.rs: is_valid_red_black_tree, _fix_insert, _fix_remove"]}
{"id": "C24", "title": "RedBlackTree depth is logarithmic", "statement": "The number of nodes visited by get / insert / remove from the root is at most 2*log2(len+1).", "quantifier": "every history, every key", "why_tests_cant": "A bound over all histories and sizes.", "anchors": ["src/red_black_tree.rs: get_addr, _insert, _remove"]}
{"id": "C25", "title": "RedBlackTree iteration is sorted and double-ended", "statement": "Any mix of next and next_back on iter() consumes the strictly ascending list of all entries from both ends, each entry exactly once, None after the ends meet.", "quantifier": "every reachable tree, every sequence of calls", "why_tests_cant": "Exponentially many interleavings.", "anchors": ["src/red_black_tree.rs: RedBlackTreeIterator::next, next_back"]}
{"id": "C26", "title": "RedBlackTree min/max are the extreme keys", "statement": "get_min / get_max return the entry with the least / greatest key, None iff empty; get_min_index / get_max_index are its address or SENTINEL.", "quantifier": "every reachable tree", "why_tests_cant": "Tests and fuzzing sample finitely many histories of bounded length; the claim is about every history.", "anchors": ["src/red_black_tree.rs: get_min, get_max, get_min_index, get_max_index, _find_min, _find_max"]}
{"id": "C27", "title": "RedBlackTree never panics or loops in any history", "statement": "With MAX_SIZE > 0 no operation panics: no 'Nodes are not connected', no out-of-bounds access, no failed assertion, no overflow, no infinite loop; only Index/IndexMut on an absent key panics.", "quantifier": "every history", "why_tests_cant": "Panic paths inside rebalancing need specific shapes. Tests and fuzzing sample finitely many histories of bounded length; the claim is about every history.", "anchors": ["src/red_black_tree.rs: _child_dir, _rotate_dir, _fix_insert, _remove_tree_node, _fix_remove"]}
{"id": "C28", "title": "RedBlackTree addresses are stable", "statement": "insert returns get_addr(key); it stays the key's address, unaffected by inserting and removing other keys, until the key is removed.", "quantifier": "every history", "why_tests_cant": "Deletion relinks nodes instead of copying keys; only a proof covers all shapes.", "anchors": ["src/red_black_tree.rs: insert, get_addr, get_node"]}
{"id": "C29", "title": "RedBlackTree iter_mut never aliases and changes only values", "statement": "iter_mut returns pairwise distinct in-bounds slots under any mix of next / next_back; writes change exactly the written values and no key or shape.", "quantifier": "every reachable tree, every sequence of calls with writes", "why_tests_cant": "Aliasing is undefined behaviour invisible to tests.", "anchors": ["src/red_black_tree.rs: RedBlackTreeIteratorMut::next, next_back"]}
{"id": "C30", "title": "Tree insert refuses exactly new keys on a full tree", "statement": "For RedBlackTree and AVLTree with MAX_SIZE > 0: insert returns None iff the key is absent and len() == capacity(), leaving the tree unchanged; updating an existing key succeeds even when full.", "quantifier": "every reachable tree, key, value", "why_tests_cant": "Tests and fuzzing sample finitely many histories of bounded length; the claim is about every history.", "anchors": ["src/red_black_tree.rs: _insert", "src/avl_tree.rs: _insert"]}
{"id": "C31", "title": "Capacity-zero trees panic instead of returning None (deviation)", "statement": "With MAX_SIZE = 0, insert on RedBlackTree, AVLTree and Critbit panics, whereas HashTable::insert returns None.", "quantifier": "every key and value at MAX_SIZE = 0", "why_tests_cant": "Const-generic corner never instantiated by tests.", "anchors": ["src/red_black_tree.rs: _insert", "src/avl_tree.rs: _insert", "src/critbit.rs: _insert", "src/hash_table.rs: _insert"]}
{"id": "C32", "title": "remove_root removes exactly the root entry", "statement": "remove_root returns None iff the tree is empty; otherwise it returns an entry of the map and afterwards the map is the old one without that key.", "quantifier": "every reachable tree", "why_tests_cant": "Tests and fuzzing sample finitely many histories of bounded length; the claim is about every history.", "anchors": ["src/red_black_tree.rs: remove_root"]}
{"id": "C33", "title": "AVLTree behaves as a finite map", "statement": "Same as the RedBlackTree map property, for AVLTree.", "quantifier": "every totally ordered key type, 0 < MAX_SIZE < 2^32-1, every history", "why_tests_cant": "Tests and fuzzing sample finitely many histories of bounded length; the claim is about every history.", "anchors": ["src/avl_tree.rs: insert, _insert, remove, _remove, get, get_mut, rebalance, get_addr"]}
{"id": "C34", "title": "AVLTree stays height-balanced with exact stored heights", "statement": "After every history, at every node the heights of the two subtrees differ by at most one and the stored height equals the real one.", "quantifier": "every history", "why_tests_cant": "Two-child deletion with a long successor path is shape specific. Tests and fuzzing sample finitely many histories of bounded length; the claim is about every history.", "anchors": ["src/avl_tree.rs: rebalance, update_height, balance_factor, left_rotate, right_rotate"]}
{"id": "C35", "title": "AVLTree depth is logarithmic", "statement": "The number of nodes visited by a search is at most the greatest h with fib(h+2) <= len+1 (Fibonacci numbers; the optimal bound for height-balanced trees), in particular at most 2*log2(len+1)+1 (the code's comment relies on heights fitting an i32).", "quantifier": "every history", "why_tests_cant": "A bound over all histories and sizes.", "anchors": ["src/avl_tree.rs: get_addr, balance_factor"]}
{"id": "C36", "title": "AVLTree iteration is sorted and double-ended", "statement": "Any mix of next and next_back consumes the strictly ascending entry list from both ends.", "quantifier": "every reachable tree, every sequence of calls", "why_tests_cant": "Exponentially many interleavings.", "anchors": ["src/avl_tree.rs: AVLTreeIterator::next, next_back"]}
{"id": "C37", "title": "AVLTree min/max are the extreme keys", "statement": "get_min / get_max / find_min / find_max return the entry (value) of least / greatest key, None iff empty.", "quantifier": "every reachable tree", "why_tests_cant": "Tests and fuzzing sample finitely many histories of bounded length; the claim is about every history.", "anchors": ["src/avl_tree.rs: get_min, get_max, find_min, find_max, find_min_index, find_max_index"]}
{"id": "C38", "title": "AVLTree never panics or loops in any history", "statement": "With MAX_SIZE > 0 no operation panics or diverges: no out-of-bounds access, no unwrap of None, no height overflow.", "quantifier": "every history", "why_tests_cant": "Tests and fuzzing sample finitely many histories of bounded length; the claim is about every history.", "anchors": ["src/avl_tree.rs: _insert, _remove, rebalance, balance_factor"]}
{"id": "C39", "title": "AVLTree addresses are stable", "statement": "insert returns get_addr(key); it stays the key's address until the key is removed.", "quantifier": "every history", "why_tests_cant": "Two-child deletion relinks the successor.", "anchors": ["src/avl_tree.rs: insert, get_addr"]}
{"id": "C40", "title": "AVLTree iter_mut never aliases and changes only values", "statement": "As for RedBlackTree.", "quantifier": "every reachable tree, every sequence of calls with writes", "why_tests_cant": "Aliasing is undefined behaviour invisible to tests.", "anchors": ["src/avl_tree.rs: AVLTreeIteratorMut::next, next_back"]}
{"id": "C41", "title": "AVLTree needs a total order (contract boundary)", "statement": "AVLTree only requires PartialOrd: with a key incomparable to a stored key (as NaN), insert overwrites the value of a different key instead of adding an entry.", "quantifier": "existence, for a key type with incomparable elements", "why_tests_cant": "Outside what tests exercise.", "anchors": ["src/avl_tree.rs: _insert, get"]}
{"id": "C42", "title": "Critbit behaves as a finite map below capacity", "statement": "For every history, results of get, contains, len, is_empty, remove, Index equal those of a finite map, with the exception that insert on a full tree returns None.", "quantifier": "every MAX_SIZE > 0, NUM_NODES >= 2*MAX_SIZE, every history over u128 keys", "why_tests_cant": "Tests and fuzzing sample finitely many histories of bounded length; the claim is about every history.", "anchors": ["src/critbit.rs: insert, _insert, remove, _remove, get, get_mut, migrate, duplicate, replace_node, remove_leaf"]}
{"id": "C43", "title": "Critbit refuses to update an existing key when full (deviation)", "statement": "On a full non-empty Critbit, insert of any key - also of a present one - returns None and leaves the old value, unlike the other maps; an update succeeds only below capacity or through get_mut.", "quantifier": "every reachable full tree and key", "why_tests_cant": "Fuzzing rarely fills the tree.", "anchors": ["src/critbit.rs: _insert"]}
{"id": "C44", "title": "Critbit iteration is sorted and double-ended", "statement": "Any mix of next and next_back consumes the strictly ascending list of entries from both ends.", "quantifier": "every reachable tree, every sequence of calls", "why_tests_cant": "Exponentially many interleavings.", "anchors": ["src/critbit.rs: CritbitIterator::next, next_back"]}
{"id": "C45", "title": "Critbit min/max are the numerically extreme keys", "statement": "get_min / get_max return the entry of numerically least / greatest u128 key, None iff empty.", "quantifier": "every reachable tree", "why_tests_cant": "Tests and fuzzing sample finitely many histories of bounded length; the claim is about every history.", "anchors": ["src/critbit.rs: get_min, get_max, find_min, find_max"]}
{"id": "C46", "title": "Critbit never panics or loops in any history", "statement": "With 0 < MAX_SIZE and NUM_NODES >= 2*MAX_SIZE no trait operation panics: neither allocator overflows, no assertion in migrate / remove_leaf / _remove fails, the loops end - although freed nodes keep stale parent registers.", "quantifier": "every history", "why_tests_cant": "Stale registers of recycled nodes matter only for particular recycle orders. Tests and fuzzing sample finitely many histories of bounded length; the claim is about every history.", "anchors": ["src/critbit.rs: add_leaf, migrate, remove_leaf, _remove, _insert"]}
{"id": "C47", "title": "Critbit depth is at most 128", "statement": "A search visits at most 129 nodes whatever the keys.", "quantifier": "every history, every key", "why_tests_cant": "Bound over all key sets.", "anchors": ["src/critbit.rs: get, get_child"]}
{"id": "C48", "title": "Critbit::get_addr panics on an empty tree (deviation)", "statement": "get_addr(k) on an empty Critbit panics for every k, while the other structures return SENTINEL; on a non-empty tree it returns the address of k or SENTINEL.", "quantifier": "every key, every reachable tree", "why_tests_cant": "No test calls it on an empty tree.", "anchors": ["src/critbit.rs: get_addr"]}
{"id": "C49", "title": "Critbit node addresses are not stable, leaf slots are (deviation)", "statement": "The index returned by Critbit::insert can stop addressing the key after a later insert or remove of another key; the slot in which the value itself is stored never changes while the key is present.", "quantifier": "existence for instability; every history for value-slot stability", "why_tests_cant": "Needs quantification over later histories.", "anchors": ["src/critbit.rs: insert, duplicate, migrate, get_addr"]}
{"id": "C50", "title": "Critbit iter_mut never aliases and changes only values", "statement": "As for RedBlackTree.", "quantifier": "every reachable tree, every sequence of calls with writes", "why_tests_cant": "Aliasing is undefined behaviour invisible to tests.", "anchors": ["src/critbit.rs: CritbitIteratorMut::next, next_back"]}
{"id": "C51", "title": "Both Critbit allocators stay in step", "statement": "After every history the node allocator holds 2*len-1 live nodes (0 when empty) and the leaf allocator len; NUM_NODES = 2*MAX_SIZE never runs out before MAX_SIZE leaves.", "quantifier": "every history", "why_tests_cant": "Tests and fuzzing sample finitely many histories of bounded length; the claim is about every history.", "anchors": ["src/critbit.rs: node_allocator, leaves, add_leaf, migrate, remove_leaf"]}
{"id": "C52", "title": "All four maps are observationally interchangeable", "statement": "Applying one history (below capacity) to RedBlackTree, AVLTree, HashTable and Critbit with equal capacity gives the same results of get, contains, len, insert success and remove, and the three ordered ones the same iteration sequence.", "quantifier": "every history over u128 keys", "why_tests_cant": "Differential tests sample.", "anchors": ["src/red_black_tree.rs", "src/avl_tree.rs", "src/hash_table.rs", "src/critbit.rs", "src/node_allocator.rs: NodeAllocatorMap"]}
{"id": "C53", "title": "Bytes are the whole state", "statement": "A structure reloaded from its byte buffer (load_bytes / load_mut_bytes on the same or copied bytes) is the same structure; loading succeeds iff the slice is long enough and aligned, ignores trailing bytes, and panics when the slice is too short.", "quantifier": "every reachable state, every buffer", "why_tests_cant": "Quantifies over all states and buffers.", "anchors": ["src/node_allocator.rs: ZeroCopy::load_mut_bytes, load_bytes", "src/*: FromSlice::new_from_slice"]}
{"id": "C54", "title": "Layout assertions and padding", "statement": "For element types with alignment >= 4 the assertions in assert_proper_alignment imply that nodes are packed without padding (stride = 4*NUM_REGISTERS + size_of::<T>()); for alignment 1 or 2 they do not: some accepted T produce padding bytes inside a type declared Pod (deviation).", "quantifier": "every base address, size and alignment >= 4, register count; existence for the deviation", "why_tests_cant": "Tests use a handful of element types.", "anchors": ["src/node_allocator.rs: assert_proper_alignemnt, unsafe impl Pod for NodeAllocator, Node"]}
{"id": "C55", "title": "Element types of 1 to 7 bytes are refused", "statement": "NodeAllocator::new / initialize panics for every element type T with 0 < size_of::<T>() < 8, at every address and for every capacity and register count (so e.g. Deque<u32, N> cannot be constructed).", "quantifier": "every layout with 0 < size < 8, every address", "why_tests_cant": "Quantifies over all element types and addresses.", "anchors": ["src/node_allocator.rs: assert_proper_alignemnt, initialize, default"]}
{"id": "C56", "title": "HashTable with zero buckets is constructible but unusable (deviation)", "statement": "HashTable::new() and new_from_slice on zeroed memory succeed exactly when NUM_BUCKETS is even; NUM_BUCKETS = 0 is accepted too, and then get, contains, insert, remove, get_mut, get_addr and iter all panic for every key.", "quantifier": "every NUM_BUCKETS, MAX_SIZE, key, hash function", "why_tests_cant": "Tests use a few positive even bucket counts.", "anchors": ["src/hash_table.rs: assert_proper_alignment, default, new_from_slice"]}
{"id": "C57", "title": "Every word fits its Rust type", "statement": "No history of calls on any of the structures (and no legal client of the allocator that passes u32 arguments) leads to a state in which a u32 field, register or bucket is 2^32 or more, or a u64 field (size, sequence_number, prefix_len) is 2^64 or more; AVLTree::root, a u64, always fits the u32 it is cast to. No truncation ever happens.", "quantifier": "every history, every capacity, every comparison and hash function", "why_tests_cant": "Tests and fuzzing sample finitely many histories of bounded length; the claim is about every history.", "anchors": ["src/*: all u32/u64 fields", "src/avl_tree.rs: self.root as u32"]}
{"id": "C58", "title": "RedBlackTree's layout assertion does not rule out padding (deviation)", "statement": "For key and value types that pass RedBlackTree::assert_proper_alignment, RBNode has no padding exactly when align_of::<V>() divides size_of::<K>(), which the assertion does not ask for: K = u32, V = u64 is accepted with 4 bytes of padding in a type declared Pod. AVLTree and HashTable have no such assertion: K = u64, V = u32 is refused by RedBlackTree and accepted, with padding, by both.", "quantifier": "every size and alignment of key and value; existence for the deviation; every capacity and buffer for the acceptance", "why_tests_cant": "Tests use a handful of element types.", "anchors": ["src/red_black_tree.rs: assert_proper_alignment, RBNode", "src/avl_tree.rs: AVLNode", "src/hash_table.rs: HashNode"]}
{"id": "C59", "title": "new_from_slice turns zeroed memory into the fresh structure, or panics", "statement": "On zeroed memory new_from_slice panics exactly when the slice is shorter than the structure, or not aligned, or an assertion of the type fails (element of 1 to 7 bytes or too strongly aligned; odd NUM_BUCKETS; RedBlackTree's own assertion; NUM_NODES < 2*MAX_SIZE). Otherwise the buffer holds the structure that new() builds from the all-zero element, in place, and no byte behind the structure changes. On a buffer with a structure that was set up and used in any way, it panics.", "quantifier": "every buffer (address, length, contents), every element type, capacity and earlier history", "why_tests_cant": "Quantifies over all buffers and histories.", "anchors": ["src/*: FromSlice::new_from_slice, initialize", "src/node_allocator.rs: assert_proper_alignemnt, initialize"]}
{"id": "C60", "title": "RedBlackTree::pretty_print draws the tree", "statement": "After every history pretty_print ends without panic and writes exactly the tree in memory: nothing if the tree is empty, otherwise one line per entry, parents before children, left before right, indented by depth, red keys in red. The tree drawn is a search tree with exactly the keys of the map and satisfies the red-black conditions.", "quantifier": "every history, every formatter of the key; also every memory that holds a finite tree", "why_tests_cant": "Tests and fuzzing sample finitely many histories of bounded length; the claim is about every history.", "anchors": ["src/red_black_tree.rs: pretty_print"]}
{"id": "C61", "title": "is_valid_red_black_tree accepts every red-black tree, and others (deviation)", "statement": "On any memory that holds a finite tree, is_valid_red_black_tree ends and returns true exactly when the root is not red, no red node has a red child and all paths to nodes WITHOUT CHILDREN have the same number of black nodes. So it rejects no red-black tree; but since it does not look at missing children of nodes with one child, it accepts trees that are not red-black: for every MAX_SIZE >= 2 a chain of MAX_SIZE black nodes.", "quantifier": "every memory holding a tree; every capacity for the deviation", "why_tests_cant": "Tests call the check only on trees made by the operations, which are all valid.", "anchors": ["src/red_black_tree.rs: is_valid_red_black_tree"]}
{"id": "C62", "title": "The shape of a Critbit depends only on its keys", "statement": "After every history the tree in memory is the path-compressed binary trie of the keys it contains (branching exactly where keys with equal prefix differ). So two trees with the same keys have the same shape, whatever insertions, removals and failed calls produced them, whatever the values and capacities are.", "quantifier": "every history, every pair of histories with equal key sets, every capacity", "why_tests_cant": "Compares all pairs of histories. Tests and fuzzing sample finitely many histories of bounded length; the claim is about every history.", "anchors": ["src/critbit.rs: insert, remove, get_child, duplicate, replace_node, migrate"]}
{"id": "C63", "title": "The depth bound of Critbit is attained", "statement": "In every tree containing key 0 and the 128 powers of two the search for key 0 visits 129 nodes, so the bound of C47 cannot be improved; such trees exist for every MAX_SIZE >= 129.", "quantifier": "every history leading to such a key set, every capacity from 129", "why_tests_cant": "Worst-case shape.", "anchors": ["src/critbit.rs: get, insert, get_child"]}
{"id": "C64", "title": "iter_mut trusts the bytes (contract boundary)", "statement": "On arbitrary bytes (not produced by the operations) every reference that iter_mut of Deque, HashTable, RedBlackTree or AVLTree fabricates is to a slot in bounds, because a checked read of a register of the same slot comes first. But bytes that load_mut_bytes accepts exist, in every buffer that fits, on which iter_mut returns the same slot twice (two live &mut to one value). For Critbit moreover the leaf index is unchecked: for every u32 j > 0, however large, there are bytes on which iter_mut returns a &mut to leaf j out of bounds, while the immutable iterator panics on the same bytes.", "quantifier": "every memory, every sequence of next / next_back; every buffer, element type and capacity for the deviation", "why_tests_cant": "Tests only load buffers produced by the operations.", "anchors": ["src/*: unsafe blocks of the IteratorMut types", "src/node_allocator.rs: load_mut_bytes"]}
{"id": "C65", "title": "What an allocator really holds for any MAX_SIZE", "statement": "For every MAX_SIZE, however large, the allocator holds at most min(MAX_SIZE mod 2^32, 2^32 - 2) nodes at a time: after every legal history add_node panics exactly when that many are in use (with 'Buffer is full', or, if MAX_SIZE + 1 is a multiple of 2^32, with the overflow of bump_index), and no other legal call panics; that number is MAX_SIZE exactly when MAX_SIZE + 1 < 2^32. So with MAX_SIZE a positive multiple of 2^32 the first push_back, push_front or insert of every structure panics although len() < capacity() (deviation).", "quantifier": "every MAX_SIZE without bound, every legal history", "why_tests_cant": "Such capacities do not fit a test machine's stack. Tests and fuzzing sample finitely many histories of bounded length; the claim is about every history.", "anchors": ["src/node_allocator.rs: add_node ((MAX_SIZE + 1) as u32, bump_index += 1)", "src/*: insert, push_back, push_front"]}
{"id": "C66", "title": "The iteration order of HashTable is determined, and get_mut changes it", "statement": "After every history the entries are yielded by ascending hash % NUM_BUCKETS and, among equal remainders, most recently touched first, where a key is touched when it is newly inserted or found by get_mut, but not when its value is overwritten by insert or through iter_mut. The results of all calls and the whole iteration are a function of the hash function, NUM_BUCKETS, MAX_SIZE and the history: neither prior memory contents nor the slots chosen by the allocator have influence. In particular get_mut, even without a write, reorders the iteration (deviation from what a lookup suggests).", "quantifier": "every history, hash function, number of buckets and capacity, every sequence of next / next_back", "why_tests_cant": "Tests and fuzzing sample finitely many histories of bounded length; the claim is about every history.", "anchors": ["src/hash_table.rs: _insert, _remove, get_mut, iter, iter_mut, next"]}
{"id": "C67", "title": "The trees survive any comparison of keys", "statement": "For RedBlackTree with any Ord and AVLTree with any PartialOrd implementation, lawful or not (not transitive, not antisymmetric, unequal to itself, with a > b unrelated to b < a, ...): every history completes without panic or endless loop, at most MAX_SIZE entries are held, every call adds, removes or changes at most one entry, one whose key compares equal to the given one, and leaves all others with their values in their order; get, get_mut, remove and insert with the same key on the same state find the same entry or all none; iter yields exactly the entries from both ends; the tree stays red-black, resp. height-balanced, and every search visits at most 2*log2(len+1) (+1) nodes.", "quantifier": "every comparison function, every history, every capacity 0 < MAX_SIZE < 2^32 - 1", "why_tests_cant": "Tests use integer keys, whose order is lawful.", "anchors": ["src/red_black_tree.rs: _insert, _remove, get_addr", "src/avl_tree.rs: _insert, _remove, get, get_mut"]}
{"id": "C68", "title": "HashTable survives any equality of keys", "statement": "For any PartialEq implementation of the key (not reflexive, not symmetric, not transitive, in disagreement with Hash, ...) and any hash function no call on a HashTable with at least one bucket panics or loops, and every history has exactly the results of a table of rows, one list of entries for each remainder of the hash: a call concerns the first entry of the row of the given key whose stored key == the given one, or none; all other entries keep their values and their order. iter, len, get, contains and get_addr agree with the rows. A key that no key equals (such as a NaN) is never found, every insert of it adds an entry while there is room, and an entry whose key equals none can never be removed.", "quantifier": "every equality of keys, hash function, history, NUM_BUCKETS > 0 and MAX_SIZE < 2^32 - 1", "why_tests_cant": "Tests use integer keys, whose equality is lawful.", "anchors": ["src/hash_table.rs: get, get_mut, contains, get_addr, _insert, _remove, iter, iter_mut"]}
{"id": "C69", "title": "The navigation functions expose one consistent structure", "statement": "After every history: RedBlackTree's get_left, get_right and get_parent describe one finite binary tree without repeated nodes, whose nodes from left to right hold what iter yields (for any comparison); the parent of the root alone is SENTINEL, a left child has a lesser key than its parent, a right child a greater one, children name the node as their parent; get_child, get_dir, is_leaf and is_root agree; repeated get_parent reaches the root in fewer than 2*log2(len+1) steps. Critbit's get_left, get_right and get_parent describe one tree of 2*len - 1 nodes; inner nodes have two children, leaves none, and the leaves are the nodes of the keys in ascending order. HashTable's buckets, get_next and get_prev describe one doubly linked list per bucket with exactly the entries of that remainder of the hash, no node in two lists.", "quantifier": "every history, every capacity, every comparison / equality and hash function", "why_tests_cant": "Tests and fuzzing sample finitely many histories of bounded length; the claim is about every history.", "anchors": ["src/red_black_tree.rs: get_left, get_right, get_parent, get_child, get_dir, is_leaf, is_root", "src/critbit.rs: get_left, get_right, get_parent, is_inner_node, get_key", "src/hash_table.rs: buckets, get_next, get_prev, get_node"]}
{"id": "C70", "title": "Removal erases nothing, and insertion writes one slot", "statement": "Whenever they return, whatever the state of the memory was: remove, remove_root, pop_front, pop_back, HashTable's get_mut and the allocator's remove_node, connect, disconnect, set_register and clear_register leave the stored contents (key and value, leaf value) of every slot as they were; insert, push_front, push_back and add_node change the contents of one slot at most, the one that insert / add_node return (for Critbit: one leaf value), which then holds the given value, and none when insert returns None. So what get_node(i) (get_leaf for Critbit) reads stays readable after the entry is removed and through any further calls, until slot i is handed out again (removed data is not wiped).", "quantifier": "every state, reachable or not; every key, comparison, equality and hash function; every further history for RedBlackTree, AVLTree and HashTable", "why_tests_cant": "Tests look only at live entries.", "anchors": ["src/red_black_tree.rs: insert, remove, remove_root, get_node", "src/avl_tree.rs: insert, remove, get_node", "src/hash_table.rs: insert, remove, get_mut, get_node", "src/critbit.rs: insert, remove, get_leaf", "src/deque.rs: push_front, push_back, pop_front, pop_back", "src/node_allocator.rs: add_node, remove_node"]}
{"id": "C71", "title": "No slot beyond the greatest number of elements is ever touched", "statement": "Let p be the greatest len() at any time of a history on a new structure. Then all slots with addresses p+1 to MAX_SIZE still hold what they were initialised with (get_node(i), for Critbit get_leaf(i), reads the default element), the bump index of the allocator is p+1, and an address returned by the next insert of HashTable, RedBlackTree or AVLTree is at most the greatest len() including the one after it. A Critbit moreover uses exactly the nodes 1 to 2p-1 (none if p = 0): all others still hold the default node, its second bump index is 2p (or 1), and the next insert returns a node up to twice the greatest len() less one. So the memory in use is determined by the peak load alone, however many insertions and removals took place.", "quantifier": "every history, capacity, key comparison / equality and hash function; Deque: fewer than 2^64 calls", "why_tests_cant": "Tests and fuzzing sample finitely many histories of bounded length; the claim is about every history.", "anchors": ["src/node_allocator.rs: add_node, remove_node", "src/red_black_tree.rs: insert, remove, get_node", "src/avl_tree.rs: insert, remove, get_node", "src/hash_table.rs: insert, remove, get_node", "src/critbit.rs: insert, remove, get_leaf", "src/deque.rs: push_front, push_back, pop_front, pop_back"]}
{"id": "C72", "title": "Writing whole nodes through get_node_mut can lose entries, but never the structure", "statement": "The client may at any time overwrite key and value of any slot 1..MAX_SIZE, in use or not, through the public get_node_mut. For RedBlackTree, AVLTree and HashTable every history of calls and such writes still completes without panic or endless loop: a call concerns at most one entry, one whose (possibly overwritten) key compares equal to the given one, and leaves all others in their slots and order; a write changes the entry in that slot, if any, and nothing else; len, get_node and iter show exactly the entries; the trees stay red-black, resp. height-balanced, and searches stay logarithmic. Writing only a value to the node that get_addr(k) names is the same as insert(k, value), on every state. A write to any other index panics. But overwriting a key by a different one makes entries unfindable and lets keys be stored twice, and in Critbit, whose nodes carry the bit position, a write of prefix_len >= 128 to an inner node makes lookups and removals panic (contract boundary).", "quantifier": "every history of calls and node writes, every comparison / equality and hash function, every capacity; every state for the value write", "why_tests_cant": "Tests never write through get_node_mut. Tests and fuzzing sample finitely many histories of bounded length; the claim is about every history.", "anchors": ["src/red_black_tree.rs: get_node_mut, insert, remove, get_addr", "src/avl_tree.rs: get_node_mut, insert, remove, get_addr", "src/hash_table.rs: get_node_mut, insert, remove, get_addr", "src/critbit.rs: get_node_mut, get, remove"]}
{"id": "C73", "title": "No call takes more than logarithmically many steps, rebalancing included", "statement": "Every loop inside RedBlackTree's insert, remove, remove_root, get_min and get_max - the search, the descent to the predecessor and the loops restoring the colours after insertion and removal - runs for at most 2*log2(len+1)+2 iterations; those inside AVLTree's insert, remove, get_min and get_max for at most h+1, where h is the greatest number with fib(h+2) <= len+1 and thus at most 2*log2(len+1)+1, the rebalancing taking one iteration for each node on the recorded path. Both hold for any comparison, lawful or not. The search for a key in a HashTable, the only loop of get, get_mut, insert, remove, contains and get_addr, takes exactly one iteration for each entry with the same hash % NUM_BUCKETS touched more recently, and one more; so a key just inserted or just found by get_mut is found in the first iteration.", "quantifier": "every history, key, comparison and hash function", "why_tests_cant": "A bound over all histories and sizes; tests measure no steps.", "anchors": ["src/red_black_tree.rs: _insert, _fix_insert, _remove, _remove_tree_node, _fix_remove, remove_root, _find_min, _find_max", "src/avl_tree.rs: _insert, _remove, rebalance, find_min_index, find_max_index", "src/hash_table.rs: get, get_mut, _insert, _remove, contains, get_addr"]}
{"id": "C74", "title": "A buffer can be used with another capacity later", "statement": "MAX_SIZE is part of the type, not of the bytes. After new_from_slice on a zeroed buffer, the buffer may be used in any number of sessions, each through load_mut_bytes with a MAX_SIZE of its own, and be reallocated with zero initialisation before every one: as long as no session has a smaller MAX_SIZE than the greatest number of elements ever held before - in particular when capacities only grow - no call panics and all results, over all sessions, are those of one map or queue that is full according to the capacity of the session. (HashTable with the number of buckets and Critbit with NUM_NODES unchanged.) The conditions are needed: shrinking a Deque to a MAX_SIZE that its elements fit in, but that is below an earlier len(), makes pop_front panic; growing into bytes that are not zero makes it follow them as links; and changing NUM_NODES of a Critbit loses entries (contract boundary).", "quantifier": "every list of sessions, every history in each, every sequence of capacities, every element type, every reallocation", "why_tests_cant": "Tests use one capacity per buffer; the property is about two different types reading the same bytes.", "anchors": ["src/node_allocator.rs: load_mut_bytes, initialize, add_node, remove_node", "src/deque.rs: new_from_slice", "src/hash_table.rs: new_from_slice", "src/red_black_tree.rs: new_from_slice", "src/avl_tree.rs: new_from_slice", "src/critbit.rs: new_from_slice"]}
{"id": "C75", "title": "Addresses are decided by the calls alone, alike in all structures", "statement": "The address (node index) that a key gets is a function of the history of calls only: an insert of a new key gets the address given back last by a remove or remove_root and not handed out since, or, if there is none, the least address never handed out; a key keeps its address until it is removed; an insert into a full structure changes nothing. So RedBlackTree, AVLTree and HashTable with the same MAX_SIZE give every key the same address after the same calls, whatever the hash function, NUM_BUCKETS, the values, and the prior memory contents; and get_addr and the next return value of insert can be predicted without looking at the structure. The references that Critbit::get_mut returns point to the value slots predicted in the same way, and so do, for the elements of a Deque, the references that iter_mut yields.", "quantifier": "every history (RedBlackTree: with remove_root), every lawful key order / equality, every hash function, every capacity 0 < MAX_SIZE < 2^32 - 1; Critbit with NUM_NODES >= 2 * MAX_SIZE; Deque histories of fewer than 2^64 calls without a panic", "why_tests_cant": "Compares different structures over all histories. Tests and fuzzing sample finitely many histories of bounded length; the claim is about every history.", "anchors": ["src/node_allocator.rs: add_node, remove_node", "src/red_black_tree.rs: insert, remove, remove_root, get_addr", "src/avl_tree.rs: insert, remove, get_addr", "src/hash_table.rs: insert, remove, get_addr", "src/critbit.rs: insert, remove, get_mut", "src/deque.rs: push_back, push_front, pop_back, pop_front, iter_mut"]}
{"id": "C76", "title": "A call changes only few nodes", "statement": "However many elements there are, after insert into a RedBlackTree get_left, get_right, get_parent and get_node return what they returned before for all but at most 10 node indices, after remove and remove_root for all but at most 19; after insert into an AVLTree links and entries of all but at most 8 nodes are the same (one rotation suffices), after remove of all but 24*log2(len+1)+29; a Deque push changes at most 2 nodes and a pop at most 3; HashTable insert at most 2, remove 3, get_mut 4 nodes and each at most one bucket head; Critbit insert at most 5 nodes and one leaf, remove 6 and one. (Colours and heights are left out: recolouring and height updates may go up to the root.)", "quantifier": "every history for insert into the trees, for any comparison; every state, even a malformed one, for everything else that returns; every capacity", "why_tests_cant": "The bounds hold for trees of any size; tests do not look at the nodes a call leaves alone.", "anchors": ["src/red_black_tree.rs: _insert, _fix_insert, _remove, _fix_remove, _rotate_dir, remove_root", "src/avl_tree.rs: _insert, _remove, rebalance, left_rotate, right_rotate", "src/deque.rs: push_front, push_back, pop_front, pop_back", "src/hash_table.rs: insert, remove, get_mut", "src/critbit.rs: _insert, _remove, duplicate, migrate"]}
{"id": "C77", "title": "On arbitrary memory a lookup ends within as many steps as there are slots, or never", "statement": "Whatever the memory contains - reachable or not, as loaded from any bytes - the link-following loops of get, get_mut, contains, get_addr, get_min, get_max, next and next_back, of the searches in insert and remove of HashTable, RedBlackTree, AVLTree and Critbit, and all loops of AVLTree's insert and remove, either end (with a result or a panic) within MAX_SIZE + 1 iterations (Critbit: NUM_NODES + 1) or never end. Both happen: every buffer that fits can hold bytes that load_mut_bytes accepts and on which get never returns (a node that is its own child or successor). next of the HashTable iterators always ends.", "quantifier": "every state of the memory, every key, comparison, equality and hash function, every number of iterations", "why_tests_cant": "Tests cannot observe that a loop never ends, and run on well-formed structures only.", "anchors": ["src/hash_table.rs: get, get_mut, contains, get_addr, _insert, _remove, next", "src/red_black_tree.rs: get_addr, _insert, _remove, _find_min, _find_max, next, next_back", "src/avl_tree.rs: get, _insert, _remove, find_min_index, find_max_index, next, next_back", "src/critbit.rs: get, _insert, _remove, get_min, get_max, next, next_back"]}
{"id": "C78", "title": "A whole iteration takes linear time", "statement": "However a client mixes next and next_back on an iterator (iter or iter_mut), the loops inside the calls run, over its whole life: in RedBlackTree and AVLTree at most len + (number of calls) iterations for next and likewise for next_back, for any comparison of keys; in Critbit at most 2*len - 1 + (number of calls) each; in HashTable at most NUM_BUCKETS + (number of calls). So len + 1 calls take linear time altogether, though a single call may pass many nodes or buckets, and calling next after the end costs one iteration.", "quantifier": "every history, capacity, key comparison / equality and hash function, every sequence of next / next_back", "why_tests_cant": "An amortised bound over all histories and all sequences of calls; tests measure no steps.", "anchors": ["src/red_black_tree.rs: next, next_back", "src/avl_tree.rs: next, next_back", "src/critbit.rs: next, next_back", "src/hash_table.rs: next, next_back"]}
{"id": "C79", "title": "The crate's fuzz targets cannot fail, except the one for Critbit", "statement": "Run the loop of a fuzz target (fuzz/fuzz_targets, perform_action in fuzz/src/lib.rs) on a new structure with any list of actions and any outcomes of the random choices. For RedBlackTree, AVLTree and HashTable it ends, no assertion, unwrap, index or random choice panics, is_valid_red_black_tree is true after every action, and the keys vector lists exactly the keys with get(k) = Some, once each. For Critbit the same holds unless it stops at an assertion, which happens exactly when an Upsert comes while len = MAX_SIZE and the chosen key holds another value (Critbit refuses every insert when full); for every MAX_SIZE > 0 there is such an input: MAX_SIZE insertions of distinct keys with one value, then an Upsert of another (deviation: the fuzz target itself can fail).", "quantifier": "every list of actions, every random choice, every capacity, lawful key order / equality, every hash function", "why_tests_cant": "Fuzzing is sampling; here all inputs of the fuzzers are covered, and the input that it would take 1024 insertions to find.", "anchors": ["fuzz/src/lib.rs: perform_action", "fuzz/fuzz_targets", "src/red_black_tree.rs: insert, remove, get, get_mut, iter, iter_mut, is_valid_red_black_tree", "src/avl_tree.rs: insert, remove, get, get_mut, iter, iter_mut", "src/hash_table.rs: insert, remove, get, get_mut, iter, iter_mut", "src/critbit.rs: insert, remove, get, get_mut, iter, iter_mut"]}
{"id": "C80", "title": "Zeroed memory reads as an empty structure before initialize, and insertions panic", "statement": "A buffer of zero bytes loaded with load_mut_bytes, without initialize or new_from_slice having been called: every history of remove, get_mut, iter_mut, pop_front and pop_back returns None throughout and leaves the memory as it is; get, front, back, get_min, get_max and iteration yield nothing, contains is false, len is 0, get_addr is SENTINEL (Critbit: panics, as on every empty tree), is_valid_red_black_tree is true; the first insert, push_front or push_back of the history panics (index 0 is out of bounds); and initialize still works. So forgetting initialize can neither lose nor corrupt entries.", "quantifier": "every history, key, element type, hash function, every capacity with (MAX_SIZE + 1) mod 2^32 != 0 (HashTable: MAX_SIZE and NUM_BUCKETS positive)", "why_tests_cant": "Tests always initialise. Tests and fuzzing sample finitely many histories of bounded length; the claim is about every history.", "anchors": ["src/node_allocator.rs: add_node, initialize, load_mut_bytes", "src/deque.rs: push_front, push_back, pop_front, pop_back, iter_mut", "src/hash_table.rs: insert, remove, get, get_mut, iter, iter_mut", "src/red_black_tree.rs: insert, remove, get, get_mut, iter, iter_mut", "src/avl_tree.rs: insert, remove, get, get_mut, iter, iter_mut", "src/critbit.rs: insert, remove, get, get_mut, iter, iter_mut"]}
{"id": "C81", "title": "A client that catches panics sees a failed call that changed nothing", "statement": "A client may catch a panic (catch_unwind) and go on with the structure as the call left it. A Deque is then, in every history, a bounded queue in which a push into the full queue fails and does nothing: all other results, and afterwards front, back, len, is_empty and iteration from both ends, are those of that queue, however many pushes failed. add_node on a full allocator panics before it writes anything; so do RedBlackTree's and AVLTree's insert with MAX_SIZE = 0, the only case in which they panic. (Critbit with MAX_SIZE = 0 deviates: every caught panic of insert leaves one more node allocated until none is left, the leaves and the root stay as they were.)", "quantifier": "every history with any number of failing calls, fewer than 2^64 calls; every value, every capacity", "why_tests_cant": "Tests stop at the first panic. Tests and fuzzing sample finitely many histories of bounded length; the claim is about every history.", "anchors": ["src/node_allocator.rs: add_node", "src/deque.rs: push_front, push_back, pop_front, pop_back", "src/red_black_tree.rs: _insert", "src/avl_tree.rs: _insert", "src/critbit.rs: _insert, add_leaf"]}
{"id": "C82", "title": "Critbit with fewer nodes than it needs", "statement": "new asserts NUM_NODES >= 2*MAX_SIZE, but initialize on a loaded buffer does not. With any NUM_NODES: a history that returns has exactly the results of a finite map, with get, len and iteration as usual; and of the calls that can come next exactly the insertions of a new key with len < MAX_SIZE and NUM_NODES < 2*len + 1 panic. If such a panic is caught, all entries are still found by get and by iteration, but when NUM_NODES = 2*len > 0 then len() is one too high from then on and all nodes are taken. This can lose data (deviation): with NUM_NODES = 2, insert k, insert k' (panics), remove k: the remove panics on its own assertion that len is 1, after the root has been cleared; the entry is gone without having been returned, iteration yields nothing and every get panics.", "quantifier": "every NUM_NODES and MAX_SIZE > 0, every history, every pair of keys", "why_tests_cant": "Tests construct with new only and stop at a panic. Tests and fuzzing sample finitely many histories of bounded length; the claim is about every history.", "anchors": ["src/critbit.rs: initialize, _insert, add_leaf, duplicate, _remove, get, iter"]}
{"id": "C83", "title": "A caught panic of the first insertion initialises the memory", "statement": "On zeroed memory that was never initialised, the first insert, push_front, push_back or add_node panics (C80), and leaves exactly the memory that initialize would have left: Deque, RedBlackTree, AVLTree and HashTable work from then on as new. Critbit needs two such panics, one for each allocator, and the second one costs a node for good; root, leaves and len are those of a new tree.", "quantifier": "every capacity with (MAX_SIZE + 1) mod 2^32 != 0 (HashTable: MAX_SIZE and NUM_BUCKETS positive; Critbit: 0 < NUM_NODES < 2^32 - 1), every element, every hash function", "why_tests_cant": "Tests always initialise and stop at a panic.", "anchors": ["src/node_allocator.rs: add_node, initialize", "src/deque.rs: push_front, push_back", "src/red_black_tree.rs: _insert", "src/avl_tree.rs: _insert", "src/hash_table.rs: _insert", "src/critbit.rs: _insert, add_leaf"]}
{"id": "C84", "title": "map[k] and map[k] = w", "statement": "After every history, for RedBlackTree, AVLTree, HashTable and Critbit: if get(k) is None then Index and IndexMut on k panic. Otherwise map[k] is the value that get(k) finds, index_mut(k) refers to the entry of k, and map[k] = w has exactly the effect of get_mut(k) followed by a write of w: k is bound to w, all other keys and len are as before (and in a HashTable the entry moves to the front of its bucket, as with get_mut).", "quantifier": "every history, key and value, every capacity, lawful key order / equality, every hash function", "why_tests_cant": "Tests and fuzzing sample finitely many histories of bounded length; the claim is about every history.", "anchors": ["src/red_black_tree.rs: index, index_mut", "src/avl_tree.rs: index, index_mut", "src/hash_table.rs: index, index_mut", "src/critbit.rs: index, index_mut"]}
{"id": "C85", "title": "What the fuzz targets can detect", "statement": "Take any implementation of NodeAllocatorMap, right or wrong. If no input makes the fuzz target fail, then in every state that an input reaches: every key remembered is found and remove returns the value found; insert of a remembered key and a write through get_mut take effect; an insertion of a key not found is refused or makes it found; iter and iter().rev() end and yield only entries that get finds; the target's own check holds. But not more (deviation): the harness does not remember values, so a map that keeps only the value written last, for all keys alike, passes on all inputs.", "quantifier": "every implementation of the trait, every check, every input and random choice; for the wrong map every key and value type and every capacity >= 2", "why_tests_cant": "It is a statement about a test harness: what follows from its passing on all inputs.", "anchors": ["fuzz/src/lib.rs: perform_action", "fuzz/fuzz_targets", "src/node_allocator.rs: NodeAllocatorMap"]}
{"id": "C86", "title": "sequence_number never influences the queue", "statement": "sequence_number is a public field of Deque that a client may set, and every successful push and pop increments it. In every history of calls and of writes to the field, of any length, with panics caught, the deque is a plain bounded queue beside a 64-bit counter: results, front, back, len, is_empty and iteration from both ends are those of the queue, whatever the field holds. Without overflow checks the counter wraps modulo 2^64 and only a push into the full deque panics. With overflow checks a push or pop that finds the field at u64::MAX is carried out completely and panics instead of returning, so the element that a pop took out is lost (deviation). A history in which that does not happen gives the same memory and results in both builds.", "quantifier": "every history of any length, every write to the field, every capacity, both settings of overflow-checks", "why_tests_cant": "2^64 calls are out of reach of tests, and no test writes the field.", "anchors": ["src/deque.rs: push_front, push_back, pop_front, pop_back, _remove, sequence_number"]}
{"id": "C87", "title": "A hash table whose hash function changes", "statement": "The bytes of a HashTable outlive the program that wrote them, but DefaultHasher is unspecified and its result is truncated to usize. In every history in which each call uses a hash function of its own, with any equality of keys, no call panics or loops; a call concerns the first matching entry of the bucket its own hash selects; len and iteration depend on no hash function and lose no entry. On a table filled with one hash and used with another, a key whose two hashes select the same bucket is treated as before by every call; any other key is not found (never a wrong value), remove and get_mut of it change nothing, and insert stores it a second time if there is room, which leaves all lookups with the first hash as they were. Hash functions that select the same buckets are interchangeable; so machines with 32-bit and 64-bit usize can share a table if NUM_BUCKETS divides 2^32. For every other NUM_BUCKETS some hash makes an entry stored on one machine invisible on the other (deviation).", "quantifier": "every history, every family of hash functions, every key and equality, every capacity and NUM_BUCKETS > 0", "why_tests_cant": "Tests hash with one function in one process on one machine. Tests and fuzzing sample finitely many histories of bounded length; the claim is about every history.", "anchors": ["src/hash_table.rs: insert, remove, get, get_mut, contains, get_addr, iter, iter_mut"]}
{"id": "C88", "title": "Copying a map by iterating over it", "statement": "Inserting any list of entries with distinct keys, in any order, into a new RedBlackTree, AVLTree, HashTable or Critbit with room for them succeeds for every entry; then get finds exactly these entries, len is their number, and iteration yields each once (in ascending order, except for HashTable). So after any history a map can be moved into another one, of other capacity, NUM_NODES, NUM_BUCKETS or hash function, by inserting what iter() yields in whatever order: all lookups and len agree with the original, and so does iteration from both ends (except for HashTable).", "quantifier": "every history of the original, every order of insertion, every capacity that suffices, lawful key order / equality, every pair of hash functions", "why_tests_cant": "Tests and fuzzing sample finitely many histories of bounded length; the claim is about every history.", "anchors": ["src/red_black_tree.rs: insert, get, iter", "src/avl_tree.rs: insert, get, iter", "src/critbit.rs: insert, get, iter", "src/hash_table.rs: insert, get, iter"]}
{"id": "C89", "title": "The randomised test of the crate, for all random choices", "statement": "simulate (tests/test.rs) fills a map, drains it, runs rounds of random insertions, removals and writes beside a BTreeMap and then compares all iterators with it. For RedBlackTree, AVLTree, HashTable (any hash) and Critbit of any capacity, with any number of rounds: if the keys drawn for the filling are distinct, the extra key is new (Critbit: any key) and the keys drawn in all rounds but the last are distinct, then no assertion fails up to the comparison, and the comparison succeeds, with the same keys in the end, for a HashTable always and for the sorted maps exactly if at least three entries are left; with fewer the test panics in gen_range or in a subtraction (deviation of the test). A key repeated in the filling, an extra key that repeats one of them (not for Critbit), or a repetition within or before a round that is not the last makes the test fail although the map is right (deviation of the test). The test never calls get or contains: its outcome is the same whatever they return (deviation). Its comparisons of a map with a structure stop with the shorter of the two: they succeed exactly if what is iterated over agrees with the map as far as both go, so that missing last items go unnoticed (deviation).", "quantifier": "every capacity > 0, every number of rounds, every outcome of the random choices, lawful key order, every hash function", "why_tests_cant": "The test draws a few thousand random choices out of all of them; this is the statement about all of them.", "anchors": ["tests/test.rs: simulate", "src/red_black_tree.rs: insert, remove, get_mut, iter, iter_mut, into_iter", "src/avl_tree.rs: insert, remove, get_mut, iter, iter_mut, into_iter", "src/critbit.rs: insert, remove, get_mut, iter, iter_mut, into_iter", "src/hash_table.rs: insert, remove, get_mut, iter, iter_mut, into_iter"]}
{"id": "C90", "title": "Only comparisons of keys matter, values never do", "statement": "Take two structures with the same links and counters whose keys and values differ, such that corresponding keys compare alike (RedBlackTree: cmp; AVLTree: < and >; HashTable: == and the bucket of the hash; Critbit: the same keys), and apply corresponding calls to both. Then both panic alike or both return, the results correspond, addresses, counts and booleans are equal, and the two structures afterwards still have the same links and counters in every slot, free slots included. So no value ever influences the shape of a structure or which call succeeds, two hash functions that select the same buckets are interchangeable, and every history of n calls on a new RedBlackTree or AVLTree over any linearly ordered keys behaves, addresses included, like one whose keys are natural numbers up to n.", "quantifier": "every pair of corresponding memories, reachable or not, every history, any (even inconsistent) comparison, equality and hash function, every capacity; for small keys every linear order", "why_tests_cant": "It relates two runs with different key and value types on arbitrary memory; tests fix the types.", "anchors": ["src/red_black_tree.rs: insert, remove, get, get_mut, iter, iter_mut, remove_root, is_valid_red_black_tree", "src/avl_tree.rs: insert, remove, get, get_mut, iter, iter_mut", "src/hash_table.rs: insert, remove, get, get_mut, iter, iter_mut", "src/critbit.rs: insert, remove, get, get_mut, iter, iter_mut", "src/deque.rs: push_front, push_back, pop_front, pop_back, iter, iter_mut"]}
{"id": "C91", "title": "The trees are those of the textbook algorithms", "statement": "Spec/Textbook.lean writes AVL and red-black insertion and removal as short recursive functions on algebraic trees, without memory, parents or paths. After every history on a new AVLTree the memory below root (keys, children, the stored height of every node) is exactly the tree these functions compute for the same calls, and after every history on a new RedBlackTree, remove_root included, the memory (keys, colours, parents, children) is; get_mut, iter_mut and refused insertions change neither. Whether insert, remove and get_mut succeed is decided by the search in the algebraic tree and its size, and remove_root returns the key at its root. A removed AVL node with two children is replaced by its successor, a red-black one by its predecessor. The red-black removal differs from the usual one in one place: a red child that takes the place of a removed black node is not just coloured black, the repair treats it as lacking a black node.", "quantifier": "every history, every capacity > 0 with MAX_SIZE + 1 < 2^32, every comparison of keys, even an inconsistent one", "why_tests_cant": "Tests check balance and order of the resulting trees on samples, not which of the many balanced trees results. Tests and fuzzing sample finitely many histories of bounded length; the claim is about every history.", "anchors": ["src/avl_tree.rs: _insert, _remove, rebalance, left_rotate, right_rotate", "src/red_black_tree.rs: _insert, _fix_insert, _remove_tree_node, _fix_remove, _rotate_dir, remove_root"]}
{"id": "C92", "title": "The unit tests of the crate, for all keys, values and sizes", "statement": "The tests in red_black_tree.rs and deque.rs, with their literals and random choices as parameters: the five tests that look at colours and links after insertions, and remove_root, pass for all keys in the same relative order, all values and all capacities with room for the keys. The test_delete_multiple tests (fill the tree, check validity after each step, compare addresses, empty it in order of insertion) pass for every sequence of keys without repetition that fits, and panic in an unwrap for every other sequence. test_deque (push at both ends, iterate forward, backward, from both ends to any breakpoint, mutably and not, and then once more past the end, pop from either end, all beside a VecDeque) passes for all values, numbers of pushes and breakpoints if the values fit, and otherwise a push panics.", "quantifier": "every linear order of keys, every capacity with MAX_SIZE + 1 < 2^32, all values, all lists of keys, all breakpoints", "why_tests_cant": "Each test runs one choice of literals, one hash function or one draw of random numbers.", "anchors": ["src/red_black_tree.rs: the functions under #[test]", "src/deque.rs: test_deque", "src/red_black_tree.rs: insert, remove, get_addr, remove_root, is_valid_red_black_tree", "src/deque.rs: push_back, push_front, pop_back, pop_front, iter, iter_mut"]}
{"id": "C93", "title": "A call and its opposite", "statement": "After every history, inserting a key that is not there and removing it again returns the value and, in a HashTable, leaves buckets, len, free list head, all links and all nodes as they were, except for those of the slot the key had, which was and is the head of the free list; in a Critbit with NUM_NODES >= 2 * MAX_SIZE it gives back the tree node by node (same node, contents, parent, children and leaf slot along every path from the root); in a RedBlackTree and an AVLTree it gives back all entries, their addresses and the iteration, but not the shape (deviation: with keys 1 and 2, inserting and removing 3 moves the root). Removing the first key of a bucket's chain and inserting it again restores a HashTable completely. In a Deque push_back then pop_back, and push_front then pop_front, give back both ends, len, free list, all links and values except those of the slot used; pop then push of the popped value at the same end restores everything; sequence_number grows by two.", "quantifier": "every history, every key, value and hash function, every capacity; Deque: fewer than 2^64 - 2 calls", "why_tests_cant": "Tests and fuzzing sample finitely many histories of bounded length; the claim is about every history.", "anchors": ["src/hash_table.rs: insert, remove", "src/critbit.rs: insert, remove", "src/red_black_tree.rs: insert, remove", "src/avl_tree.rs: insert, remove", "src/deque.rs: push_front, push_back, pop_front, pop_back", "src/node_allocator.rs: add_node, remove_node"]}
{"id": "C94", "title": "Overwriting writes one value, and what the benchmarks do", "statement": "In every state whatever, an insert of a key that get finds returns the address of one slot and changes the value in it and nothing else: the same root, buckets, counters, free list, links, colours, heights and keys; a full map makes no difference, except to a Critbit, which must not be full. The benchmarks of benches/bench.rs never panic. In an insert benchmark only the first call of the closure inserts; all further calls change only values, and at the end every key has the value of the last call. In a remove benchmark the first call empties the map and in all further calls every remove finds nothing and changes nothing. In a lookup benchmark every get finds its key. So apart from their first round the insert benchmarks measure overwriting and the remove benchmarks measure lookups in an empty map. The benchmarks of Critbit need a capacity above the number of keys: with exactly as many, all rounds after the first are refused.", "quantifier": "overwriting: every state, key and value; benchmarks: every list of distinct keys that fits, all random values, any number of calls of the closure, every shuffle, every capacity and hash function", "why_tests_cant": "A benchmark ignores all results and checks nothing.", "anchors": ["benches/bench.rs", "src/red_black_tree.rs: insert, remove, get", "src/avl_tree.rs: insert, remove, get", "src/hash_table.rs: insert, remove, get", "src/critbit.rs: insert, remove, get"]}
{"id": "C95", "title": "Bytes from outside can make the repairs of a red-black tree run forever", "statement": "load_mut_bytes accepts any bytes of the right size and alignment. Among them are, for every capacity, (a) a tree with two entries and free slots in which get of any key but the one at the root returns None at once while insert of that key never returns: its repair loop goes round two states of the links for ever; (b) a tree in which get finds the key at the root at once and remove of that key never returns; (c) a tree on which the loop of is_valid_red_black_tree does not end within 2^32 - 1 iterations, so that this check cannot be used to sort such bytes out.", "quantifier": "every buffer that fits, every capacity from 3 (insert), 2 (remove) or 1 (check), all such keys, all values, any number of iterations (for the check fewer than 2^32)", "why_tests_cant": "The tests load only bytes that the crate wrote itself; and a test cannot observe that a loop never ends.", "anchors": ["src/red_black_tree.rs: _fix_insert, _fix_remove, _remove_tree_node, _transplant, is_valid_red_black_tree, load_mut_bytes"]}
{"id": "C96", "title": "Keys whose comparison, equality or hash panics or changes its mind during a call", "statement": "Let the code of the key type (cmp, <, >, ==, hash) panic at any point and give any answers, different ones for the same question even within one call. A call ended by such a panic changes no byte of the structure, in any state whatsoever. If the client catches these panics and goes on, no history makes the crate itself panic or loop: every other call adds, removes or changes at most one entry, one whose key was said during this very call to equal the given one, and leaves the rest as it is (only get_mut of the hash table may move the entry it found to an earlier place); len and iter (for the trees from both ends) agree with the entries, the red-black tree keeps its colour rules and the AVL tree its balance. If panics are the only deviation from fixed comparison, equality and hash functions, results and memory are those of the history without the calls that panicked.", "quantifier": "all key and value types, capacities and histories, all answers to every single question of every call, a panic at any question; unwinding: all states, also corrupted ones", "why_tests_cant": "The tests use integer keys, whose comparison neither panics nor changes.", "anchors": ["src/red_black_tree.rs: _insert, _remove, get_addr, get_mut", "src/avl_tree.rs: _insert, _remove, get_mut, get_addr", "src/hash_table.rs: _insert, _remove, get_mut, get_addr"]}
{"id": "C97", "title": "Every key is a variable of its own, and only the present map counts", "statement": "For RedBlackTree, AVLTree, HashTable and Critbit: (a) in every history of insert, remove and get_mut the calls on a key k, without the refused insertions, have the results of the same calls on one optional variable, and get(k) shows its last value; so when nothing is refused, the calls on other keys and their places in the history make no difference to k. (b) If get finds the same after two histories, then all further calls have the same results, and get, contains, Index, len, is_empty and, for the ordered maps, every way of iterating agree for ever (remove_root excepted, which removes what happens to be at the root: the order of two insertions decides). (c) After every history two calls on different keys can be exchanged, with the same results and the same get afterwards, except exactly when they compete for room: two new keys with one slot free, or a new key and a removal in a full map; in a Critbit, which when full refuses known keys too, overwriting competes as a new key does.", "quantifier": "every history, every pair of histories, every continuation, every pair of calls on different keys, every capacity, value type, lawful order and hash function", "why_tests_cant": "Interactions between keys would show only in some interleavings and tree shapes. Tests and fuzzing sample finitely many histories of bounded length; the claim is about every history.", "anchors": ["src/red_black_tree.rs: insert, remove, get_mut, get, remove_root", "src/avl_tree.rs: insert, remove, get_mut, get", "src/hash_table.rs: insert, remove, get_mut, get", "src/critbit.rs: insert, remove, get_mut, get"]}
{"id": "C98", "title": "Several maps in one memory by assigning the public root", "statement": "The field root of RedBlackTree and AVLTree and the field buckets of HashTable are public. A client which keeps n values of it (all empty at first) and assigns one of them before it calls has n maps in one structure: every insert, remove, get_mut and iter_mut acts on the map in place alone, with the results of a map of capacity MAX_SIZE minus the entries of the others; get, contains, Index and iteration of each map afterwards show what its own calls made of it, whatever was done to the others between. len and is_empty count all maps together. In a HashTable nothing panics; in the trees exactly one kind of call does: insert into an empty map when the other maps fill the memory, which reaches the panic of the allocator because the check for a full tree is made only in a tree which is not empty. Hence a used structure whose root (buckets) is set to the sentinel looks empty but has lost the room of its entries for good, unless the old value of the field is assigned again: then all of them are back, unharmed by everything done in between.", "quantifier": "every number of maps, every history of calls and assignments, every capacity, value type, lawful order and hash function", "why_tests_cant": "Needs the invariants of several trees sharing one allocator; a test sees a few interleavings. Tests and fuzzing sample finitely many histories of bounded length; the claim is about every history.", "anchors": ["src/red_black_tree.rs: root, insert, remove, get_mut, iter_mut", "src/avl_tree.rs: root, insert, remove, get_mut, iter_mut", "src/hash_table.rs: buckets, insert, remove, get_mut, iter_mut"]}
{"id": "C99", "title": "Several queues in one deque by assigning the public head and tail", "statement": "head and tail of Deque are public. A client which keeps n pairs of them (both the sentinel at first) and assigns one pair before it calls has n queues in one deque: every push, pop and iter_mut acts on the queue in place alone, with the results of a queue of capacity MAX_SIZE minus the elements of the others; front, back and iteration of each queue afterwards show what its own calls made of it. len and is_empty count all queues together and sequence_number the changes of all of them. The only panic is a push when all queues together hold MAX_SIZE elements. Hence a deque whose head and tail are set to the sentinel looks empty but has lost the room of its elements, unless the old pair is assigned again: then all of them are back.", "quantifier": "every number of queues, every history of fewer than 2^64 calls and assignments, every capacity and element type", "why_tests_cant": "Needs the invariant of several linked lists sharing one allocator; a test sees a few interleavings. Tests and fuzzing sample finitely many histories of bounded length; the claim is about every history.", "anchors": ["src/deque.rs: head, tail, push_front, push_back, pop_front, pop_back, iter, iter_mut, front, back, len, is_empty"]}
{"id": "C100", "title": "Several maps in one Critbit by assigning the public root: what works and exactly what panics", "statement": "root of Critbit is public. A client keeps n roots (all the sentinel at first) and assigns one of them before it calls. Every call that returns has acted on the map in place alone, with the results of a Critbit of capacity MAX_SIZE minus the entries of the others, and lookups and iteration of every nonempty map show what its own calls made of it. But the empty test of the code is by the number of leaves and not by the root, so the calls that panic are exactly: get, get_mut, contains, index and remove on a map that is empty while another is not (index out of bounds); remove of the only entry of a map while another holds entries (failed assertion); insert into an empty map when all maps together hold MAX_SIZE entries (buffer full). Hence once two maps hold entries neither can be emptied.", "quantifier": "every number of maps, every history of calls and assignments, every capacity and value type, all 128-bit keys", "why_tests_cant": "Needs the invariant of several radix trees sharing two allocators, and the exact condition for each panic; a test sees a few interleavings. Tests and fuzzing sample finitely many histories of bounded length; the claim is about every history.", "anchors": ["src/critbit.rs: root, get, get_mut, contains, insert, remove, iter, iter_mut, len, is_empty"]}
{"id": "C101", "title": "The colours of a RedBlackTree change a constant number of times per call on average", "statement": "A single insert or remove may recolour all nodes of a path. But over any history on a new tree, counting in each call the keys that are in the tree before and after it and whose get_color(get_addr(key)) the call has changed, the sum of these numbers is at most 9 for each insert plus 13 for each remove and remove_root in the history; get_mut and iter_mut add nothing. Counted from any later moment on, it is at most that plus 3*len() at that moment. With C76 (a constant number of links per call) it follows that, apart from the search, the writes of a history are linear in its number of calls.", "quantifier": "every history of calls, every capacity, key type with a total order and value type", "why_tests_cant": "Needs a potential function that no test computes; a test can only sum up the changes of the histories it runs. Tests and fuzzing sample finitely many histories of bounded length; the claim is about every history.", "anchors": ["src/red_black_tree.rs: insert, remove, remove_root, _fix_insert, _fix_remove, get_color, get_addr"]}
{"id": "C102", "title": "Insertions into an AVLTree change a constant number of stored heights per call on average", "statement": "A single insert may change the heights stored in all nodes of a path. But over any history without remove on a new tree, counting in each call the keys that are in the tree before and after it and whose stored height (the Height register of the node at get_addr(key)) the call has changed, the sum of these numbers is at most 7 for each insert in the history; get_mut and iter_mut add nothing. From any later moment of any history on (removals before that moment included) it is at most that plus len() at that moment. With removals mixed in this is false: for every h with 2^h <= capacity some history leads to a tree in which inserting one key and removing it again changes 2*h stored heights, however often it is repeated.", "quantifier": "every history of calls without removals, after every history at all; every capacity, key type with a total order and value type", "why_tests_cant": "Needs a potential function that no test computes; a test can only sum up the changes of the histories it runs. Tests and fuzzing sample finitely many histories of bounded length; the claim is about every history.", "anchors": ["src/avl_tree.rs: insert, rebalance, update_height, get_addr, get_field"]}
{"id": "C103", "title": "The trees an AVLTree can have are exactly the AVL trees", "statement": "For every binary tree T of keys: some history of calls on a new AVLTree of capacity M leads to a memory that holds T below the root (keys, children and stored heights) if and only if T is balanced (the heights of the two subtrees of every node differ by one at most), its keys ascend from left to right and it has at most M nodes. Each of these trees is made by insertions alone, every key inserted once. So the heights that a tree of capacity M can have are exactly the h with fib(h+2) <= M+1, and the bound of C35 is attained for every M.", "quantifier": "every tree of keys, every history of calls, every capacity, key type with a total order and value type (the heights: natural numbers as keys)", "why_tests_cant": "That no unbalanced tree occurs is a statement on all histories; that every balanced one does occur, one on all trees. Tests and fuzzing sample finitely many histories of bounded length; the claim is about every history.", "anchors": ["src/avl_tree.rs: insert, remove, rebalance, get_addr"]}
{"id": "C104", "title": "The orders in which a HashTable can yield its entries, and get_mut makes all of them", "statement": "For every list L of entries: some history of calls on a new HashTable leads to a table whose iter() yields exactly L if and only if the keys of L are distinct, they ascend by hash % NUM_BUCKETS, and L is no longer than the capacity; within a bucket every order occurs. If a table yields L after any history and L' is a permutation of L that also ascends by hash % NUM_BUCKETS, then calls of get_mut alone, which write nothing, lead to a table that yields L'. So a caller who only looks up can bring every bucket into every order.", "quantifier": "every list of entries, every history, every hash function, number of buckets > 0, capacity < 2^32 - 1, key and value type", "why_tests_cant": "That no other order occurs is a statement on all histories, that each of these does occur one on all lists. Tests and fuzzing sample finitely many histories of bounded length; the claim is about every history.", "anchors": ["src/hash_table.rs: insert, get_mut, iter, HashTableIterator::next"]}
{"id": "C105", "title": "What the lookups of all keys of a HashTable cost together", "statement": "After any history on a new HashTable, count the iterations of the search loop (shared by get, get_mut, insert, remove, contains and get_addr) for every key in the table. Twice their sum is exactly the sum of c*(c+1) over the numbers c of entries in the buckets, whatever the order within the buckets. So with n entries the sum is at least n*(n/NUM_BUCKETS + 1)/2 for every hash function, and at most n*(n+1)/2. The search for a key that is not in the table takes exactly one iteration more than its bucket has entries.", "quantifier": "every history, hash function, number of buckets > 0, capacity < 2^32 - 1, key and value type", "why_tests_cant": "A test can count the iterations of the tables it builds; that no hash function and no history does better is a statement on all of them. Tests and fuzzing sample finitely many histories of bounded length; the claim is about every history.", "anchors": ["src/hash_table.rs: get, get_addr, the search loop of insert, get_mut, remove"]}
{"id": "C106", "title": "A caller can give every key every address", "statement": "For every list of distinct keys with distinct addresses between 1 and the capacity there is a history of insert and remove calls after which exactly these keys are in the map and get_addr(key) is the address listed for it; the same history does it in a RedBlackTree, an AVLTree and a HashTable of that capacity. So an address tells nothing about the order of keys or of insertions, and code that keeps addresses must not rely on any arrangement other than what C21, C28 and C39 promise.", "quantifier": "every list of distinct keys and addresses, every capacity < 2^32 - 1, hash function, number of buckets > 0, every infinite key type with a total order", "why_tests_cant": "A test shows the arrangements of its own histories; that none is impossible is a statement on all arrangements. Tests and fuzzing sample finitely many histories of bounded length; the claim is about every history.", "anchors": ["src/red_black_tree.rs: insert, remove, get_addr", "src/avl_tree.rs: insert, remove, get_addr", "src/hash_table.rs: insert, remove, get_addr", "src/node_allocator.rs: add_node, remove_node"]}
{"id": "C107", "title": "A full RedBlackTree has a red node, so not every red-black tree occurs", "statement": "After any history of calls on a new RedBlackTree of capacity at least 2, if len() equals the capacity then some key has get_color(get_addr(key)) == RED: a tree becomes full only by the insertion of a new key, and that always leaves a red node below the root. As long as the history has no remove and no remove_root, the same holds for every tree of at least two keys, full or not. Hence a tree of exactly MAX_SIZE black nodes never occurs, whatever the comparison of keys answers, although it can meet all red-black conditions (it occurs when the capacity is larger); in this the tree differs from AVLTree (C103).", "quantifier": "every history of calls, every capacity of at least 2, every key type (with a total order for the statement about get_addr) and value type", "why_tests_cant": "The absence of a shape among all reachable ones cannot be seen by running some histories. Tests and fuzzing sample finitely many histories of bounded length; the claim is about every history.", "anchors": ["src/red_black_tree.rs: insert, fix_insert, remove, remove_root, get_color, get_addr, len"]}
{"id": "C108", "title": "The depth bound of RedBlackTree is attained by ascending insertions", "statement": "Insert 2^(h+1)-2 keys (h >= 1) in ascending order into a new RedBlackTree with room for them. Then 2*log2(len()+1) = 2*h, and there are exactly 2*h nodes from the root down the right side: following get_right from the root 2*h-1 times leads to a node and once more to SENTINEL, and a search for a key not less than all keys needs exactly 2*h iterations of the loop of get_addr. So the bound of C24 cannot be lowered at these sizes, and it takes no special history to attain it.", "quantifier": "every h, every ascending list of keys of that length, every sufficient capacity, key type with a total order and value type", "why_tests_cant": "A statement about trees of all sizes; a test can only build some of them.", "anchors": ["src/red_black_tree.rs: insert, fix_insert, get_addr, get_right, len"]}
{"id": "C109", "title": "Ascending insertions make a perfect AVLTree", "statement": "Insert 2^h-1 keys in ascending order into a new AVLTree with room for them. Then all levels of the tree are complete: whichever h-1 steps to left and right children one makes from the root, one is at a node, and one more step leads to SENTINEL. A RedBlackTree, by contrast, is then almost as deep as it can be (C108).", "quantifier": "every h, every ascending list of keys of that length, every sufficient capacity, key type with a total order and value type", "why_tests_cant": "A statement about trees of all sizes; a test can only build some of them.", "anchors": ["src/avl_tree.rs: _insert, rebalance, left_rotate, right_rotate, update_height, get_field"]}
{"id": "C110", "title": "Insertions into the trees treat left and right alike, removals do not", "statement": "Take two total orders of the keys, one the reverse of the other, and make the same calls without removals on a new tree with the one and on a new tree with the other. Then the second tree is the mirror image of the first, for AVLTree (stored heights included) and for RedBlackTree (colours included). Hence what C108 and C109 say of ascending insertions holds of descending ones with left and right exchanged. With removals it is false: after inserting 1, 0, 2 and removing 1, neither tree is the mirror image of its counterpart, because RedBlackTree puts the key before, AVLTree the key after the removed one in its place.", "quantifier": "every pair of reverse orders, every history without removals, every capacity and value type; for removals a concrete history at every capacity of at least 3", "why_tests_cant": "A relation between two programs run on all histories; no test compares them. Tests and fuzzing sample finitely many histories of bounded length; the claim is about every history.", "anchors": ["src/red_black_tree.rs: insert, fix_insert, remove", "src/avl_tree.rs: _insert, rebalance, left_rotate, right_rotate, _remove"]}
