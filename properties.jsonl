{"id": "C01", "title": "static_vector is a sequence", "statement": "After any history of operations (push_back, emplace_back, pop_back, insert of one/many/a range, erase of one/a range, clear, resize, assign), the elements seen through size()/operator[]/iteration are exactly those of a plain mathematical list on which the same operations were performed, provided every call respects the documented preconditions; no call has undefined behaviour.", "quantifier": "every element type and value, every capacity, every finite history of calls with every argument", "why_tests_cant": "The space of histories and of positions/counts is infinite; in-place shifting errors show only for particular combinations of position, count, size and capacity.", "anchors": ["include/itlib/static_vector.hpp: push_back, emplace_back, pop_back, insert, emplace, erase, clear, resize, assign, grow_at, shrink_at"]}
{"id": "C02", "title": "static_vector manages element lifetimes exactly once", "statement": "At every point between calls exactly the slots [0,size()) of the internal storage hold a live object and every other slot is raw. No call ever constructs over a live object, destroys or reads a slot holding no object, or touches a slot outside the capacity; destroying the vector leaves no live object.", "quantifier": "every history of calls, every capacity, every element type (including ones with observable moved-from states)", "why_tests_cant": "Double-destroy/leak/overlap bugs are undefined behaviour that normally does not change the observed values, so value-checking tests pass anyway.", "anchors": ["include/itlib/static_vector.hpp: construct_at, destroy_at, grow_at, shrink_at, clear, ~static_vector"]}
{"id": "C03", "title": "static_vector never exceeds its capacity and rejects cleanly", "statement": "size() never exceeds the capacity. A call which would exceed the capacity (or pop/erase more than is present) throws std::out_of_range and leaves the contents exactly as they were; a call that fits never throws.", "quantifier": "every reachable state, every operation and every argument", "why_tests_cant": "The boundary is different for every capacity and operation, and the claim includes all counts, including ones far beyond the capacity.", "anchors": ["include/itlib/static_vector.hpp: I_ITLIB_STATIC_VECTOR_OUT_OF_RANGE_IF, grow_at, shrink_at, resize, push_back"]}
{"id": "C04", "title": "static_vector copy, move and swap", "statement": "Copying gives an equal, independent vector; moving gives the old contents to the destination and leaves the source empty; swap exchanges contents; the assignments release exactly the previous contents of the destination. Assigning a vector to itself leaves it unchanged.", "quantifier": "every pair of vectors of every sizes (also across different capacities), including the same object twice", "why_tests_cant": "Needs all pairs of sizes and the aliasing case; the leftovers after swap of different sizes are lifetime bugs that do not alter values.", "anchors": ["include/itlib/static_vector.hpp: copy/move constructors, operator=, swap"]}
{"id": "C05", "title": "small_vector is a sequence wherever its buffer lives", "statement": "After any history of operations the elements of a small_vector are those of a mathematical list on which the same operations were performed, whether the elements are currently in the static buffer or on the heap and however many transitions took place, and positions out of [begin,end] are rejected with an exception that leaves the contents unchanged.", "quantifier": "every element type, every StaticCapacity and RevertToStaticSize, every history of calls with every argument respecting the preconditions", "why_tests_cant": "Static/dynamic transitions depend on the three-way relation between size, capacity and the two template parameters; tests fix a few template arguments.", "anchors": ["include/itlib/small_vector.hpp: choose_data, grow_at, shrink_at, resize, reserve, shrink_to_fit, insert, erase, push_back, pop_back, assign"]}
{"id": "C06", "title": "small_vector leaks and corrupts nothing", "statement": "At every point between calls exactly the slots [0,size()) of the current buffer hold a live object, every other slot of every buffer is raw, each heap buffer is owned by exactly one vector, is released exactly once with the size it was allocated with, and nothing stays allocated after all vectors are destroyed.", "quantifier": "every history over any number of vectors sharing one heap, including copies, moves and destructions", "why_tests_cant": "Ownership errors appear after specific multi-object histories; leaks and double frees do not affect compared values.", "anchors": ["include/itlib/small_vector.hpp: grow_at, shrink_at, take_impl, destroy_all, choose_data, operator="]}
{"id": "C07", "title": "small_vector reserve / capacity contract", "statement": "size() <= capacity() always; after reserve(n) the capacity is at least n and the contents are unchanged; no operation other than those documented shrinks the capacity below a previous reserve; while size() does not exceed the reserved amount push_back does not move the elements.", "quantifier": "every reachable state and every n, every pair of template parameters", "why_tests_cant": "The interplay between reserve and RevertToStaticSize only shows for particular parameter triples.", "anchors": ["include/itlib/small_vector.hpp: reserve, choose_data, shrink_to_fit, capacity"]}
{"id": "C08", "title": "small_vector revert_to_static / shrink_to_fit", "statement": "revert_to_static() returns true exactly if afterwards the vector uses its static buffer; shrink_to_fit() never changes the contents and afterwards a dynamic vector has capacity()==size().", "quantifier": "every reachable state, every pair of template parameters", "why_tests_cant": "The failing boundary is one size per template instantiation.", "anchors": ["include/itlib/small_vector.hpp: shrink_to_fit, revert_to_static"]}
{"id": "C09", "title": "small_vector copy, move, assignment and swap across storage kinds", "statement": "Copy construction/assignment give an equal independent vector; move construction/assignment transfer the contents and leave the source empty and usable; when the source was dynamic its elements are not relocated; the old contents of the destination are released; self-assignment is harmless.", "quantifier": "every pair of vectors in every combination of static/dynamic storage, including the same object twice", "why_tests_cant": "Four storage combinations times all sizes and aliasing; stale-pointer bugs do not show in values.", "anchors": ["include/itlib/small_vector.hpp: take_impl, constructors, operator="]}
{"id": "C10", "title": "pod_vector is a sequence under every allocator behaviour", "statement": "After any history of operations the elements of a pod_vector are those of a mathematical list on which the same operations were performed, regardless of whether the allocator's realloc moves the block or not and whether expand succeeds or not.", "quantifier": "every trivially copyable element size, every history of calls, every sequence of allocator decisions", "why_tests_cant": "Allocator decisions are nondeterministic; a test allocator exercises one decision sequence.", "anchors": ["include/itlib/pod_vector.hpp: reserve, grow_at, shrink_at, resize, insert, erase, assign, emplace_back"]}
{"id": "C11", "title": "pod_vector never touches memory outside its block", "statement": "No operation reads or writes outside the currently allocated block, reads uninitialised elements, uses a freed block, or leaks one; size() <= capacity() always.", "quantifier": "every history of calls, every sequence of allocator decisions", "why_tests_cant": "Heap overruns into slack space go unnoticed by value checks, and depend on the exact capacity.", "anchors": ["include/itlib/pod_vector.hpp: resize, fill, grow_at, reserve, shrink_to_fit, ~pod_vector"]}
{"id": "C12", "title": "pod_vector reports relocation truthfully", "statement": "reserve, shrink_to_fit and resize return true exactly if data() changed, i.e. iterators were invalidated.", "quantifier": "every state, every argument, every sequence of allocator decisions", "why_tests_cant": "The report depends on nondeterministic allocator decisions.", "anchors": ["include/itlib/pod_vector.hpp: reserve, shrink_to_fit, resize"]}
{"id": "C13", "title": "pod_vector over-aligned storage", "statement": "Whatever address the allocator returns, the element pointer derived from it is aligned for T, lies within the requested bytes together with the whole requested payload and the bookkeeping byte, and the original address is recovered exactly when freeing or reallocating.", "quantifier": "every machine address, every power of two alignment supported by the code, every payload size", "why_tests_cant": "Addresses come from the allocator; tests see only a handful of residues.", "anchors": ["include/itlib/pod_vector.hpp: align_ptr, real_addr, a_malloc, a_realloc_begin, a_expand_begin, a_free_begin"]}
{"id": "C14", "title": "pod_vector recast preserves bytes", "statement": "recast_copy_from / recast_take_from give a vector whose bytes are the longest whole-element prefix of the source's bytes; recast_take_from leaves the source empty and keeps the block; converting back after an exact recast gives the original contents.", "quantifier": "every pair of element sizes and every contents", "why_tests_cant": "Rounding depends on divisibility between arbitrary element sizes.", "anchors": ["include/itlib/pod_vector.hpp: recast_copy_from, recast_take_from"]}
{"id": "C15", "title": "flat_map is a finite map", "statement": "After any history of insert/emplace/operator[]/at/erase/find/lower_bound/upper_bound/equal_range/count/clear/swap the flat_map is observably the finite partial function one gets by performing the same operations on an abstract map: existing keys are never overwritten by insert, operator[] default-creates, at throws exactly for absent keys, erase removes exactly that key, iteration is strictly increasing in key order. Keys are given as such or as arguments that compare like the key they convert to. (Arguments that compare unlike it, as 2.5 for a key of type int, are inserted beside an equivalent key. Proved.)", "quantifier": "every strict weak order on every key type, every history of calls", "why_tests_cant": "The comparison relation is an arbitrary parameter and the number of histories is infinite.", "anchors": ["include/itlib/flat_map.hpp: insert, emplace, erase, find, operator[], at, lower_bound, upper_bound, equal_range, count"]}
{"id": "C16", "title": "flat_set is a finite set", "statement": "After any history of insert/emplace/erase/find/count/lower_bound/upper_bound/equal_range/clear/swap the flat_set is observably the set (of order-equivalence classes) obtained by the same operations on an abstract set, iterated in strictly increasing order. Keys are given as such or as arguments that compare like the key they convert to. (Arguments that compare unlike it, as 2.5 for a key of type int, are inserted beside an equivalent key. Proved.)", "quantifier": "every strict weak order on every key type, every history of calls", "why_tests_cant": "As for flat_map.", "anchors": ["include/itlib/flat_set.hpp: insert, emplace, erase, find, count, lower_bound, upper_bound, equal_range"]}
{"id": "C17", "title": "flat_map / flat_set construction from an arbitrary container", "statement": "Building from any container or initializer list yields strictly increasing keys, contains exactly the keys (up to equivalence) of the input, and each stored element is one of the input elements, whatever order an unstable sort leaves equal keys in.", "quantifier": "every input sequence, every strict weak order, every admissible outcome of std::sort", "why_tests_cant": "std::sort is only specified up to permutation of equivalent elements; tests see one implementation.", "anchors": ["include/itlib/flat_map.hpp: flat_map(container_type), flat_map(initializer_list)", "include/itlib/flat_set.hpp: flat_set(container_type), modify_container/sort+unique constructor"]}
{"id": "C18", "title": "flat_map / flat_set lookup cost and heterogeneous keys", "statement": "find/lower_bound/count use at most about log2(size)+2 comparisons and return the right position for any probe (also of another type) whose comparisons are consistent with the order.", "quantifier": "every size, every sorted contents, every probe", "why_tests_cant": "A bound over all sizes is not testable.", "anchors": ["include/itlib/flat_map.hpp: lower_bound, find", "include/itlib/flat_set.hpp: lower_bound, find"]}
{"id": "C19", "title": "dynamic_bitset is a sequence of bits", "statement": "After any history of construction, copying, moving, set, reset, flip, push_back, resize, assign, append and copy on any number of bitsets, the bits observed through test/operator[]/iteration and the answers of size/empty/all/any/none are those of mathematical lists of booleans; resize keeps the old prefix and the new bits are false; unused bits of the last word never leak back into view.", "quantifier": "every word width, every number of bits, every history", "why_tests_cant": "Stale tail-bit bugs show only after shrink/grow histories crossing word boundaries at particular residues.", "anchors": ["include/itlib/dynamic_bitset.hpp: resize, push_back, set, reset, flip, assign, word_index, word_mask"]}
{"id": "C20", "title": "dynamic_bitset all/any/none", "statement": "any() is true iff some bit is set; none() is its negation; all() is true iff the set is nonempty and every bit is set \u2014 for every word type.", "quantifier": "every word width, every contents", "why_tests_cant": "Depends on word type width (integer promotion) and on residues modulo the word width.", "anchors": ["include/itlib/dynamic_bitset.hpp: all, any, none"]}
{"id": "C21", "title": "dynamic_bitset append", "statement": "append(b) makes the bits of the destination the old bits followed by the bits of b, for all sizes and alignments of both.", "quantifier": "every word width, every pair of bit strings", "why_tests_cant": "Shifting logic depends on both sizes modulo the word width.", "anchors": ["include/itlib/dynamic_bitset.hpp: append"]}
{"id": "C22", "title": "dynamic_bitset copy", "statement": "copy(dest range, source position) sets exactly the destination bits to the corresponding source bits and leaves all other bits of the destination unchanged.", "quantifier": "every word width, every pair of offsets, every length", "why_tests_cant": "Correctness depends on both offsets modulo the word width and on the length; a test covers a few triples.", "anchors": ["include/itlib/dynamic_bitset.hpp: copy"]}
{"id": "C23", "title": "expected holds exactly one alternative", "statement": "Every expected object holds exactly one of value/error; each construction, copy, move, assignment, emplace and clear yields the state it documents; observers and (within their documented precondition) the accessors report that state; and each contained object is constructed and destroyed exactly once, over every history and for all six T/E specialisations.", "quantifier": "every history of operations over several objects, every specialisation, every value", "why_tests_cant": "Two-by-two state transitions times specialisations times histories; lifetime errors are not visible in values.", "anchors": ["include/itlib/expected.hpp: expected<T,E>, expected<T&,E>, expected<void,E>, expected<T,void>, expected<T&,void>, expected<void,void>"]}
{"id": "C24", "title": "any holds the last value put in, by value", "statement": "An any holds exactly the last value stored in it; copies are independent of the original; moving leaves the source empty; casts succeed exactly for the stored type; copying an any holding a non-copyable object throws and leaks nothing; assigning an any to itself leaves it unchanged.", "quantifier": "every history over several anys, every sequence of stored types and values", "why_tests_cant": "Aliasing and self-assignment need all histories; type set is open.", "anchors": ["include/itlib/any.hpp: any, emplace, copy_from, reset, any_cast"]}
{"id": "C25", "title": "any allocates and frees in pairs", "statement": "Each block allocated by an any is released exactly once, with the same size/alignment and with the allocator that produced it, also when constructing the stored value throws.", "quantifier": "every history over several anys with arbitrary (stateful) allocators and arbitrary throw points", "why_tests_cant": "Needs all histories including exceptional exits and unequal allocators.", "anchors": ["include/itlib/any.hpp: emplace, copy_from, free_block, operator=(any&&)"]}
{"id": "C26", "title": "generator delivers exactly what the coroutine yields", "statement": "Successive next() calls (or range-for) deliver exactly the yielded values in order, each once; after completion every further next() gives an empty result; an exception thrown by the body is rethrown to the consumer exactly once, at the point of the sequence where it happened.", "quantifier": "every coroutine body (finite, infinite, throwing), every consumption length", "why_tests_cant": "Coroutine bodies are arbitrary programs.", "anchors": ["include/itlib/generator.hpp: next, begin, pseudo_iterator, safe_resume, promise_type"]}
{"id": "C27", "title": "generator destroys its frame exactly once", "statement": "Over any history of moves, assignments and destructions of generators each coroutine frame is destroyed exactly once and never resumed afterwards.", "quantifier": "every history over any number of generator objects, including self-assignment", "why_tests_cant": "Double-destroy is undefined behaviour and often silent.", "anchors": ["include/itlib/generator.hpp: generator(generator&&), operator=, ~generator"]}
{"id": "C28", "title": "mem_ostreambuf accumulates writes", "statement": "The container obtained from a mem_ostreambuf is the concatenation of everything written since the last get_container/clear, however the writes are split into characters and chunks and whatever growth policy the container has.", "quantifier": "every sequence of writes, every container growth policy, every initial reserve", "why_tests_cant": "Growth policies and splits are unbounded.", "anchors": ["include/itlib/mem_streambuf.hpp: mem_ostreambuf::overflow, xsputn, cap_resize_by, get_container, clear"]}
{"id": "C29", "title": "mem_ostreambuf seeking and reuse", "statement": "Seeking within the written data and writing overwrites in place (as in a file), and after get_container() the buffer is empty and usable again, for every contiguous container.", "quantifier": "every interleaving of writes, seeks and get_container, every container kind", "why_tests_cant": "Depends on container-specific data() of an empty container and on the seek history.", "anchors": ["include/itlib/mem_streambuf.hpp: seekpos, seekoff, poff, get_container, peek_container"]}
{"id": "C30", "title": "mem_istreambuf reads its range and never beyond", "statement": "Any sequence of reads and seeks within the range returns the corresponding slices of the data, short only at the end, and never accesses memory outside of the range.", "quantifier": "every data, every sequence of reads/seeks", "why_tests_cant": "Infinite histories; overreads are undefined behaviour.", "anchors": ["include/itlib/mem_streambuf.hpp: mem_istreambuf::xsgetn, seekpos, seekoff, reset"]}
{"id": "C31", "title": "redirect_rstream restores the position", "statement": "Reading through a redirected stream starts at the requested position, and when the redirect goes away the underlying stream is back at the position it had before, whatever was read in between.", "quantifier": "every stream contents, every position, every sequence of reads in between", "why_tests_cant": "Includes all failing/short reads.", "anchors": ["include/itlib/rstream.hpp: redirect_rstream"]}
{"id": "C32", "title": "span sub-views stay in range", "statement": "subspan/first/last/remove_prefix/remove_suffix of a span denote exactly the corresponding slice of its elements, and never denote elements outside it.", "quantifier": "every address, length, offset and count representable in the machine", "why_tests_cant": "Wrap-around cases lie at the far end of the 64-bit range.", "anchors": ["include/itlib/span.hpp: subspan, first, last, remove_prefix, remove_suffix"]}
{"id": "C33", "title": "stride_span addresses every stride-th element", "statement": "Element i of a stride_span is element i*stride of the underlying storage; subspans compose; iterators obey random-access laws ((a+n)-a==n for positive and negative n); spans made from an array with offset and stride cover exactly the elements offset, offset+stride, ... within the array.", "quantifier": "every stride, length, offset, index", "why_tests_cant": "Signed/unsigned conversions fail only for negative differences and particular strides.", "anchors": ["include/itlib/stride_span.hpp: operator[], at, iterator, subspan, make_stride_span", "include/itlib/poly_span.hpp: iterator"]}
{"id": "C34", "title": "memory_view slices stay in range", "statement": "slice/remove_prefix/remove_suffix on a memory_view denote exactly the corresponding byte range, clipped to the view.", "quantifier": "every size, offset and count", "why_tests_cant": "All offsets including wrap-around.", "anchors": ["include/itlib/memory_view.hpp: slice, remove_prefix, remove_suffix"]}
{"id": "C35", "title": "string prefix/suffix utilities", "statement": "starts_with/ends_with decide prefix/suffix; remove_prefix_all/remove_suffix_all terminate, strip exactly the maximal number of repetitions, and leave a string which no longer starts/ends with the (nonempty) affix.", "quantifier": "every string and every affix, including the empty one", "why_tests_cant": "Termination and maximality range over all strings.", "anchors": ["include/itlib/strutil.hpp: starts_with, ends_with, remove_prefix_all, remove_suffix_all"]}
{"id": "C36", "title": "qalgorithm erase/find helpers", "statement": "erase_all(_if) keep exactly the elements not matching, in order, and return the number removed; erase_first(_if) remove exactly the first match if any; qfind/pfind locate the first match; qall_of/any_of/none_of are the quantifiers.", "quantifier": "every sequence, every predicate", "why_tests_cant": "Arbitrary predicates and sequences.", "anchors": ["include/itlib/qalgorithm.hpp: erase_all, erase_all_if, erase_first, erase_first_if, qfind, pfind, qall_of, qany_of, qnone_of"]}
{"id": "C37", "title": "time_t arithmetic", "statement": "Differences and sums are consistent ((t+d)-t is d truncated toward zero to seconds, comparisons agree with differences), and strftime returns the fully formatted string, terminating, for every format.", "quantifier": "every time point, every duration in every unit, every format/locale result length", "why_tests_cant": "Sub-second rounding of negative durations and formats with empty output.", "anchors": ["include/itlib/time_t.hpp: operator+, operator-, strftime"]}
{"id": "C38", "title": "atomic_relaxed_counter loses no update", "statement": "For every interleaving of increments/decrements/additions from any number of threads the final value is the initial value plus the sum of all deltas, and concurrent increments return distinct values.", "quantifier": "every number of threads, every interleaving", "why_tests_cant": "Schedules are not enumerable.", "anchors": ["include/itlib/atomic.hpp: atomic_relaxed_counter"]}
{"id": "C39", "title": "atomic_shared_ptr_storage is a linearizable register", "statement": "load/store/exchange/compare_exchange_strong on one storage from any number of threads behave as if executed one at a time at some instant between call and return; a loaded pointer is never torn and its object is alive as long as the loaded pointer is held.", "quantifier": "every number of threads, every interleaving of the internal steps", "why_tests_cant": "Races require particular schedules.", "anchors": ["include/itlib/atomic_shared_ptr_storage.hpp: load, store, exchange, compare_exchange_strong"]}
{"id": "C40", "title": "atomic_shared_ptr_storage never runs user code under its lock", "statement": "No destructor of a stored object runs while the internal lock is held, so objects whose destructor uses the storage again cannot deadlock.", "quantifier": "every number of threads, every schedule, every sharing pattern of the pointers", "why_tests_cant": "Depends on who drops the last reference, i.e. on the schedule.", "anchors": ["include/itlib/atomic_shared_ptr_storage.hpp: store, exchange, compare_exchange_strong"]}
{"id": "C41", "title": "strong_try_rec_mutex", "statement": "At most one thread owns the mutex at any time; try_lock fails only if another thread owns it (never spuriously), succeeds recursively; the mutex is released exactly when the owner has unlocked as often as it locked.", "quantifier": "every number of threads, every schedule, every recursion depth", "why_tests_cant": "Schedules and depths are unbounded.", "anchors": ["include/itlib/mutex.hpp: strong_try_rec_mutex"]}
{"id": "C42", "title": "data_mutex lock objects", "statement": "While a unique lock object is engaged no other lock object grants access to the data; shared locks coexist only with shared locks; the mutex is unlocked exactly once per successful lock, also after moves of lock objects, and never when locking failed.", "quantifier": "every history of lock/try_lock/move/destroy over any number of lock objects, including lock() throwing", "why_tests_cant": "Moves and failure paths multiply; schedules are unbounded.", "anchors": ["include/itlib/data_mutex.hpp: unique_lock_t, shared_lock_t, try_unique_lock_t, try_shared_lock_t, lock_base_t"]}
{"id": "C43", "title": "sentry runs its function exactly once", "statement": "The function given to a sentry runs exactly once, when the last owner of the duty goes away, under any chain of moves.", "quantifier": "every chain of moves/returns and destruction order", "why_tests_cant": "All move chains.", "anchors": ["include/itlib/sentry.hpp: sentry, make_sentry"]}
{"id": "C44", "title": "make_aliased / shared_from lifetime", "statement": "The aliased pointer keeps the owner alive exactly as long as it exists, points to the given address, and is null exactly if the owner is empty.", "quantifier": "every ownership history", "why_tests_cant": "Ownership graphs are unbounded.", "anchors": ["include/itlib/make_ptr.hpp: make_aliased", "include/itlib/shared_from.hpp: shared_from, weak_from"]}
{"id": "C45", "title": "pmr_allocator new_object/delete_object balance", "statement": "new_object leaves exactly one live object in one fresh block, or, if the constructor throws, releases the block with its exact size and alignment; delete_object releases both.", "quantifier": "every size, alignment, and throw behaviour, every history", "why_tests_cant": "Exceptional paths.", "anchors": ["include/itlib/pmr_allocator.hpp: new_object, delete_object, allocate_object, deallocate_object"]}
{"id": "C46", "title": "bit_cast and owner_from_member", "statement": "bit_cast round-trips between types of equal size; owner_from_member applied to the address of a member gives back the address of its owner.", "quantifier": "every bit pattern, every layout and address", "why_tests_cant": "All bit patterns.", "anchors": ["include/itlib/utility.hpp: bit_cast, owner_from_member"]}
{"id": "C47", "title": "vectors under throwing constructors", "statement": "If constructing an element throws during push_back/emplace_back/copy construction, no element is leaked or lost: push_back leaves the vector as it was, and whatever happens the vector can still be destroyed without undefined behaviour.", "quantifier": "every state, every operation, every throw point", "why_tests_cant": "Each operation has as many throw points as element constructions; a leaked slot is not visible in values.", "anchors": ["include/itlib/static_vector.hpp: push_back, grow_at, insert, resize", "include/itlib/small_vector.hpp: grow_at, push_back, insert"]}
{"id": "C48", "title": "container equality", "statement": "operator== on static_vector, small_vector, pod_vector, flat_map, and flat_set is true iff the contents are elementwise equal; operator!= is its negation.", "quantifier": "every pair of containers (also of different capacities)", "why_tests_cant": "All pairs of contents, length mismatches and prefixes.", "anchors": ["include/itlib/static_vector.hpp: operator==", "include/itlib/small_vector.hpp: operator==", "include/itlib/pod_vector.hpp: operator==", "include/itlib/flat_map.hpp: operator==", "include/itlib/flat_set.hpp: operator=="]}
{"id": "C49", "title": "small_vector goes back to its static buffer below the threshold", "statement": "When erase, pop_back, clear or resize leave fewer than RevertToStaticBelow elements, the vector uses its static buffer again and its heap block has been released.", "quantifier": "every StaticCapacity and RevertToStaticBelow, every reachable state, every such call", "why_tests_cant": "The buffer switch depends on the size, the threshold and the history of the buffer; tests see one threshold and few sizes.", "anchors": ["include/itlib/small_vector.hpp: 84-88, choose_data, shrink_at, clear, resize"]}
{"id": "C50", "title": "ufunction owns one callable and never copies it", "statement": "A ufunction calls exactly the callable last stored in it (with the state earlier calls left in it), is empty exactly if nothing or a null function was stored or it was moved from, throws std::bad_function_call when called empty; the stored callable is never copied and each callable object constructed is destroyed exactly once, whichever way the standard library stores the target.", "quantifier": "every history of constructions, assignments, moves, calls and destructions on any number of ufunctions, every callable type, every storage policy of std::function", "why_tests_cant": "Whether the throwing copy constructor of the wrapper is ever reached depends on the library's storage policy and on the history; leaks and double destruction are invisible in results.", "anchors": ["include/itlib/ufunction.hpp: ufunction, copy_wrapper"]}
{"id": "C51", "title": "transparent_umap is a map", "statement": "The transparent overloads of try_emplace, operator[] and at behave as those of a finite map on equivalence classes of keys: try_emplace never changes an existing entry nor consumes its arguments when the key is present, operator[] default-constructs exactly when the key is absent, at throws exactly when it is absent, and a throwing construction leaves the map unchanged.", "quantifier": "every history on a map (maps share nothing), every hash and key equality consistent with each other, every probe consistent with them, every growth policy of the table", "why_tests_cant": "The only test of this header includes it; collisions, rehashing and probes of another type give an unbounded number of table states.", "anchors": ["include/itlib/transparent_umap.hpp: try_emplace, operator[], at"]}
{"id": "C52", "title": "transparent_umap accepts keys of other types", "statement": "If hash and key equality of the map are transparent and Key can be constructed from the argument's type, the calls try_emplace(k), m[k] and m.at(k) are well-formed for arguments k of that type.", "quantifier": "every key type, argument type and value category, every hash and equality", "why_tests_cant": "Overload resolution is decided at compile time per type; the only test of this header includes it.", "anchors": ["include/itlib/transparent_umap.hpp: is_transparent, enable_if_tr, enable_if_tr_c"]}
{"id": "C53", "title": "throw_ex throws what was streamed", "statement": "The expression throw_ex<E>{} << a << b << ... always exits by throwing an E whose message is the concatenation of the texts of the operands, or, if evaluating or printing an operand throws, by that exception.", "quantifier": "every sequence of operands, every context in which the expression is evaluated (also destructors running during unwinding)", "why_tests_cant": "A wrong outcome is the end of the program; the contexts (number of exceptions in flight) and throwing operands are not enumerable.", "anchors": ["include/itlib/throw_ex.hpp: ~throw_ex, operator<<"]}
{"id": "C54", "title": "is_noop_convertible means that conversion keeps the bytes", "statement": "If is_noop_convertible<From, To> is true then converting any value of From to To gives a value with the same bytes.", "quantifier": "every pair of types and every value", "why_tests_cant": "All values of all pairs of scalar types; tests only check that the constant is true or false for a few pairs.", "anchors": ["include/itlib/type_traits.hpp: is_noop_convertible"]}
{"id": "C55", "title": "dynamic_bitset survives failures of its buffer", "statement": "If the buffer of a dynamic_bitset throws (no memory, or a static_vector that is full), the call has no effect and the bitset remains usable; sizes near the maximum of size_t are refused; and new bits are false whatever the buffer type.", "quantifier": "every word type, every buffer behaviour at every call, every history of calls on any number of bitsets, every size", "why_tests_cant": "The tests use std::vector with enough memory and small sizes; failures at each allocation of each history, uninitialised words, and sizes near 2^64 are not exercised.", "anchors": ["include/itlib/dynamic_bitset.hpp: resize, push_back, append, assign, reserve, word_size, constructors"]}
{"id": "C56", "title": "dynamic_bitset iterators are positions", "statement": "An iterator of a dynamic_bitset is a position: it moves, compares and subtracts as an integer, reads the bit at its position and changes that bit alone, and stays valid while the bitset changes; a loop over the bitset sees every bit once and in order.", "quantifier": "every word type, every program with any number of bitsets and iterators, every size below 2^63", "why_tests_cant": "Tests walk a few small bitsets; the claim is about all interleavings of moves, writes and changes of the bitsets, with 64-bit index arithmetic.", "anchors": ["include/itlib/dynamic_bitset.hpp: dynamic_bitset_iterator_base, iterator, const_iterator, bitref, begin, end"]}
{"id": "C57", "title": "flat_map and flat_set on the library's own vectors", "statement": "A flat_map or flat_set whose container is a static_vector or a small_vector behaves as one over std::vector, except that a full static_vector makes insertions and constructions throw out_of_range; between calls the container holds exactly the entries, in strictly increasing order of keys, without leaked or doubly destroyed elements, lost temporaries or, for small_vector, leaked memory.", "quantifier": "every history of calls on any number of maps, every strict weak order, every capacity, static capacity and revert threshold, every value that moving leaves behind", "why_tests_cant": "Tests combine the classes with a few element types and short sequences; the claim joins the proofs of all calls of the container with all histories of the map, including in-place unique and failing insertions.", "anchors": ["include/itlib/flat_map.hpp: all members", "include/itlib/flat_set.hpp: all members", "include/itlib/static_vector.hpp: emplace, erase, constructors, assignment, swap", "include/itlib/small_vector.hpp: emplace, erase, constructors, assignment"]}
{"id": "C58", "title": "small_vector in programs whose elements and allocations throw", "statement": "In a program that catches exceptions of element constructors and of the allocator, every small_vector stays usable: a call whose allocation fails has no effect, a call during which an element constructor throws leaves a vector that can be used and destroyed, a constructor that throws leaves nothing behind, and no element or memory is leaked. (The code keeps this only for some calls; which exceptions are survived, with which contents, and that all others are fatal, is what is proved.)", "quantifier": "every program with any number of vectors, every throw point of every call, every static capacity and revert threshold", "why_tests_cant": "The number of throw points grows with the history, and damage done by an exception shows only in a later destructor, if at all.", "anchors": ["include/itlib/small_vector.hpp: all members that construct elements or allocate"]}
{"id": "C59", "title": "Memory orders of atomic_shared_ptr_storage", "statement": "The acquire and release orders that the spin lock passes are enough: no two accesses to the stored pointer race, everything a thread did before a call on the storage happens before what another thread does after a later call on it, the construction of an object happens before every use of it by any thread that got it from the storage, and every use happens before its destruction. Neither order can be weakened.", "quantifier": "all executions of any number of threads, storages holding any pointer, every pair of accesses", "why_tests_cant": "Whether two accesses are ordered by happens-before is not observable on strongly ordered machines, and depends on the whole execution between them.", "anchors": ["include/itlib/atomic_shared_ptr_storage.hpp: asps_spinlock, asps_holder, atomic_shared_ptr_storage"]}
{"id": "C60", "title": "static_vector in programs whose elements throw", "statement": "In a program that catches exceptions of element constructors, every static_vector stays usable: push_back and emplace_back that throw have no effect, every other call that throws leaves a vector that can be used and destroyed, a constructor that throws leaves nothing behind, and no element is leaked. (The code keeps this only for some calls; what each exception leaves, which elements are never destroyed, and that an exception in an insertion is fatal, is what is proved.)", "quantifier": "every program with any number of vectors of any capacities, every throw point of every call", "why_tests_cant": "The number of throw points grows with the history, and damage done by an exception shows only in a later destructor, if at all; a leaked element is not observable without instrumentation.", "anchors": ["include/itlib/static_vector.hpp: all members that construct elements"]}
{"id": "C61", "title": "pod_vector when there is no memory", "statement": "When the allocator cannot satisfy a request, the caller learns of it and loses nothing: with an allocator that throws, a call that throws has no effect on any vector, leaks nothing, and the program can go on; with one that returns a null pointer (the default), failure is reported. (The code keeps the first except for assignments that enlarge the buffer, after which the vector cannot even be destroyed, and does not keep the second at all: the null pointer is used as a buffer. Both are proved.)", "quantifier": "every history of calls on any number of vectors, every pattern of failing allocations, every allocator, element size and alignment", "why_tests_cant": "Any of the allocations of a history may fail; failures have to be injected at each and the whole of the memory compared, and a double free or a write through null shows only in a later call.", "anchors": ["include/itlib/pod_vector.hpp: reserve, shrink_to_fit, grow_at, safe_grow, a_malloc, a_realloc_begin, constructors"]}
{"id": "C62", "title": "Mutexes publish what is done under them", "statement": "Whatever a thread does while it holds a strong_try_rec_mutex happens before (in the sense of C++) whatever any thread does while it holds it later, and the members of the mutex itself are never raced on, not even by failing try_lock()s. Of two accesses to the data of a data_mutex through its lock objects one of which is a write, and of two activities under engaged lock objects one of which is exclusive, the earlier happens before the later.", "quantifier": "all executions of any number of threads that follow the rules of use, every pair of events; mutex types of data_mutex that do not throw", "why_tests_cant": "Happens-before is not observable on strongly ordered machines and depends on the whole execution between the two events; thread sanitizers check single executions.", "anchors": ["include/itlib/mutex.hpp: strong_try_rec_mutex", "include/itlib/data_mutex.hpp: data_mutex and its lock types"]}
{"id": "C63", "title": "unexpected takes the error it is given", "statement": "unexpected(e) makes a package with the error that e has at that time, whether e is a temporary, a variable or a constant; the expected constructed from the package holds that error; a variable that was not given with std::move keeps its value. (The code does this for temporaries and std::move. For a variable the package is a reference: constructing the expected moves from the variable, takes the error it has by then, and is undefined if the variable is gone. Proved.)", "quantifier": "every program of error variables, packages and expected objects of the three classes with an error, every error type with any moved-from state and conversion", "why_tests_cant": "With trivially copyable errors, as in the tests, a move and a copy cannot be told apart, and the reference is never used late.", "anchors": ["include/itlib/expected.hpp: unexpected_t, unexpected(E&&), expected(unexpected_t<E2>&&)"]}
{"id": "C64", "title": "Copies of mem_ostreambuf", "statement": "A copy of a mem_ostreambuf has the contents and the position of the original, and from then on the two are independent; likewise after assignment. After a move the new object has the contents and the position of the old one, and the old one can be cleared, assigned to and destroyed. (The code keeps this only if the copy is cleared or positioned from the beginning before anything else: copies share the put area of the original. Proved.)", "quantifier": "every program of any number of buffers over any container, every way of copying, moving and assigning them, every history of calls", "why_tests_cant": "That a copy writes into the memory of the original shows only in particular interleavings of calls on both; with room left nothing fails.", "anchors": ["include/itlib/mem_streambuf.hpp: mem_ostreambuf (implicit copy and move members)"]}
{"id": "C65", "title": "Redirects copied and ended in any order", "statement": "Any number of redirect_rstreams may be open on one stream, be copied, and end in any order: each starts reading at its requested position, and its end takes the stream back to where it was before that redirect was created. The end of a copy leaves the original where it was reading. (The last sentence is false in the code: the copy restores the position of the original. Proved.)", "quantifier": "every stream contents, every number of redirects and copies, every order of their ends, every history of reads in between", "why_tests_cant": "The orders of creation, copying and destruction are unbounded; tests use one redirect at a time.", "anchors": ["include/itlib/rstream.hpp: redirect_rstream (implicit copy constructor, destructor)"]}
{"id": "C66", "title": "Exceptions of user code in flat_map and flat_set", "statement": "When a comparison, the constructor of an element given to emplace, or the default constructor of a mapped value throws in a member function of a flat_map or flat_set, the exception reaches the caller, the map is as before the call, and it goes on working; a constructor that throws leaves no object and no memory behind. A copy assignment that fails for lack of memory leaves the map as it was. (The last sentence is false for maps with different orders: the entries stay but the order is the source's, and keys that are there are not found. Proved.)", "quantifier": "every order, every contents, every program of calls on any number of maps, every point at which user code throws, over std::vector, static_vector and small_vector", "why_tests_cant": "There is one execution for each call of user code in each member function in each state; tests use comparisons that do not throw.", "anchors": ["include/itlib/flat_map.hpp: flat_map(container_type, key_compare), insert, emplace, erase, operator[], at, operator=", "include/itlib/flat_set.hpp: flat_set(container_type, key_compare), insert, emplace, erase, operator="]}
{"id": "C67", "title": "pod_vector and the range of size_t", "statement": "The sizes, capacities and numbers of bytes that pod_vector computes in size_t do not wrap around, and the loop that computes a new capacity ends, as long as the buffer of each vector, with the room for its alignment, is of fewer than 2^64 bytes and its capacity is at most 2^64/3: all functions then do what they do with unbounded numbers. A request for more should fail. (It does not: reserve(n) and the constructor of n values with n * sizeof(T) of 2^64 or more get a small buffer and write past its end, insert of so many elements that the size wraps around writes past the end, and reserve of 2^63 or more on a vector with a capacity never returns. Proved.)", "quantifier": "every element size and alignment, every program of calls on any number of vectors, every behaviour of the allocator, all sizes", "why_tests_cant": "Vectors of such sizes cannot be made in a test, and requests that wrap around succeed.", "anchors": ["include/itlib/pod_vector.hpp: get_new_capacity, e2b, a_malloc, a_realloc_begin, a_expand_begin, grow_at, reserve, resize, safe_grow, recast_take_from"]}
{"id": "C68", "title": "Amortised cost of appending and removing at the end", "statement": "In any order of push_back, emplace_back and pop_back, from any state of a small_vector or pod_vector, the elements are moved to another buffer so rarely that the total number of buffer changes and moved elements grows at most linearly in the number of calls: for pod_vector at most four per call plus the elements that were there, for small_vector with the default RevertToStaticBelow = 0 at most six per call plus twice the elements that were there, whatever the static capacity; for other values a constant that depends on the distance between RevertToStaticBelow and StaticCapacity. (With RevertToStaticBelow = StaticCapacity + 1, as in the documentation, alternating push_back and pop_back at a full static buffer moves all elements with every call. Proved.)", "quantifier": "all static capacities and revert limits, all reachable states, all sequences of calls, every proper allocator", "why_tests_cant": "A bound on the total cost of every sequence of calls is a statement about unboundedly long sequences; a benchmark measures a few of them.", "anchors": ["include/itlib/small_vector.hpp: choose_data, grow_at, shrink_at, push_back, emplace_back, pop_back", "include/itlib/pod_vector.hpp: get_new_capacity, reserve, emplace_back, push_back, pop_back"]}
{"id": "C69", "title": "Calls on atomic_shared_ptr_storage, strong_try_rec_mutex and data_mutex return", "statement": "Whenever calls on an atomic_shared_ptr_storage, or try_lock and unlock of a strong_try_rec_mutex, are running, some of them returns, provided that a call which can continuously go on does go on; and every one of them returns, provided that a call which can go on again and again does. try_lock returns even if the owner never unlocks. Of data_mutex, everything except unique_lock, const_unique_lock and shared_lock returns, whatever the other threads keep locked. (The spin lock of the storage does not queue: with the first provision only, a call can wait forever while another thread's calls succeed one after the other. Proved.)", "quantifier": "all numbers of threads, all infinite executions under weakly or strongly fair schedulers, all client programs that follow the rules of the mutexes", "why_tests_cant": "That something happens eventually in every infinite execution cannot be observed in finitely many finite runs.", "anchors": ["include/itlib/atomic_shared_ptr_storage.hpp: asps_spinlock, asps_holder, atomic_shared_ptr_storage", "include/itlib/mutex.hpp: strong_try_rec_mutex", "include/itlib/data_mutex.hpp: data_mutex"]}
{"id": "C70", "title": "mem_ostreambuf when there is no memory", "statement": "A write to a mem_ostreambuf whose container cannot get the memory it needs throws and has no effect: everything written before is still there, the position is unchanged, and the same write succeeds later when there is memory. Writes that stay within the size reserved at construction, or written before and not handed out by get_container, never need memory, after seeks and clear as well. Construction without memory succeeds exactly when the reserve fits in an empty container.", "quantifier": "every contiguous container (growth policy, capacity when empty, maximum), every history of writes, seeks, clear and get_container, every pattern of failing allocations", "why_tests_cant": "The state of the buffer after a failure matters for everything that follows; a test injects a few failures at a few places.", "anchors": ["include/itlib/mem_streambuf.hpp: mem_ostreambuf, cap_resize_by, overflow, xsputn, clear, get_container"]}
{"id": "C71", "title": "small_vector and the range of size_t", "statement": "In programs with any number of small_vectors in which elements and allocations may throw at any point, as long as every call asks for fewer than 2^64 elements when its vector is in the static buffer, and for at most 2^64/3 when it is on the heap, computing sizes in size_t makes no difference: replies, elements, capacities and the absence of leaks are as if numbers had no bound. A request on the heap that the allocator refuses throws without effect or does not return. Defects: a request for 2^63 elements or more on a vector on the heap never returns; insert(pos, n, value) with size + n beyond 2^64 is undefined.", "quantifier": "all static capacities, thresholds and element types, all histories with any throw points, all requested sizes", "why_tests_cant": "The sizes are beyond what can be allocated, and the histories and throw points are infinitely many.", "anchors": ["include/itlib/small_vector.hpp:956-998", "include/itlib/small_vector.hpp:759-820", "include/itlib/small_vector.hpp:472-504", "include/itlib/small_vector.hpp:597-605"]}
{"id": "C72", "title": "ufunctions used from inside of the callables that they run", "statement": "Callables may use any ufunctions, also the one that runs them: call it again, give it another target, empty it, move it, end its life. As long as no callable touches its captures after its ufunction lost it, every program gives the results of a specification in which function objects have identities; what remains in memory are the targets of the ufunctions, each of one; if allocations fail the program is terminated. Defects and limits: a callable that resets the ufunction that runs it and reads a capture afterwards is undefined in every library; after moving that ufunction it is undefined if the library keeps the target inside, and fine if on the heap.", "quantifier": "all callables (programs of any length that read and write captures and use ufunctions), all nestings of calls, all standard libraries whose moves cannot throw, all failing allocations", "why_tests_cant": "Whether a callable outlives the call that destroys it shows as memory corruption at best, and depends on the library; nestings are infinitely many.", "anchors": ["include/itlib/ufunction.hpp:75-141"]}
{"id": "C73", "title": "static_vector in programs whose elements throw when moved", "statement": "In a program that catches exceptions of element moves, every static_vector stays usable and loses no element without destroying it, and exceptions reach the caller. (The code keeps this only for some calls. What is proved is what each exception leaves behind for every call and every throw point; that an exception in erase, in an insertion that already moved an element, and in a swap that already transferred an element is fatal, and no other is; that the move constructor leaks exactly the elements made; and that move assignment ends the program if the elements' move assignment is noexcept but their move constructor throws.)", "quantifier": "every program with any number of vectors of any capacities, every throw point of moves and of other constructions of every call, whatever a throwing move leaves in its operands", "why_tests_cant": "The number of throw points grows with the history, what a throwing move leaves is up to the element type, and the damage done by an exception shows only in a later destructor, if at all.", "anchors": ["include/itlib/static_vector.hpp:227-234", "include/itlib/static_vector.hpp:258-268", "include/itlib/static_vector.hpp:464-528", "include/itlib/static_vector.hpp:560-590", "include/itlib/static_vector.hpp:624-670"]}
{"id": "C74", "title": "sentry functions that use sentries and throw", "statement": "A sentry's function may itself make, move and destroy sentries, to any depth: every function still runs exactly once, in the order in which duties end. A function that throws, and a function object that throws when a sentry is moved, end the program; constructing one from its argument may throw, leaving no sentry. (A function must not touch the sentry that runs it: before C++17 moving that one makes the function run again.)", "quantifier": "every program and all functions as trees of calls depending on how earlier ones ended, every nesting depth, both language versions, elided and not elided moves", "why_tests_cant": "Functions that nest and hand duties to each other have unboundedly many shapes.", "anchors": ["include/itlib/sentry.hpp:87-124"]}
{"id": "C75", "title": "small_vector in programs whose elements throw when moved", "statement": "In a program that catches exceptions of element moves, every small_vector stays usable, no memory is lost, and exceptions reach the caller. (The code keeps this only for some calls. What is proved is what each exception leaves behind for every call and every throw point: when the elements were on the way to a larger heap block the vector keeps its buffer and size but the new block leaks with the elements already moved; shrink_to_fit leaves the elements moved so far and leaks the old block; if the elements stay in their buffer the exception is fatal, as it is on the way to the static buffer after the first move; the move constructor and the move assignment, being noexcept, end the program. There are no other leaks and no other fatal exceptions.)", "quantifier": "every program with any number of vectors on one heap, all static capacities and revert sizes, every throw point of moves, of other constructions and of allocations of every call, whatever a throwing move leaves in its source", "why_tests_cant": "The number of throw points grows with the history, what a throwing move leaves is up to the element type, and a leaked block or a destroyed element shows only to a tool that watches memory, if at all.", "anchors": ["include/itlib/small_vector.hpp:266-271", "include/itlib/small_vector.hpp:297-317", "include/itlib/small_vector.hpp:472-504", "include/itlib/small_vector.hpp:733-754", "include/itlib/small_vector.hpp:759-888"]}
{"id": "C76", "title": "expected survives values and errors that throw", "statement": "If constructing, moving, copying or assigning a value or an error throws during a call on an expected, then a constructor leaves no object and nothing alive, and any other call leaves every expected with the alternative it had, so that all of them can be used and destroyed; only moving an expected whose content throws ends the program.", "quantifier": "all types of values and errors, all programs with any number of expected objects of the four classes with contents, all patterns of exceptions", "why_tests_cant": "The tests use contents that never throw; the possible programs and places of exceptions are unbounded.", "anchors": ["include/itlib/expected.hpp: expected<T, E>", "include/itlib/expected.hpp: expected<T&, E>", "include/itlib/expected.hpp: expected<void, E>", "include/itlib/expected.hpp: expected<T, void>"]}
{"id": "C77", "title": "redirect_rstream restores the position however its scope is left", "statement": "A redirect_rstream that is a local variable gives reads from its position, with read or operator>>, and when its scope is left - normally, by an exception of the stream (std::ios::exceptions) or by any other one - the stream is back at the position it had before, with eofbit cleared, and the exception goes on; redirects may be nested, and an exception thrown in them caught anywhere. A redirect on a stream that is not good, or to a position that does not exist, sets failbit, moves nothing, and throws if the stream throws on failbit.", "quantifier": "all texts, positions, exception masks, extractors, and programs of reads, redirects, throws and handlers", "why_tests_cant": "The tests have two redirects on a stream that never throws; the programs and the ways their scopes are left are unbounded.", "anchors": ["include/itlib/rstream.hpp: basic_redirect_rstream::basic_redirect_rstream", "include/itlib/rstream.hpp: basic_redirect_rstream::~basic_redirect_rstream", "include/itlib/rstream.hpp: basic_rstream::read", "include/itlib/rstream.hpp: operator>>"]}
{"id": "C78", "title": "make_shared and make_unique hold the argument and never leak", "statement": "itlib::make_shared(x) and make_unique(x) give a pointer that owns a copy of x, or x's value moved if x is an rvalue; the value lives as long as pointers own it. If there is no memory, or the constructor throws, the exception leaves, no memory stays allocated, no pointer changes, and the argument is untouched unless its own move constructor changed it.", "quantifier": "all value types, all histories of calls with any number of variables, all patterns of failures", "why_tests_cant": "The tests make a few pointers that never fail; histories and patterns of failures are unbounded.", "anchors": ["include/itlib/make_ptr.hpp: make_shared", "include/itlib/make_ptr.hpp: make_unique"]}
{"id": "C79", "title": "writing to a mem_ostreambuf costs a constant per character", "statement": "Writing a text to a mem_ostreambuf, split in any way into characters and chunks, with seeks and overwriting in between, moves and fills a number of characters that is at most proportional to what is written, if the container grows geometrically (std::vector, std::string, pod_vector, static_vector). clear keeps the memory, so the capacity is never more than what construction reserved or about twice the longest contents; but the first write after clear fills the whole capacity again, however short it is.", "quantifier": "all container types with geometric growth, all histories of writes, seeks, clears and get_container calls, all sizes", "why_tests_cant": "Tests measure single texts; a bound for all ways of splitting, all sizes and all growth policies cannot be measured, and time is not asserted at all.", "anchors": ["include/itlib/mem_streambuf.hpp: mem_ostreambuf::cap_resize_by", "include/itlib/mem_streambuf.hpp: mem_ostreambuf::overflow", "include/itlib/mem_streambuf.hpp: mem_ostreambuf::xsputn", "include/itlib/mem_streambuf.hpp: mem_ostreambuf::clear"]}
{"id": "C80", "title": "flat_map and flat_set with elements out of order and comparisons that make no sense", "statement": "Whatever elements modify_container put into a flat_map or flat_set, in whatever order, and whatever the comparison answers, even inconsistently or by throwing: no member function reads, inserts or erases outside of the container, positions returned are in range, a call adds or removes at most one element and keeps the others in their order, a comparison that throws leaves everything as it was, and at most about log2(size) comparisons are made. If the comparison is consistent, only elements equivalent to the key are found, returned or erased, however the elements are ordered; once they are in order again every key is found. (An insertion that fails inside a std::vector whose elements throw when copied can leave a key twice; erase then reports 1 and the key is still there. Proved.)", "quantifier": "all contents, all sequences of answers and exceptions of comparisons, all behaviours of a container that throws, all calls", "why_tests_cant": "The answers of a comparison that is no order are an arbitrary sequence; tests use orders and contents in order.", "anchors": ["include/itlib/flat_map.hpp: lower_bound, upper_bound, equal_range, find, count, insert, erase, operator[], at, modify_container", "include/itlib/flat_set.hpp: lower_bound, upper_bound, equal_range, find, count, insert, erase, modify_container"]}
{"id": "C81", "title": "transparent_umap when hash functions, comparisons and conversions throw", "statement": "If a hash function, a comparison of keys, the conversion of the argument to a key or the move of the value throws during try_emplace, operator[], at, find or erase of a transparent_umap, the map, its entries and all references to them are as before the call; a value is made in vain at most once, and never if the key has an entry; the same call repeated without an exception gives what it would have given at once. (The value is made before the key is converted, so a failing conversion loses the arguments although nothing is inserted. Proved.)", "quantifier": "all histories of calls, all places at which user code throws in each call, all failures of allocation, all hash functions and growth policies", "why_tests_cant": "The number of calls of user code in one call depends on the collisions; tests do not throw from each of them in every state of the table.", "anchors": ["include/itlib/transparent_umap.hpp: try_emplace, operator[], at"]}
{"id": "C82", "title": "growing a dynamic_bitset is amortised constant", "statement": "Over a buffer whose resize and insert grow the capacity by half at least (the usual std::vector, itlib::pod_vector), all words that the buffers make, fill and move in a program with any number of dynamic_bitsets, reallocations included, are at most six times the words by which the calls make the bitsets longer (a copy counts as a whole, reserve as the words of its bitset). In particular n push_backs onto an empty bitset cost at most six words per word that n bits need. After reserve(n), push_backs up to n bits move nothing and make exactly the new words, over any buffer. The growth of the buffer is needed: push_back calls the buffer's resize, which the standard allows to allocate exactly; then pushing the bits of k words costs exactly k(k+1)/2 words. (Proved.)", "quantifier": "all histories of calls on any number of bitsets, all word sizes, all growth policies of the buffer within the stated bound", "why_tests_cant": "Tests check values; cost is not observed, and a quadratic growth shows only at sizes and policies no test uses.", "anchors": ["include/itlib/dynamic_bitset.hpp:255 reserve", "include/itlib/dynamic_bitset.hpp:256-270 resize, push_back", "include/itlib/dynamic_bitset.hpp:278-302 append"]}
{"id": "C83", "title": "References to elements of the vectors stay valid", "statement": "A call on a static_vector, small_vector or pod_vector that has no business with element i (pushing, inserting or erasing behind it, popping or resizing down to more than i elements, reading or assigning other elements, asking for the size) neither reads nor changes that element, so a pointer or reference to it stays valid and refers to the same value: what the call returns or throws, and everything it leaves in memory, is the same whatever is in slot i, and the slot keeps what it had. For small_vector this is so as long as the elements do not have to change buffers: in the static buffer up to StaticCapacity elements, on the heap up to the capacity and down to RevertToStaticBelow; for pod_vector as long as the capacity suffices; data() is the same afterwards. This holds for calls that throw in the middle too, and for whole histories of such calls.", "quantifier": "for all element types, template parameters and states of the storage, all positions i, all calls that keep i, all values in the slot, all points at which a constructor throws; for all histories of such calls", "why_tests_cant": "A test compares values after a call; a call that moves an element away and back, or reads it in passing, gives the same values. That the slot is not touched is a statement over all contents of the slot.", "anchors": ["include/itlib/static_vector.hpp:438-558", "include/itlib/static_vector.hpp:624-670", "include/itlib/small_vector.hpp:472-712", "include/itlib/small_vector.hpp:759-888", "include/itlib/small_vector.hpp:956-998", "include/itlib/pod_vector.hpp:441-624", "include/itlib/pod_vector.hpp:680-762"]}
