{
 "C01": {
  "status": "partial",
  "note": "Every history of calls, element accesses and iterations allowed by Spec.SafeRun refines List. Excluded calls are real defects of the code, each proved: empty-range erase, insertion/assignment from own elements, wrapping insert count."
 },
 "C02": {
  "status": "partial",
  "note": "Lifetimes exact for every history without throwing element constructors and outside the defects listed at C01; throwing constructors are C47."
 },
 "C03": {
  "status": "partial",
  "note": "Rejected calls throw and leave contents unchanged, except assign of too many (clears first, proved as defect) and a wrapping insert count (proved as defect)."
 },
 "C04": {
  "status": "partial",
  "note": "Any system of vectors; self-move-assignment empties the vector (proved as defect)."
 },
 "C05": {
  "status": "partial",
  "note": "Every history of calls, element accesses and iterations allowed by Spec.SafeRun refines List, for every StaticCapacity > 0 and RevertToStaticBelow <= StaticCapacity+1. Excluded calls are real defects of the code, each proved for all reachable states: insertion/erasure of nothing in the middle, arguments referring into the vector where they get moved or destroyed. size_t unbounded."
 },
 "C06": {
  "status": "partial",
  "note": "Any number of vectors on one heap, same guard as C05; throwing constructors and allocations are C47."
 },
 "C07": {
  "status": "partial",
  "note": "Proved; but a push_back on the heap below RevertToStaticBelow drops the reserved capacity (proved as defect)."
 },
 "C08": {
  "status": "partial",
  "note": "Proved except a heap vector with exactly StaticCapacity elements, where revert_to_static returns true and stays on the heap (proved as defect)."
 },
 "C09": {
  "status": "partial",
  "note": "Any system of vectors, allocators and histories; member calls guarded as in C05."
 },
 "C10": {
  "status": "partial",
  "note": "Byte-level model; every history of calls allowed by Spec.MSafeRun refines lists of elements, for any number of vectors, any allocator oracle and element size/alignment. Excluded calls are defects of the code, each proved: arguments referring into the vector where they get moved or freed."
 },
 "C11": {
  "status": "partial",
  "note": "Same histories as C10; resize(n, value) overflows the block (proved as defect) and is therefore guarded."
 },
 "C12": {
  "status": "proved",
  "note": "reserve, shrink_to_fit, resize(n), resize(n, value) in all well-formed states, a superset of the reachable ones."
 },
 "C13": {
  "status": "partial",
  "note": "align_ptr/real_addr for all addresses and alignments up to 128; data() aligned in all reachable states with recast_take_from guarded; the unguarded recast proved defective."
 },
 "C14": {
  "status": "partial",
  "note": "recast_copy_from for all states; recast_take_from where alignment classes agree and sizes are compatible; self recast proved defective."
 },
 "C15": {
  "status": "proved",
  "note": "Any number of maps, any strict weak orders (also stateful ones), any history, vector or bounded container. std algorithms modelled (halving search, adjacent unique, arbitrary admissible sort). Element/comparison/allocation exceptions not modelled; a bounded container that is too small makes insertion and construction throw. False and proved false for arguments that compare unlike the key they convert to: C15_converting_insert_defect."
 },
 "C16": {
  "status": "proved",
  "note": "Same theorem as C15 with the element as its own key. Converting arguments: C15_converting_insert_defect."
 },
 "C17": {
  "status": "proved",
  "note": "For every admissible outcome of std::sort."
 },
 "C18": {
  "status": "proved",
  "note": "Exact boundaries and comparison counts for the halving algorithms of libstdc++."
 },
 "C19": {
  "status": "partial",
  "note": "Refinement of lists of booleans for every history over any number of bitsets and every word width. False for all() on 8/16-bit words, self-append at word multiples and copy with a straddling tail (see the defect theorems of C20-C22); these are excluded by the guard Spec.Safe. size_t wrap-around and allocation failure not modelled."
 },
 "C20": {
  "status": "partial",
  "note": "any and none for every word type; all for words of at least 32 bits or sets smaller than a word. For 8/16-bit words all() is false for every set of at least one word (integer promotion), proved as C20_defect_all_narrow."
 },
 "C21": {
  "status": "partial",
  "note": "All sizes and alignments, including self-append at sizes not a multiple of the word; self-append at multiples of the word size is undefined (C21_defect_self_append)."
 },
 "C22": {
  "status": "partial",
  "note": "Exact effect of copy for all offsets and lengths: right except that tail bits coming from a second source word are cleared (C22_defect_copy_tail)."
 },
 "C47": {
  "status": "partial",
  "note": "static_vector: push_back strong, others basic guarantee; insert and copy constructor proved defective. small_vector: failing allocations leave the vector unchanged (assign excepted, proved defective); throwing element constructors in push_back/assign proved defective."
 },
 "C48": {
  "status": "partial",
  "note": "static_vector, small_vector, flat_map, flat_set for elements with any operator==, also one that is not an equivalence. pod_vector compares bytes: proved for that, and proved that it disagrees with every operator== of the elements that is not equality of bytes (C48_pod_vector_bytes_defect)."
 },
 "C49": {
  "status": "partial",
  "note": "erase, pop_back, clear; resize never goes back (proved as defect)."
 },
 "C23": {
  "status": "partial",
  "note": "All six classes, every history over any number of objects. Full for <T,E>, <T&,E>, <T&,void>, <void,void>. Excluded calls are real defects, each proved for every reachable state: move assignment between two values of <void,E> (UB), throwing copy assignment of <T,void> into an empty object (claims a value, then UB), emplace of the own value (UB). Accessors on the wrong alternative only assert: they are preconditions."
 },
 "C24": {
  "status": "partial",
  "note": "Every history over any number of anys with arbitrary types, values, allocators and failures. Excluded calls are real defects, each proved for every reachable state: storing an lvalue stores a reference, copy self-assignment empties, emplace from the own value is UB, types of 4 GiB get a cut block."
 },
 "C25": {
  "status": "partial",
  "note": "Allocation log: every release matches its allocation exactly, at most once, nothing leaks. Excluded (proved defect): move assignment between anys with different allocators releases the block with the wrong allocator."
 },
 "C45": {
  "status": "proved",
  "note": "Every history with arbitrary failures and arbitrary addresses chosen by the resource. Remark: allocate_object(n) does not check for overflow of n*sizeof (proved as defect); arrays are otherwise assumed to fit in size_t."
 },
 "C26": {
  "status": "partial",
  "note": "all histories over arbitrary bodies; begin() on a finished generator is a defect (proved)"
 },
 "C27": {
  "status": "partial",
  "note": "all histories; self-move-assignment of a non-empty generator is a defect (proved)"
 },
 "C28": {
  "status": "partial",
  "note": "Proved for every contiguous container (growth policy, initial capacity, maximum, data() null or not when empty), every split into characters and chunks. Missing: chunks whose length does not fit in the int argument of pbump (2^31, or 2^16 for char16_t), where the claim is false (C28_long_chunk_defect)."
 },
 "C29": {
  "status": "partial",
  "note": "Histories of writes, seeks, clear, get_container refine a file for every container. Missing because false in the code, each shown as a defect theorem from every reachable state: use after get_container with containers whose data() is not null when empty, get_container while the position is not at the end, seeks relative to the end when there is spare capacity, seeks beyond 2^31."
 },
 "C30": {
  "status": "partial",
  "note": "All histories of reads, single characters, putback, seeks and reset. Missing: reads whose pointer arithmetic wraps around the address space (C30_wrapping_read_defect)."
 },
 "C31": {
  "status": "partial",
  "note": "All histories with nested redirects. Missing because false: a redirect destroyed after a failed read does not restore the position, and one created on a stream with eofbit does not go to the position (defect theorems)."
 },
 "C32": {
  "status": "partial",
  "note": "Histories of any number of spans over one array, including writes through them, with a frame for the rest of memory, and byte views. Missing: offsets for which subspan's address computation wraps around, and last of more than there is; both are proved to give elements or sizes other than the slice (C32_subspan_wrap_defect, C32_last_too_many_defect)."
 },
 "C33": {
  "status": "partial",
  "note": "Histories of stride_spans and poly_spans, iterator moves and comparisons, non-negative differences, coverage of spans made from arrays. Missing, and proved to fail: negative iterator differences, last of more than there is, offsets a stride or more behind the array, stride 0."
 },
 "C34": {
  "status": "proved",
  "note": "Histories of memory_views over one array for every offset and count, with a frame for the rest of memory; reset(size)."
 },
 "C35": {
  "status": "proved",
  "note": ""
 },
 "C36": {
  "status": "partial",
  "note": "All functions for every sequence and predicate, also throwing ones. Missing: erase_all of a value that is an element of the container, unless that element lies behind what remains; C36_erase_all_alias_defect shows that the property fails there."
 },
 "C37": {
  "status": "partial",
  "note": "Histories of times and durations (integral counts, any period), rounding, sums, differences, comparisons; strftime for every non-empty result. Missing: the empty result, for which strftime never returns (C37_strftime_empty_defect); durations with floating point counts."
 },
 "C38": {
  "status": "proved",
  "note": "Executions of any number of threads on any number of counters over the modification-order semantics of relaxed atomics: linearizable updates, exact final sum, tickets and distinct results of increments, per-thread monotone views of growing counters, no undefined behaviour for unsigned or narrow types. Recorded: ++x on a signed counter at its maximum is undefined (C38_signed_overflow_defect)."
 },
 "C39": {
  "status": "proved",
  "note": "Any number of threads with any number of own pointers, word-by-word access of the stored pointer, explicit reference counts: linearizable register of whole pointers, data-race free, counts equal the owners at every step, objects alive while held and destroyed exactly with the last owner, progress. The pre-C++20 implementation; sequentially consistent steps."
 },
 "C40": {
  "status": "partial",
  "note": "The claim as stated is false: a failing compare_exchange releases the old value of expect inside the guarded scope, so the last owner's destructor runs under the lock (C40_destructor_under_lock_defect). Proved: this is the only case; load, store, exchange and succeeding compare_exchange never destroy under the lock."
 },
 "C41": {
  "status": "proved",
  "note": "Every execution of any number of threads whose users unlock only what they locked and stay below the maximal depth; internal std::mutex abstracted as a waiting lock that does not throw; failing asserts, data races and overflow of m_depth are undefined behaviour in the model, and shown not to happen."
 },
 "C42": {
  "status": "partial",
  "note": "Any number of threads and lock objects, every schedule, with moves and failing try_locks: linearizable, exclusive, race free, balanced. Proved for mutexes whose lock functions do not throw; for throwing ones the claim is false: C42_lock_throws_defect (unlock of a mutex never locked) and C42_try_lock_throws_defect (read of an unwritten pointer). Lock objects are not handed between threads in the model."
 },
 "C43": {
  "status": "proved",
  "note": "Every history of creations (also failing ones), moves, returns and destructions, for both branches of the preprocessor and for function objects that stay or do not stay callable after a move. Functions are assumed to return and not to touch sentries themselves."
 },
 "C44": {
  "status": "proved",
  "note": "Every history of creations, copies, moves, assignments, resets, make_aliased, shared_from, shared_from_this, weak_from, weak_from_this (both language versions), lock, use_count and ends of destructors, with the control blocks of std::shared_ptr modelled as counts. Calls made by destructors are further calls of the history. One thread. make_unique, and constructors that throw, are in C78."
 },
 "C46": {
  "status": "partial",
  "note": "bit_cast for all trivially copyable types of equal size (a type is a size and a reading of byte strings); the round trip for types between without padding, and a theorem that padding can be lost. owner_from_member for all addresses and offsets, with pointers to members as offsets, which is what compilers have; the language leaves the use of a null pointer there undefined. Types with their own operator& are not covered."
 },
 "C50": {
  "status": "partial",
  "note": "History refinement, ownership and absence of copies for every lawful library policy. Missing: a null function pointer of another type or an empty std::function makes a non-empty ufunction (C50_null_pointer_defect); callables that use the ufunction they are called from are C72; moves of function objects that throw end the program (noexcept wrapper) and are not modelled."
 },
 "C51": {
  "status": "proved",
  "note": "Refinement of a map on equivalence classes by the hash table under every history, allocation failures and throwing constructors included."
 },
 "C52": {
  "status": "partial",
  "note": "False as stated: the overloads test is_transparent on the argument's type, not on Hash and KeyEqual, and never accept lvalues; the hint overload cannot compile (C52_*_defect). C52_calls_partial says exactly which calls compile."
 },
 "C53": {
  "status": "partial",
  "note": "C53_exact says what the expression does in every case. The property holds for programs whose operands do not throw and that do not use throw_ex in destructors run by unwinding (C53_program_partial); it is false for the others, the program is terminated (C53_operand_defect, C53_unwinding_defect)."
 },
 "C54": {
  "status": "partial",
  "note": "All scalar types, including pointers to members and std::nullptr_t. C54_exact says for which pairs with a cast the property holds; it is false for the others: enumerations over bool, pointers to bases at another address, floating point formats of equal size, nullptr_t and pointers to members whose null is not zeros, pointers to members of classes with other layouts (C54_*_defect), and the trait is true for types without any cast (C54_no_cast_defect). nullptr_t objects are taken to be zeros, as implementations store them."
 },
 "C55": {
  "status": "partial",
  "note": "The refinement covers every call except resize, push_back and unaligned append that throw (the size is changed before the buffer throws), resize over a buffer that does not zero its words (pod_vector), and sizes within a word of 2^64; for all of these the property is false (C55_*_defect)."
 },
 "C56": {
  "status": "proved",
  "note": "Positions below 2^63. The calls of the bitsets themselves are subject to C19."
 },
 "C57": {
  "status": "partial",
  "note": "Element copies, comparisons and allocations do not throw. Keys and values passed to insert, emplace and operator[] are not parts of the map itself: C57_defect_index_own_value shows what happens otherwise. No swap over small_vector, which has none. std::sort is reduced to its effect."
 },
 "C58": {
  "status": "partial",
  "note": "Exact for all calls outside the guard of C05 (own elements as arguments in some positions, empty erase and insert, a full revert): failing allocations are survived except in assign and copy assignment to a vector with elements; throwing elements are survived only in assign and constructors that do not change the buffer (not in small_vector(count)); all other exceptions are proved fatal. Moves of elements that throw: C75."
 },
 "C59": {
  "status": "proved",
  "note": "For every execution of any number of threads, over the happens-before relation of C++11 given by program order, the acquire and release orders of the spin lock, acquire-release decrements of reference counts, and synchronised hand-over by users. Each of the two orders of the lock is proved necessary. The executions are interleavings; that race-free programs have no others is the memory model's theorem."
 },
 "C60": {
  "status": "partial",
  "note": "Exact for all calls outside the guard of C04: push_back and emplace_back that throw have no effect; resize, assign and copy assignment keep the elements made; insert and emplace that throw are proved fatal; constructors that throw (count, value, range, copy) are proved to leak exactly the elements they had made. Moves of elements do not throw."
 },
 "C61": {
  "status": "partial",
  "note": "Throwing allocators: strong guarantee of every call but assignments beyond the capacity, for all histories and failure patterns; those assignments are proved to leave a vector whose destructor frees twice (or that claims a capacity it does not have). Allocators returning null: reserve, push_back and resize are proved to use the null pointer as a buffer. Excluded calls of C10 and sizes near 2^64 are not covered."
 },
 "C62": {
  "status": "proved",
  "note": "Over happens-before given by program order and what the standard says std::mutex and std::shared_mutex synchronise, for every execution. Executions are interleavings; that race-free programs have no others is the memory model's theorem. data_mutex with throwing mutexes is excluded (C42)."
 },
 "C63": {
  "status": "partial",
  "note": "Any program of variables, packages and expected objects of the three classes with an error, any error types. Excluded calls are real defects, each proved for every reachable state: a variable given to unexpected() without std::move is moved from, the error is read late, and a variable that is gone is used. Moves and copies of errors do not throw."
 },
 "C64": {
  "status": "partial",
  "note": "Any program of buffers over any lawful container, with copies, moves and assignments. Excluded uses are real defects, each proved for every reachable state: a copy or assigned object that is used before clear() or an absolute seek writes into the original or is undefined, the same for an object moved from, and for one moved to when the container keeps inline storage. Allocations do not fail."
 },
 "C65": {
  "status": "partial",
  "note": "All histories of any number of redirects and copies that end in any order. Missing because false: the end of a copy moves the stream under the original (defect theorem, for every reachable state); streams that are not good, as in C31."
 },
 "C66": {
  "status": "partial",
  "note": "Missing: element copies and moves inside the container that throw (C58, C60), comparison objects whose copies throw, iterator ranges that throw. False and proved false: copy assignment that fails between maps with different orders (C66_failed_assign_defect)."
 },
 "C67": {
  "status": "partial",
  "note": "All histories of any number of vectors that stay below 2^64 bytes and 2^64/3 elements. Missing because false: larger sizes (four defect theorems); and what is missing for C61."
 },
 "C68": {
  "status": "proved",
  "note": "small_vector and pod_vector, every order of calls, from every reachable state. Arguments are values that are not in the vector; nothing throws. The bound for small_vector with RevertToStaticBelow near StaticCapacity is proportional to StaticCapacity, and it is proved that there is no better one (C68_limit_seesaw)."
 },
 "C69": {
  "status": "proved",
  "note": "Fairness is a hypothesis about the scheduler and the internal std::mutex. Destructors of the objects and other user code are assumed to return and not to call the storage (C40). strong_try_rec_mutex and data_mutex: clients follow the rules of C41 and C42; the mutex does not throw. That weak fairness does not suffice for every call is proved (C69_storage_starvation_limit), and that unique_lock can wait forever (C69_data_mutex_waits_limit)."
 },
 "C70": {
  "status": "partial",
  "note": "Proved for every container, history and pattern of failures. Containers' resize is assumed to have no effect if it throws. Missing: the calls that C28 and C29 exclude (chunks beyond int, seeks to the end or beyond, get_container before the end, reuse after get_container of containers with non-null data())."
 },
 "C71": {
  "status": "partial",
  "note": "C71_machine_sizes_partial: calls excluded by MSafe as in C05. C71_refused, C71_defect_endless, C71_defect_insert are unconditional for the calls of `Asks` and `insert(pos, n, v)`; element moves do not throw (they do in C75, with unbounded numbers)."
 },
 "C72": {
  "status": "proved",
  "note": "C72_returns, C72_alloc, C72_undefined and C72_unfinished relate every program to the specification, in both directions where it says something; nothing is said of captures that were moved from below a running callable, which depends on the library (C72_moved_heap, C72_moved_inline)."
 },
 "C73": {
  "status": "partial",
  "note": "Exact for all calls outside the guard of C04 and a vector swapped with itself (C73_static_vector_moves_partial). C73_fatal_iff says exactly which exceptions are fatal, C73_fatal_call that they are, C73_lost_only_by_ctor when elements are leaked, C73_noexcept_defect that move assignment can end the program. The property as a user would want it is false for these."
 },
 "C74": {
  "status": "proved",
  "note": "C74_sentry_programs, C74_exactly_once and C74_depth hold for all programs that use sentries as allowed (no use of a sentry while its own function runs); C74_defect_moves_own_sentry shows what happens otherwise. Simplification: a function does not use its captures after its function object was moved."
 },
 "C75": {
  "status": "partial",
  "note": "Exact for all calls outside the guard of C05 (C75_small_vector_moves_partial: replies, vectors, and the leaked blocks with the elements in them). C75_fatal_call: every exception about which the specification has no say is fatal. C75_growth, C75_in_place_fatal, C75_lost_only_by_moves say which are which; C75_noexcept_defect: moving a vector whose elements are in the static buffer ends the program. The property as a user would want it is false for these. Missing: iterators of ranges that throw; moves of arguments by push_back(T&&) and emplace are constructions as in C58."
 },
 "C76": {
  "status": "partial",
  "note": "Full for <T,E> and <T&,E>. For <void,E> and <T,void> the calls excluded by C23 are excluded here too; they are real defects, proved at C23 (among them a throwing copy assignment of <T,void>). C76_ended_iff says which exceptions end the program, C76_alternatives what the others leave, C76_noexcept_defect that moving ends it in every reachable state."
 },
 "C77": {
  "status": "partial",
  "note": "False when the scope is left with failbit set: the position is not restored, and if the stream throws on failbit the destructor throws and the program ends, whatever handlers there are (C77_masked_read_defect). C77_redirect_exact says what happens in each case, C77_terminates_only that nothing else ends a program. badbit is not modelled."
 },
 "C78": {
  "status": "proved",
  "note": "Every history of make_shared and make_unique of lvalues, rvalues and constant rvalues, with failures chosen per call, and of moves, copies, resets, reads and writes of the pointers. std::unique_ptr and std::shared_ptr are modelled after the standard, with blocks of memory, objects and counts. Constness of the object is a matter of types and not modelled; weak pointers are in C44."
 },
 "C79": {
  "status": "partial",
  "note": "C79_amortised_partial bounds all safe histories, C79_text_linear texts in pieces. Missing: the histories of the defects of C28 and C29. C79_clear_defect: after clear the first write fills the old capacity again, so reusing a long buffer for short texts is not proportional. C79_exact_limit: without geometric growth the cost is quadratic."
 },
 "C80": {
  "status": "partial",
  "note": "C80_safe, C80_finds_no_other, C80_absent, C80_in_order. Missing: the constructors from elements (std::sort with a comparison that is no strict weak order may leave the range, so the code is not safe there). C80_failed_insert_defect: an insertion that fails inside of the container may leave a key twice."
 },
 "C81": {
  "status": "proved",
  "note": "C81_history, C81_retry, C81_value_lost_limit. The std::unordered_map below is modelled as in libstdc++, which stores hash codes if the hash function may throw; the C++ standard alone promises nothing for an insertion in which the hash function throws."
 },
 "C82": {
  "status": "partial",
  "note": "The amortised bound is proved for all histories but those with the calls excluded by C19 (all of narrow full words, appending a bitset to itself when it fills its words, copy over the word boundary), on which the code is defective; the bound for push_back, reserve, and the quadratic cost over an exact buffer are complete. small_vector as buffer is not covered: it allocates exactly when it leaves its static storage, and moving it copies words."
 },
 "C83": {
  "status": "partial",
  "note": "C83_untouched, C83_small_vector and C83_pod_vector are complete for single calls: any state, calls that throw included. The theorems on histories exclude the calls that Safe of C01, C05 and C10 excludes (defects of the code). An element that is itself the argument of the call is read, and so not kept."
 }
}