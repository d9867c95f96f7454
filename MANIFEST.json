{
 "claims": [
  {
   "property": "C01",
   "status": "partial",
   "theorems": [
    "Itlib.StaticVector.C01_static_vector_sequence_partial",
    "Itlib.StaticVector.C01_defect_erase_empty_range",
    "Itlib.StaticVector.C01_defect_insert_alias_at_position",
    "Itlib.StaticVector.C01_defect_insert_alias_after_position",
    "Itlib.StaticVector.C01_defect_assign_alias"
   ],
   "note": "Every history of calls, element accesses and iterations allowed by Spec.SafeRun refines List. Excluded calls are real defects of the code, each proved: empty-range erase, insertion/assignment from own elements, wrapping insert count."
  },
  {
   "property": "C02",
   "status": "partial",
   "theorems": [
    "Itlib.StaticVector.C02_static_vector_lifetimes_partial"
   ],
   "note": "Lifetimes exact for every history without throwing element constructors and outside the defects listed at C01; throwing constructors are C47."
  },
  {
   "property": "C03",
   "status": "partial",
   "theorems": [
    "Itlib.StaticVector.C03_defect_insert_count_wraps",
    "Itlib.StaticVector.C03_static_vector_capacity_partial",
    "Itlib.StaticVector.C03_defect_assign_too_many"
   ],
   "note": "Rejected calls throw and leave contents unchanged, except assign of too many (clears first, proved as defect) and a wrapping insert count (proved as defect)."
  },
  {
   "property": "C04",
   "status": "partial",
   "theorems": [
    "Itlib.StaticVector.C04_static_vector_copy_move_swap_partial",
    "Itlib.StaticVector.C04_defect_self_move"
   ],
   "note": "Any system of vectors; self-move-assignment empties the vector (proved as defect)."
  },
  {
   "property": "C05",
   "status": "partial",
   "theorems": [
    "Itlib.SmallVector.C05_small_vector_sequence_partial",
    "Itlib.SmallVector.C05_defect_insert_nothing",
    "Itlib.SmallVector.C05_defect_erase_nothing",
    "Itlib.SmallVector.C05_defect_assign_alias",
    "Itlib.SmallVector.C05_defect_push_back_alias_moves",
    "Itlib.SmallVector.C05_defect_insert_alias_at_position",
    "Itlib.SmallVector.C05_defect_insert_alias_after_position"
   ],
   "note": "Every history of calls, element accesses and iterations allowed by Spec.SafeRun refines List, for every StaticCapacity > 0 and RevertToStaticBelow <= StaticCapacity+1. Excluded calls are real defects of the code, each proved for all reachable states: insertion/erasure of nothing in the middle, arguments referring into the vector where they get moved or destroyed. size_t unbounded."
  },
  {
   "property": "C06",
   "status": "partial",
   "theorems": [
    "Itlib.SmallVector.C06_small_vector_no_leaks_partial"
   ],
   "note": "Any number of vectors on one heap, same guard as C05; throwing constructors and allocations are C47."
  },
  {
   "property": "C07",
   "status": "partial",
   "theorems": [
    "Itlib.SmallVector.C07_size_le_capacity_partial",
    "Itlib.SmallVector.C07_reserve",
    "Itlib.SmallVector.C07_capacity_kept_partial",
    "Itlib.SmallVector.C07_push_back_stable_partial",
    "Itlib.SmallVector.C07_defect_push_back_drops_reserve"
   ],
   "note": "Proved; but a push_back on the heap below RevertToStaticBelow drops the reserved capacity (proved as defect)."
  },
  {
   "property": "C08",
   "status": "partial",
   "theorems": [
    "Itlib.SmallVector.C08_shrink_to_fit",
    "Itlib.SmallVector.C08_revert_to_static_partial",
    "Itlib.SmallVector.C08_defect_revert_full"
   ],
   "note": "Proved except a heap vector with exactly StaticCapacity elements, where revert_to_static returns true and stays on the heap (proved as defect)."
  },
  {
   "property": "C09",
   "status": "partial",
   "theorems": [
    "Itlib.SmallVector.C09_small_vector_copy_move_partial",
    "Itlib.SmallVector.C09_move_keeps_buffer_partial"
   ],
   "note": "Any system of vectors, allocators and histories; member calls guarded as in C05."
  },
  {
   "property": "C10",
   "status": "partial",
   "theorems": [
    "Itlib.PodVector.C10_pod_vector_sequence_partial",
    "Itlib.PodVector.C10_defect_insert_alias",
    "Itlib.PodVector.C10_defect_push_back_alias"
   ],
   "note": "Byte-level model; every history of calls allowed by Spec.MSafeRun refines lists of elements, for any number of vectors, any allocator oracle and element size/alignment. Excluded calls are defects of the code, each proved: arguments referring into the vector where they get moved or freed."
  },
  {
   "property": "C11",
   "status": "partial",
   "theorems": [
    "Itlib.PodVector.C11_pod_vector_memory_partial",
    "Itlib.PodVector.C11_defect_resize_value"
   ],
   "note": "Same histories as C10; resize(n, value) overflows the block (proved as defect) and is therefore guarded."
  },
  {
   "property": "C12",
   "status": "proved",
   "theorems": [
    "Itlib.PodVector.C12_reserve_reports",
    "Itlib.PodVector.C12_shrink_to_fit_reports",
    "Itlib.PodVector.C12_resize_reports",
    "Itlib.PodVector.C12_resize_value_reports"
   ],
   "note": "reserve, shrink_to_fit, resize(n), resize(n, value) in all well-formed states, a superset of the reachable ones."
  },
  {
   "property": "C13",
   "status": "partial",
   "theorems": [
    "Itlib.PodVector.C13_align_ptr_real_addr",
    "Itlib.PodVector.C13_data_aligned_partial",
    "Itlib.PodVector.C13_defect_recast_misaligned",
    "Itlib.PodVector.C13_defect_recast_expand"
   ],
   "note": "align_ptr/real_addr for all addresses and alignments up to 128; data() aligned in all reachable states with recast_take_from guarded; the unguarded recast proved defective."
  },
  {
   "property": "C14",
   "status": "partial",
   "theorems": [
    "Itlib.PodVector.C14_recast_copy",
    "Itlib.PodVector.C14_recast_take_partial",
    "Itlib.PodVector.C14_recast_round_trip",
    "Itlib.PodVector.C14_defect_self_recast"
   ],
   "note": "recast_copy_from for all states; recast_take_from where alignment classes agree and sizes are compatible; self recast proved defective."
  },
  {
   "property": "C15",
   "status": "proved",
   "theorems": [
    "Itlib.Flat.C15_converting_insert_defect",
    "Itlib.Flat.C15_flat_map",
    "Itlib.Flat.C15_flat_map_insert_function",
    "Itlib.Flat.C15_flat_map_index_function",
    "Itlib.Flat.C15_flat_map_lookup_function",
    "Itlib.Flat.C15_flat_map_erase_function"
   ],
   "note": "Any number of maps, any strict weak orders (also stateful ones), any history, vector or bounded container. std algorithms modelled (halving search, adjacent unique, arbitrary admissible sort). Element/comparison/allocation exceptions not modelled; a bounded container that is too small makes insertion and construction throw. False and proved false for arguments that compare unlike the key they convert to: C15_converting_insert_defect."
  },
  {
   "property": "C16",
   "status": "proved",
   "theorems": [
    "Itlib.Flat.C16_flat_set"
   ],
   "note": "Same theorem as C15 with the element as its own key. Converting arguments: C15_converting_insert_defect."
  },
  {
   "property": "C17",
   "status": "proved",
   "theorems": [
    "Itlib.Flat.C17_construction"
   ],
   "note": "For every admissible outcome of std::sort."
  },
  {
   "property": "C18",
   "status": "proved",
   "theorems": [
    "Itlib.Flat.C18_lookup"
   ],
   "note": "Exact boundaries and comparison counts for the halving algorithms of libstdc++."
  },
  {
   "property": "C19",
   "status": "partial",
   "theorems": [
    "Itlib.Bitset.C19_bitset_sequence_partial",
    "Itlib.Bitset.C19_resize"
   ],
   "note": "Refinement of lists of booleans for every history over any number of bitsets and every word width. False for all() on 8/16-bit words, self-append at word multiples and copy with a straddling tail (see the defect theorems of C20-C22); these are excluded by the guard Spec.Safe. size_t wrap-around and allocation failure not modelled."
  },
  {
   "property": "C20",
   "status": "partial",
   "theorems": [
    "Itlib.Bitset.C20_all_any_none_partial",
    "Itlib.Bitset.C20_defect_all_narrow"
   ],
   "note": "any and none for every word type; all for words of at least 32 bits or sets smaller than a word. For 8/16-bit words all() is false for every set of at least one word (integer promotion), proved as C20_defect_all_narrow."
  },
  {
   "property": "C21",
   "status": "partial",
   "theorems": [
    "Itlib.Bitset.C21_append_partial",
    "Itlib.Bitset.C21_defect_self_append"
   ],
   "note": "All sizes and alignments, including self-append at sizes not a multiple of the word; self-append at multiples of the word size is undefined (C21_defect_self_append)."
  },
  {
   "property": "C22",
   "status": "partial",
   "theorems": [
    "Itlib.Bitset.C22_copy_partial",
    "Itlib.Bitset.C22_copy_aligned_partial",
    "Itlib.Bitset.C22_defect_copy_tail"
   ],
   "note": "Exact effect of copy for all offsets and lengths: right except that tail bits coming from a second source word are cleared (C22_defect_copy_tail)."
  },
  {
   "property": "C23",
   "status": "partial",
   "theorems": [
    "Itlib.Expected.C23_expected_value_error",
    "Itlib.Expected.C23_expected_ref_error",
    "Itlib.Expected.C23_expected_void_error_partial",
    "Itlib.Expected.C23_expected_value_void_partial",
    "Itlib.Expected.C23_expected_ref_void",
    "Itlib.Expected.C23_expected_void_void",
    "Itlib.Expected.C23_expected_void_move_assign_defect",
    "Itlib.Expected.C23_expected_copy_assign_defect",
    "Itlib.Expected.C23_expected_emplace_self_defect"
   ],
   "note": "All six classes, every history over any number of objects. Full for <T,E>, <T&,E>, <T&,void>, <void,void>. Excluded calls are real defects, each proved for every reachable state: move assignment between two values of <void,E> (UB), throwing copy assignment of <T,void> into an empty object (claims a value, then UB), emplace of the own value (UB). Accessors on the wrong alternative only assert: they are preconditions."
  },
  {
   "property": "C24",
   "status": "partial",
   "theorems": [
    "Itlib.Any.C24_any_holds_last_value_partial",
    "Itlib.Any.C24_any_copy_self_assign_defect",
    "Itlib.Any.C24_any_assign_lvalue_defect",
    "Itlib.Any.C24_any_emplace_own_defect",
    "Itlib.Any.C24_any_huge_type_defect"
   ],
   "note": "Every history over any number of anys with arbitrary types, values, allocators and failures. Excluded calls are real defects, each proved for every reachable state: storing an lvalue stores a reference, copy self-assignment empties, emplace from the own value is UB, types of 4 GiB get a cut block."
  },
  {
   "property": "C25",
   "status": "partial",
   "theorems": [
    "Itlib.Any.C25_any_allocations_paired_partial",
    "Itlib.Any.C25_any_move_assign_defect"
   ],
   "note": "Allocation log: every release matches its allocation exactly, at most once, nothing leaks. Excluded (proved defect): move assignment between anys with different allocators releases the block with the wrong allocator."
  },
  {
   "property": "C26",
   "status": "partial",
   "theorems": [
    "Itlib.Gen.C26_generator_history_partial",
    "Itlib.Gen.C26_next_sequence",
    "Itlib.Gen.C26_begin_finished_defect"
   ],
   "note": "all histories over arbitrary bodies; begin() on a finished generator is a defect (proved)"
  },
  {
   "property": "C27",
   "status": "partial",
   "theorems": [
    "Itlib.Gen.C27_frame_destroyed_once_partial",
    "Itlib.Gen.C27_all_frames_destroyed_partial",
    "Itlib.Gen.C27_self_move_assign_defect"
   ],
   "note": "all histories; self-move-assignment of a non-empty generator is a defect (proved)"
  },
  {
   "property": "C28",
   "status": "partial",
   "theorems": [
    "Itlib.MemOut.C28_get_is_concatenation_partial",
    "Itlib.MemOut.C28_get_after_clear_partial",
    "Itlib.MemOut.C28_long_chunk_defect"
   ],
   "note": "Proved for every contiguous container (growth policy, initial capacity, maximum, data() null or not when empty), every split into characters and chunks. Missing: chunks whose length does not fit in the int argument of pbump (2^31, or 2^16 for char16_t), where the claim is false (C28_long_chunk_defect)."
  },
  {
   "property": "C29",
   "status": "partial",
   "theorems": [
    "Itlib.MemOut.C29_file_history_partial",
    "Itlib.MemOut.C29_peek_prefix",
    "Itlib.MemOut.C29_reuse_after_get",
    "Itlib.MemOut.C29_reuse_after_get_defect",
    "Itlib.MemOut.C29_get_truncates_defect",
    "Itlib.MemOut.C29_seek_end_defect",
    "Itlib.MemOut.C29_seek_far_defect"
   ],
   "note": "Histories of writes, seeks, clear, get_container refine a file for every container. Missing because false in the code, each shown as a defect theorem from every reachable state: use after get_container with containers whose data() is not null when empty, get_container while the position is not at the end, seeks relative to the end when there is spare capacity, seeks beyond 2^31."
  },
  {
   "property": "C30",
   "status": "partial",
   "theorems": [
    "Itlib.MemIn.C30_istream_history_partial",
    "Itlib.MemIn.C30_chunks",
    "Itlib.MemIn.C30_wrapping_read_defect"
   ],
   "note": "All histories of reads, single characters, putback, seeks and reset. Missing: reads whose pointer arithmetic wraps around the address space (C30_wrapping_read_defect)."
  },
  {
   "property": "C31",
   "status": "partial",
   "theorems": [
    "Itlib.RStream.C31_redirect_history_partial",
    "Itlib.RStream.C31_redirect_reads_and_restores",
    "Itlib.RStream.C31_not_restored_after_failed_read_defect",
    "Itlib.RStream.C31_redirect_at_eof_defect"
   ],
   "note": "All histories with nested redirects. Missing because false: a redirect destroyed after a failed read does not restore the position, and one created on a stream with eofbit does not go to the position (defect theorems)."
  },
  {
   "property": "C32",
   "status": "partial",
   "theorems": [
    "Itlib.Span.C32_span_history_partial",
    "Itlib.Span.C32_as_bytes",
    "Itlib.Span.C32_subspan_wrap_defect",
    "Itlib.Span.C32_last_too_many_defect"
   ],
   "note": "Histories of any number of spans over one array, including writes through them, with a frame for the rest of memory, and byte views. Missing: offsets for which subspan's address computation wraps around, and last of more than there is; both are proved to give elements or sizes other than the slice (C32_subspan_wrap_defect, C32_last_too_many_defect)."
  },
  {
   "property": "C33",
   "status": "partial",
   "theorems": [
    "Itlib.StrideSpan.C33_from_array_covers",
    "Itlib.StrideSpan.C33_stride_span_history_partial",
    "Itlib.StrideSpan.C33_poly_span_history_partial",
    "Itlib.StrideSpan.C33_iterator_laws",
    "Itlib.StrideSpan.C33_iterator_difference_partial",
    "Itlib.StrideSpan.C33_negative_difference_defect",
    "Itlib.StrideSpan.C33_from_array_offset_defect",
    "Itlib.StrideSpan.C33_last_too_many_defect",
    "Itlib.StrideSpan.C33_zero_stride_defect"
   ],
   "note": "Histories of stride_spans and poly_spans, iterator moves and comparisons, non-negative differences, coverage of spans made from arrays. Missing, and proved to fail: negative iterator differences, last of more than there is, offsets a stride or more behind the array, stride 0."
  },
  {
   "property": "C34",
   "status": "proved",
   "theorems": [
    "Itlib.MemView.C34_memory_view_history",
    "Itlib.MemView.C34_reset_size"
   ],
   "note": "Histories of memory_views over one array for every offset and count, with a frame for the rest of memory; reset(size)."
  },
  {
   "property": "C35",
   "status": "proved",
   "theorems": [
    "Itlib.StrUtil.C35_starts_with",
    "Itlib.StrUtil.C35_ends_with",
    "Itlib.StrUtil.C35_remove_prefix_all",
    "Itlib.StrUtil.C35_remove_suffix_all",
    "Itlib.StrUtil.C35_maximal",
    "Itlib.StrUtil.C35_empty_affix",
    "Itlib.StrUtil.C35_make_string_view"
   ],
   "note": ""
  },
  {
   "property": "C36",
   "status": "partial",
   "theorems": [
    "Itlib.QAlg.C36_find_if",
    "Itlib.QAlg.C36_find",
    "Itlib.QAlg.C36_erase_first_if",
    "Itlib.QAlg.C36_erase_first",
    "Itlib.QAlg.C36_erase_first_if_throw",
    "Itlib.QAlg.C36_erase_all_if",
    "Itlib.QAlg.C36_erase_all_if_throw",
    "Itlib.QAlg.C36_erase_all_partial",
    "Itlib.QAlg.C36_erase_all_alias_defect",
    "Itlib.QAlg.C36_quantifiers"
   ],
   "note": "All functions for every sequence and predicate, also throwing ones. Missing: erase_all of a value that is an element of the container, unless that element lies behind what remains; C36_erase_all_alias_defect shows that the property fails there."
  },
  {
   "property": "C37",
   "status": "partial",
   "theorems": [
    "Itlib.TimeT.C37_truncates",
    "Itlib.TimeT.C37_history",
    "Itlib.TimeT.C37_sum_difference",
    "Itlib.TimeT.C37_strftime_partial",
    "Itlib.TimeT.C37_strftime_empty_defect"
   ],
   "note": "Histories of times and durations (integral counts, any period), rounding, sums, differences, comparisons; strftime for every non-empty result. Missing: the empty result, for which strftime never returns (C37_strftime_empty_defect); durations with floating point counts."
  },
  {
   "property": "C38",
   "status": "proved",
   "theorems": [
    "Itlib.Counter.C38_linearizable",
    "Itlib.Counter.C38_no_lost_update",
    "Itlib.Counter.C38_tickets",
    "Itlib.Counter.C38_distinct",
    "Itlib.Counter.C38_pre_distinct",
    "Itlib.Counter.C38_post_distinct",
    "Itlib.Counter.C38_no_ub",
    "Itlib.Counter.C38_monotone",
    "Itlib.Counter.C38_no_ub_signed",
    "Itlib.Counter.C38_signed_overflow_defect"
   ],
   "note": "Executions of any number of threads on any number of counters over the modification-order semantics of relaxed atomics: linearizable updates, exact final sum, tickets and distinct results of increments, per-thread monotone views of growing counters, no undefined behaviour for unsigned or narrow types. Recorded: ++x on a signed counter at its maximum is undefined (C38_signed_overflow_defect)."
  },
  {
   "property": "C39",
   "status": "proved",
   "theorems": [
    "Itlib.ASptr.C39_linearizable",
    "Itlib.ASptr.C39_no_ub",
    "Itlib.ASptr.C39_counts",
    "Itlib.ASptr.C39_alive",
    "Itlib.ASptr.C39_destroyed_last",
    "Itlib.ASptr.C39_progress"
   ],
   "note": "Any number of threads with any number of own pointers, word-by-word access of the stored pointer, explicit reference counts: linearizable register of whole pointers, data-race free, counts equal the owners at every step, objects alive while held and destroyed exactly with the last owner, progress. The pre-C++20 implementation; sequentially consistent steps."
  },
  {
   "property": "C40",
   "status": "partial",
   "theorems": [
    "Itlib.ASptr.C40_only_failing_cas_partial",
    "Itlib.ASptr.C40_no_cas",
    "Itlib.ASptr.C40_destructor_under_lock_defect"
   ],
   "note": "The claim as stated is false: a failing compare_exchange releases the old value of expect inside the guarded scope, so the last owner's destructor runs under the lock (C40_destructor_under_lock_defect). Proved: this is the only case; load, store, exchange and succeeding compare_exchange never destroy under the lock."
  },
  {
   "property": "C41",
   "status": "proved",
   "theorems": [
    "Itlib.RecMutex.C41_linearizable",
    "Itlib.RecMutex.C41_no_ub",
    "Itlib.RecMutex.C41_exclusive",
    "Itlib.RecMutex.C41_fails_iff_owned",
    "Itlib.RecMutex.C41_released",
    "Itlib.RecMutex.C41_no_deadlock"
   ],
   "note": "Every execution of any number of threads whose users unlock only what they locked and stay below the maximal depth; internal std::mutex abstracted as a waiting lock that does not throw; failing asserts, data races and overflow of m_depth are undefined behaviour in the model, and shown not to happen."
  },
  {
   "property": "C42",
   "status": "partial",
   "theorems": [
    "Itlib.DataMutex.C42_linearizable",
    "Itlib.DataMutex.C42_no_ub_partial",
    "Itlib.DataMutex.C42_no_race",
    "Itlib.DataMutex.C42_exclusive",
    "Itlib.DataMutex.C42_balanced_partial",
    "Itlib.DataMutex.C42_objects",
    "Itlib.DataMutex.C42_waits_only_for_conflict",
    "Itlib.DataMutex.C42_lock_throws_defect",
    "Itlib.DataMutex.C42_try_lock_throws_defect"
   ],
   "note": "Any number of threads and lock objects, every schedule, with moves and failing try_locks: linearizable, exclusive, race free, balanced. Proved for mutexes whose lock functions do not throw; for throwing ones the claim is false: C42_lock_throws_defect (unlock of a mutex never locked) and C42_try_lock_throws_defect (read of an unwritten pointer). Lock objects are not handed between threads in the model."
  },
  {
   "property": "C43",
   "status": "proved",
   "theorems": [
    "Itlib.Sentry.C43_sentry_history",
    "Itlib.Sentry.C43_sentry_exactly_once"
   ],
   "note": "Every history of creations (also failing ones), moves, returns and destructions, for both branches of the preprocessor and for function objects that stay or do not stay callable after a move. Functions are assumed to return and not to touch sentries themselves."
  },
  {
   "property": "C44",
   "status": "proved",
   "theorems": [
    "Itlib.SharedFrom.C44_history",
    "Itlib.SharedFrom.C44_lifetime",
    "Itlib.SharedFrom.C44_control_blocks"
   ],
   "note": "Every history of creations, copies, moves, assignments, resets, make_aliased, shared_from, shared_from_this, weak_from, weak_from_this (both language versions), lock, use_count and ends of destructors, with the control blocks of std::shared_ptr modelled as counts. Calls made by destructors are further calls of the history. One thread. make_unique, and constructors that throw, are in C78."
  },
  {
   "property": "C45",
   "status": "proved",
   "theorems": [
    "Itlib.Pmr.C45_pmr_objects_balance",
    "Itlib.Pmr.C45_pmr_allocate_object_overflow_defect"
   ],
   "note": "Every history with arbitrary failures and arbitrary addresses chosen by the resource. Remark: allocate_object(n) does not check for overflow of n*sizeof (proved as defect); arrays are otherwise assumed to fit in size_t."
  },
  {
   "property": "C46",
   "status": "partial",
   "theorems": [
    "Itlib.Utility.C46_bit_cast",
    "Itlib.Utility.C46_bit_cast_round_trip",
    "Itlib.Utility.C46_padding_is_lost",
    "Itlib.Utility.C46_owner_from_member",
    "Itlib.Utility.C46_owner_unique",
    "Itlib.Utility.C46_owner_nested"
   ],
   "note": "bit_cast for all trivially copyable types of equal size (a type is a size and a reading of byte strings); the round trip for types between without padding, and a theorem that padding can be lost. owner_from_member for all addresses and offsets, with pointers to members as offsets, which is what compilers have; the language leaves the use of a null pointer there undefined. Types with their own operator& are not covered."
  },
  {
   "property": "C47",
   "status": "partial",
   "theorems": [
    "Itlib.SmallVector.C47_small_vector_alloc_failure_strong",
    "Itlib.SmallVector.C47_small_vector_shrink_failure_strong",
    "Itlib.SmallVector.C47_defect_small_vector_push_back_throws",
    "Itlib.SmallVector.C47_defect_small_vector_assign_alloc",
    "Itlib.SmallVector.C47_defect_small_vector_assign_throws",
    "Itlib.StaticVector.C47_static_vector_push_back_strong",
    "Itlib.StaticVector.C47_static_vector_basic_guarantee_partial",
    "Itlib.StaticVector.C47_defect_insert_throws",
    "Itlib.StaticVector.C47_defect_copy_ctor_leaks"
   ],
   "note": "static_vector: push_back strong, others basic guarantee; insert and copy constructor proved defective. small_vector: failing allocations leave the vector unchanged (assign excepted, proved defective); throwing element constructors in push_back/assign proved defective."
  },
  {
   "property": "C48",
   "status": "partial",
   "theorems": [
    "Itlib.Flat.C48_flat_eq_elementwise",
    "Itlib.Flat.C48_flat_eq",
    "Itlib.PodVector.C48_pod_vector_eq",
    "Itlib.PodVector.C48_pod_vector_bytes_defect",
    "Itlib.SmallVector.C48_small_vector_eq",
    "Itlib.StaticVector.C48_static_vector_eq"
   ],
   "note": "static_vector, small_vector, flat_map, flat_set for elements with any operator==, also one that is not an equivalence. pod_vector compares bytes: proved for that, and proved that it disagrees with every operator== of the elements that is not equality of bytes (C48_pod_vector_bytes_defect)."
  },
  {
   "property": "C49",
   "status": "partial",
   "theorems": [
    "Itlib.SmallVector.C49_erase_reverts_partial",
    "Itlib.SmallVector.C49_defect_resize_stays"
   ],
   "note": "erase, pop_back, clear; resize never goes back (proved as defect)."
  },
  {
   "property": "C50",
   "status": "partial",
   "theorems": [
    "Itlib.UFunction.C50_history",
    "Itlib.UFunction.C50_history_alloc",
    "Itlib.UFunction.C50_ownership",
    "Itlib.UFunction.C50_null_pointer_defect",
    "Itlib.UFunction.C50_alloc_failure"
   ],
   "note": "History refinement, ownership and absence of copies for every lawful library policy. Missing: a null function pointer of another type or an empty std::function makes a non-empty ufunction (C50_null_pointer_defect); callables that use the ufunction they are called from are C72; moves of function objects that throw end the program (noexcept wrapper) and are not modelled."
  },
  {
   "property": "C51",
   "status": "proved",
   "theorems": [
    "Itlib.UMap.C51_history",
    "Itlib.UMap.C51_history_memory"
   ],
   "note": "Refinement of a map on equivalence classes by the hash table under every history, allocation failures and throwing constructors included."
  },
  {
   "property": "C52",
   "status": "partial",
   "theorems": [
    "Itlib.UMap.Types.C52_lvalue_defect",
    "Itlib.UMap.Types.C52_member_defect",
    "Itlib.UMap.Types.C52_hash_irrelevant_defect",
    "Itlib.UMap.Types.C52_hint_defect",
    "Itlib.UMap.Types.C52_calls_partial"
   ],
   "note": "False as stated: the overloads test is_transparent on the argument's type, not on Hash and KeyEqual, and never accept lvalues; the hint overload cannot compile (C52_*_defect). C52_calls_partial says exactly which calls compile."
  },
  {
   "property": "C53",
   "status": "partial",
   "theorems": [
    "Itlib.ThrowEx.C53_program_partial",
    "Itlib.ThrowEx.C53_exact",
    "Itlib.ThrowEx.C53_operand_defect",
    "Itlib.ThrowEx.C53_unwinding_defect",
    "Itlib.ThrowEx.C53_unwinding_ideal"
   ],
   "note": "C53_exact says what the expression does in every case. The property holds for programs whose operands do not throw and that do not use throw_ex in destructors run by unwinding (C53_program_partial); it is false for the others, the program is terminated (C53_operand_defect, C53_unwinding_defect)."
  },
  {
   "property": "C54",
   "status": "partial",
   "theorems": [
    "Itlib.TypeTraits.C54_noop_partial",
    "Itlib.TypeTraits.C54_bool_enum_defect",
    "Itlib.TypeTraits.C54_base_pointer_defect",
    "Itlib.TypeTraits.C54_float_format_defect",
    "Itlib.TypeTraits.C54_null_member_defect",
    "Itlib.TypeTraits.C54_member_class_defect",
    "Itlib.TypeTraits.C54_no_cast_defect",
    "Itlib.TypeTraits.C54_exact",
    "Itlib.TypeTraits.C54_integral_exact"
   ],
   "note": "All scalar types, including pointers to members and std::nullptr_t. C54_exact says for which pairs with a cast the property holds; it is false for the others: enumerations over bool, pointers to bases at another address, floating point formats of equal size, nullptr_t and pointers to members whose null is not zeros, pointers to members of classes with other layouts (C54_*_defect), and the trait is true for types without any cast (C54_no_cast_defect). nullptr_t objects are taken to be zeros, as implementations store them."
  },
  {
   "property": "C55",
   "status": "partial",
   "theorems": [
    "Itlib.BitBuf.C55_failing_buffer_partial",
    "Itlib.BitBuf.C55_push_back",
    "Itlib.BitBuf.C55_failed_resize_defect",
    "Itlib.BitBuf.C55_failed_push_back_defect",
    "Itlib.BitBuf.C55_failed_append_defect",
    "Itlib.BitBuf.C55_uninitialised_defect",
    "Itlib.BitBuf.C55_resize_wraps_defect"
   ],
   "note": "The refinement covers every call except resize, push_back and unaligned append that throw (the size is changed before the buffer throws), resize over a buffer that does not zero its words (pod_vector), and sizes within a word of 2^64; for all of these the property is false (C55_*_defect)."
  },
  {
   "property": "C56",
   "status": "proved",
   "theorems": [
    "Itlib.BitIter.C56_iterators",
    "Itlib.BitIter.C56_loops",
    "Itlib.BitIter.C56_compare_across"
   ],
   "note": "Positions below 2^63. The calls of the bitsets themselves are subject to C19."
  },
  {
   "property": "C57",
   "status": "partial",
   "theorems": [
    "Itlib.FlatOver.C57_flat_over_static_vector_partial",
    "Itlib.FlatOver.C57_flat_over_small_vector_partial",
    "Itlib.FlatOver.C57_defect_index_own_value"
   ],
   "note": "Element copies, comparisons and allocations do not throw. Keys and values passed to insert, emplace and operator[] are not parts of the map itself: C57_defect_index_own_value shows what happens otherwise. No swap over small_vector, which has none. std::sort is reduced to its effect."
  },
  {
   "property": "C58",
   "status": "partial",
   "theorems": [
    "Itlib.SmallVector.C58_small_vector_throwing_partial",
    "Itlib.SmallVector.C58_fatal_call",
    "Itlib.SmallVector.C58_fatal_ctor",
    "Itlib.SmallVector.C58_alloc_failure_survived"
   ],
   "note": "Exact for all calls outside the guard of C05 (own elements as arguments in some positions, empty erase and insert, a full revert): failing allocations are survived except in assign and copy assignment to a vector with elements; throwing elements are survived only in assign and constructors that do not change the buffer (not in small_vector(count)); all other exceptions are proved fatal. Moves of elements that throw: C75."
  },
  {
   "property": "C59",
   "status": "proved",
   "theorems": [
    "Itlib.ASptr.C59_no_race",
    "Itlib.ASptr.C59_publication",
    "Itlib.ASptr.C59_constructed_first",
    "Itlib.ASptr.C59_destroyed_last",
    "Itlib.ASptr.C59_orders_needed"
   ],
   "note": "For every execution of any number of threads, over the happens-before relation of C++11 given by program order, the acquire and release orders of the spin lock, acquire-release decrements of reference counts, and synchronised hand-over by users. Each of the two orders of the lock is proved necessary. The executions are interleavings; that race-free programs have no others is the memory model's theorem."
  },
  {
   "property": "C60",
   "status": "partial",
   "theorems": [
    "Itlib.StaticVector.C60_static_vector_throwing_partial",
    "Itlib.StaticVector.C60_fatal_call",
    "Itlib.StaticVector.C60_fatal_iff_insert",
    "Itlib.StaticVector.C60_lost_only_by_ctor"
   ],
   "note": "Exact for all calls outside the guard of C04: push_back and emplace_back that throw have no effect; resize, assign and copy assignment keep the elements made; insert and emplace that throw are proved fatal; constructors that throw (count, value, range, copy) are proved to leak exactly the elements they had made. Moves of elements do not throw."
  },
  {
   "property": "C61",
   "status": "partial",
   "theorems": [
    "Itlib.PodVector.C61_pod_vector_bad_alloc_partial",
    "Itlib.PodVector.C61_assign_double_free",
    "Itlib.PodVector.C61_assign_lost",
    "Itlib.PodVector.C61_reserve_null",
    "Itlib.PodVector.C61_push_back_null",
    "Itlib.PodVector.C61_resize_null"
   ],
   "note": "Throwing allocators: strong guarantee of every call but assignments beyond the capacity, for all histories and failure patterns; those assignments are proved to leave a vector whose destructor frees twice (or that claims a capacity it does not have). Allocators returning null: reserve, push_back and resize are proved to use the null pointer as a buffer. Excluded calls of C10 and sizes near 2^64 are not covered."
  },
  {
   "property": "C62",
   "status": "proved",
   "theorems": [
    "Itlib.DataMutex.C62_data_mutex_publishes",
    "Itlib.RecMutex.C62_rec_mutex_publishes",
    "Itlib.RecMutex.C62_rec_mutex_members"
   ],
   "note": "Over happens-before given by program order and what the standard says std::mutex and std::shared_mutex synchronise, for every execution. Executions are interleavings; that race-free programs have no others is the memory model's theorem. data_mutex with throwing mutexes is excluded (C42)."
  },
  {
   "property": "C63",
   "status": "partial",
   "theorems": [
    "Itlib.Expected.C63_unexpected_value_partial",
    "Itlib.Expected.C63_unexpected_ref_partial",
    "Itlib.Expected.C63_unexpected_void_partial",
    "Itlib.Expected.C63_unexpected_value_lvalue_defect",
    "Itlib.Expected.C63_unexpected_ref_lvalue_defect",
    "Itlib.Expected.C63_unexpected_void_lvalue_defect"
   ],
   "note": "Any program of variables, packages and expected objects of the three classes with an error, any error types. Excluded calls are real defects, each proved for every reachable state: a variable given to unexpected() without std::move is moved from, the error is read late, and a variable that is gone is used. Moves and copies of errors do not throw."
  },
  {
   "property": "C64",
   "status": "partial",
   "theorems": [
    "Itlib.MemOut.C64_copies_partial",
    "Itlib.MemOut.C64_copy_writes_original_defect",
    "Itlib.MemOut.C64_copy_undefined_defect",
    "Itlib.MemOut.C64_assign_defect",
    "Itlib.MemOut.C64_moved_from_defect",
    "Itlib.MemOut.C64_move_inline_defect"
   ],
   "note": "Any program of buffers over any lawful container, with copies, moves and assignments. Excluded uses are real defects, each proved for every reachable state: a copy or assigned object that is used before clear() or an absolute seek writes into the original or is undefined, the same for an object moved from, and for one moved to when the container keeps inline storage. Allocations do not fail."
  },
  {
   "property": "C65",
   "status": "partial",
   "theorems": [
    "Itlib.RStream.C65_redirects_any_order_partial",
    "Itlib.RStream.C65_copy_moves_original_defect"
   ],
   "note": "All histories of any number of redirects and copies that end in any order. Missing because false: the end of a copy moves the stream under the original (defect theorem, for every reachable state); streams that are not good, as in C31."
  },
  {
   "property": "C66",
   "status": "partial",
   "theorems": [
    "Itlib.FlatOver.T.C66_user_exceptions_partial",
    "Itlib.FlatOver.T.C66_user_exceptions_std_vector_partial",
    "Itlib.FlatOver.T.C66_user_exceptions_static_vector_partial",
    "Itlib.FlatOver.T.C66_user_exceptions_small_vector_partial",
    "Itlib.FlatOver.T.C66_failed_assign_defect"
   ],
   "note": "Missing: element copies and moves inside the container that throw (C58, C60), comparison objects whose copies throw, iterator ranges that throw. False and proved false: copy assignment that fails between maps with different orders (C66_failed_assign_defect)."
  },
  {
   "property": "C67",
   "status": "partial",
   "theorems": [
    "Itlib.PodVector.C67_machine_sizes_partial",
    "Itlib.PodVector.C67_defect_reserve_short",
    "Itlib.PodVector.C67_defect_ctor",
    "Itlib.PodVector.C67_defect_reserve_endless",
    "Itlib.PodVector.C67_defect_insert"
   ],
   "note": "All histories of any number of vectors that stay below 2^64 bytes and 2^64/3 elements. Missing because false: larger sizes (four defect theorems); and what is missing for C61."
  },
  {
   "property": "C68",
   "status": "proved",
   "theorems": [
    "Itlib.PodVector.C68_pod_vector_amortised",
    "Itlib.PodVector.C68_pod_vector_reserved",
    "Itlib.SmallVector.C68_small_vector_amortised",
    "Itlib.SmallVector.C68_small_vector_amortised_default",
    "Itlib.SmallVector.C68_small_vector_amortised_from",
    "Itlib.SmallVector.C68_limit_seesaw"
   ],
   "note": "small_vector and pod_vector, every order of calls, from every reachable state. Arguments are values that are not in the vector; nothing throws. The bound for small_vector with RevertToStaticBelow near StaticCapacity is proportional to StaticCapacity, and it is proved that there is no better one (C68_limit_seesaw)."
  },
  {
   "property": "C69",
   "status": "proved",
   "theorems": [
    "Itlib.ASptr.C69_storage_some_call_returns",
    "Itlib.ASptr.C69_storage_every_call_returns",
    "Itlib.ASptr.C69_storage_lock_released",
    "Itlib.ASptr.C69_local_calls_return",
    "Itlib.ASptr.C69_storage_starvation_limit",
    "Itlib.DataMutex.C69_data_mutex_returns",
    "Itlib.DataMutex.C69_data_mutex_waits_limit",
    "Itlib.RecMutex.C69_rec_mutex_some_call_returns",
    "Itlib.RecMutex.C69_rec_mutex_every_call_returns"
   ],
   "note": "Fairness is a hypothesis about the scheduler and the internal std::mutex. Destructors of the objects and other user code are assumed to return and not to call the storage (C40). strong_try_rec_mutex and data_mutex: clients follow the rules of C41 and C42; the mutex does not throw. That weak fairness does not suffice for every call is proved (C69_storage_starvation_limit), and that unique_lock can wait forever (C69_data_mutex_waits_limit)."
  },
  {
   "property": "C70",
   "status": "partial",
   "theorems": [
    "Itlib.MemOut.C70_no_memory_partial",
    "Itlib.MemOut.C70_reserved_writes_succeed",
    "Itlib.MemOut.C70_retry",
    "Itlib.MemOut.C70_constructor"
   ],
   "note": "Proved for every container, history and pattern of failures. Containers' resize is assumed to have no effect if it throws. Missing: the calls that C28 and C29 exclude (chunks beyond int, seeks to the end or beyond, get_container before the end, reuse after get_container of containers with non-null data())."
  },
  {
   "property": "C71",
   "status": "partial",
   "theorems": [
    "Itlib.SmallVector.C71_machine_sizes_partial",
    "Itlib.SmallVector.C71_refused",
    "Itlib.SmallVector.C71_defect_endless",
    "Itlib.SmallVector.C71_defect_insert"
   ],
   "note": "C71_machine_sizes_partial: calls excluded by MSafe as in C05. C71_refused, C71_defect_endless, C71_defect_insert are unconditional for the calls of `Asks` and `insert(pos, n, v)`; element moves do not throw (they do in C75, with unbounded numbers)."
  },
  {
   "property": "C72",
   "status": "proved",
   "theorems": [
    "Itlib.UFunction.C72_returns",
    "Itlib.UFunction.C72_alloc",
    "Itlib.UFunction.C72_undefined",
    "Itlib.UFunction.C72_unfinished",
    "Itlib.UFunction.C72_own_reset_defect",
    "Itlib.UFunction.C72_moved_heap",
    "Itlib.UFunction.C72_moved_inline"
   ],
   "note": "C72_returns, C72_alloc, C72_undefined and C72_unfinished relate every program to the specification, in both directions where it says something; nothing is said of captures that were moved from below a running callable, which depends on the library (C72_moved_heap, C72_moved_inline)."
  },
  {
   "property": "C73",
   "status": "partial",
   "theorems": [
    "Itlib.StaticVector.C73_static_vector_moves_partial",
    "Itlib.StaticVector.C73_fatal_call",
    "Itlib.StaticVector.C73_fatal_iff",
    "Itlib.StaticVector.C73_lost_only_by_ctor",
    "Itlib.StaticVector.C73_noexcept_defect"
   ],
   "note": "Exact for all calls outside the guard of C04 and a vector swapped with itself (C73_static_vector_moves_partial). C73_fatal_iff says exactly which exceptions are fatal, C73_fatal_call that they are, C73_lost_only_by_ctor when elements are leaked, C73_noexcept_defect that move assignment can end the program. The property as a user would want it is false for these."
  },
  {
   "property": "C74",
   "status": "proved",
   "theorems": [
    "Itlib.Sentry.C74_sentry_programs",
    "Itlib.Sentry.C74_depth",
    "Itlib.Sentry.C74_exactly_once",
    "Itlib.Sentry.C74_defect_moves_own_sentry"
   ],
   "note": "C74_sentry_programs, C74_exactly_once and C74_depth hold for all programs that use sentries as allowed (no use of a sentry while its own function runs); C74_defect_moves_own_sentry shows what happens otherwise. Simplification: a function does not use its captures after its function object was moved."
  },
  {
   "property": "C75",
   "status": "partial",
   "theorems": [
    "Itlib.SmallVector.C75_small_vector_moves_partial",
    "Itlib.SmallVector.C75_fatal_call",
    "Itlib.SmallVector.C75_noexcept_defect",
    "Itlib.SmallVector.C75_growth",
    "Itlib.SmallVector.C75_in_place_fatal",
    "Itlib.SmallVector.C75_lost_only_by_moves"
   ],
   "note": "Exact for all calls outside the guard of C05 (C75_small_vector_moves_partial: replies, vectors, and the leaked blocks with the elements in them). C75_fatal_call: every exception about which the specification has no say is fatal. C75_growth, C75_in_place_fatal, C75_lost_only_by_moves say which are which; C75_noexcept_defect: moving a vector whose elements are in the static buffer ends the program. The property as a user would want it is false for these. Missing: iterators of ranges that throw; moves of arguments by push_back(T&&) and emplace are constructions as in C58."
  },
  {
   "property": "C76",
   "status": "partial",
   "theorems": [
    "Itlib.Expected.C76_value_error",
    "Itlib.Expected.C76_ref_error",
    "Itlib.Expected.C76_void_error_partial",
    "Itlib.Expected.C76_value_void_partial",
    "Itlib.Expected.C76_alternatives",
    "Itlib.Expected.C76_ended_iff",
    "Itlib.Expected.C76_noexcept_defect"
   ],
   "note": "Full for <T,E> and <T&,E>. For <void,E> and <T,void> the calls excluded by C23 are excluded here too; they are real defects, proved at C23 (among them a throwing copy assignment of <T,void>). C76_ended_iff says which exceptions end the program, C76_alternatives what the others leave, C76_noexcept_defect that moving ends it in every reachable state."
  },
  {
   "property": "C77",
   "status": "partial",
   "theorems": [
    "Itlib.RStream.Scope.C77_scopes_partial",
    "Itlib.RStream.Scope.C77_redirect_exact",
    "Itlib.RStream.Scope.C77_terminates_only",
    "Itlib.RStream.Scope.C77_open_failed",
    "Itlib.RStream.Scope.C77_masked_read_defect"
   ],
   "note": "False when the scope is left with failbit set: the position is not restored, and if the stream throws on failbit the destructor throws and the program ends, whatever handlers there are (C77_masked_read_defect). C77_redirect_exact says what happens in each case, C77_terminates_only that nothing else ends a program. badbit is not modelled."
  },
  {
   "property": "C78",
   "status": "proved",
   "theorems": [
    "Itlib.MakePtr.C78_refines",
    "Itlib.MakePtr.C78_no_leak",
    "Itlib.MakePtr.C78_failed"
   ],
   "note": "Every history of make_shared and make_unique of lvalues, rvalues and constant rvalues, with failures chosen per call, and of moves, copies, resets, reads and writes of the pointers. std::unique_ptr and std::shared_ptr are modelled after the standard, with blocks of memory, objects and counts. Constness of the object is a matter of types and not modelled; weak pointers are in C44."
  },
  {
   "property": "C79",
   "status": "partial",
   "theorems": [
    "Itlib.MemOut.C79_amortised_partial",
    "Itlib.MemOut.C79_text_linear",
    "Itlib.MemOut.C79_clear_defect",
    "Itlib.MemOut.C79_exact_limit"
   ],
   "note": "C79_amortised_partial bounds all safe histories, C79_text_linear texts in pieces. Missing: the histories of the defects of C28 and C29. C79_clear_defect: after clear the first write fills the old capacity again, so reusing a long buffer for short texts is not proportional. C79_exact_limit: without geometric growth the cost is quadratic."
  },
  {
   "property": "C80",
   "status": "partial",
   "theorems": [
    "Itlib.FlatAny.C80_safe",
    "Itlib.FlatAny.C80_finds_no_other",
    "Itlib.FlatAny.C80_absent",
    "Itlib.FlatAny.C80_in_order",
    "Itlib.FlatAny.C80_failed_insert_defect"
   ],
   "note": "C80_safe, C80_finds_no_other, C80_absent, C80_in_order. Missing: the constructors from elements (std::sort with a comparison that is no strict weak order may leave the range, so the code is not safe there). C80_failed_insert_defect: an insertion that fails inside of the container may leave a key twice."
  },
  {
   "property": "C81",
   "status": "proved",
   "theorems": [
    "Itlib.UMap.T.C81_history",
    "Itlib.UMap.T.C81_retry",
    "Itlib.UMap.T.C81_value_lost_limit"
   ],
   "note": "C81_history, C81_retry, C81_value_lost_limit. The std::unordered_map below is modelled as in libstdc++, which stores hash codes if the hash function may throw; the C++ standard alone promises nothing for an insertion in which the hash function throws."
  },
  {
   "property": "C82",
   "status": "partial",
   "theorems": [
    "Itlib.Bitset.C82_amortised_partial",
    "Itlib.Bitset.C82_push_back",
    "Itlib.Bitset.C82_reserve",
    "Itlib.Bitset.C82_exact_quadratic",
    "Itlib.Bitset.C82_std_vector",
    "Itlib.Bitset.C82_pod_vector"
   ],
   "note": "The amortised bound is proved for all histories but those with the calls excluded by C19 (all of narrow full words, appending a bitset to itself when it fills its words, copy over the word boundary), on which the code is defective; the bound for push_back, reserve, and the quadratic cost over an exact buffer are complete. small_vector as buffer is not covered: it allocates exactly when it leaves its static storage, and moving it copies words."
  },
  {
   "property": "C83",
   "status": "partial",
   "theorems": [
    "Itlib.PodVector.C83_pod_vector",
    "Itlib.PodVector.C83_pod_vector_value",
    "Itlib.PodVector.C83_pod_vector_history_partial",
    "Itlib.SmallVector.C83_small_vector",
    "Itlib.SmallVector.C83_small_vector_value",
    "Itlib.SmallVector.C83_small_vector_history_partial",
    "Itlib.StaticVector.C83_untouched",
    "Itlib.StaticVector.C83_value",
    "Itlib.StaticVector.C83_history_partial"
   ],
   "note": "C83_untouched, C83_small_vector and C83_pod_vector are complete for single calls: any state, calls that throw included. The theorems on histories exclude the calls that Safe of C01, C05 and C10 excludes (defects of the code). An element that is itself the argument of the call is read, and so not kept."
  }
 ]
}
