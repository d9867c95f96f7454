# Axioms of the theorems in the manifest (`#print axioms`)

## Classical.choice, Quot.sound, propext

* `Itlib.ASptr.C39_alive`
* `Itlib.ASptr.C39_counts`
* `Itlib.ASptr.C39_destroyed_last`
* `Itlib.ASptr.C39_linearizable`
* `Itlib.ASptr.C39_no_ub`
* `Itlib.ASptr.C39_progress`
* `Itlib.ASptr.C40_destructor_under_lock_defect`
* `Itlib.ASptr.C40_no_cas`
* `Itlib.ASptr.C40_only_failing_cas_partial`
* `Itlib.ASptr.C59_constructed_first`
* `Itlib.ASptr.C59_destroyed_last`
* `Itlib.ASptr.C59_no_race`
* `Itlib.ASptr.C59_orders_needed`
* `Itlib.ASptr.C59_publication`
* `Itlib.ASptr.C69_local_calls_return`
* `Itlib.ASptr.C69_storage_every_call_returns`
* `Itlib.ASptr.C69_storage_lock_released`
* `Itlib.ASptr.C69_storage_some_call_returns`
* `Itlib.Any.C24_any_assign_lvalue_defect`
* `Itlib.Any.C24_any_copy_self_assign_defect`
* `Itlib.Any.C24_any_emplace_own_defect`
* `Itlib.Any.C24_any_holds_last_value_partial`
* `Itlib.Any.C24_any_huge_type_defect`
* `Itlib.Any.C25_any_allocations_paired_partial`
* `Itlib.Any.C25_any_move_assign_defect`
* `Itlib.BitBuf.C55_failed_append_defect`
* `Itlib.BitBuf.C55_failed_push_back_defect`
* `Itlib.BitBuf.C55_failed_resize_defect`
* `Itlib.BitBuf.C55_failing_buffer_partial`
* `Itlib.BitBuf.C55_push_back`
* `Itlib.BitBuf.C55_resize_wraps_defect`
* `Itlib.BitBuf.C55_uninitialised_defect`
* `Itlib.BitIter.C56_compare_across`
* `Itlib.BitIter.C56_iterators`
* `Itlib.BitIter.C56_loops`
* `Itlib.Bitset.C19_bitset_sequence_partial`
* `Itlib.Bitset.C19_resize`
* `Itlib.Bitset.C20_all_any_none_partial`
* `Itlib.Bitset.C20_defect_all_narrow`
* `Itlib.Bitset.C21_append_partial`
* `Itlib.Bitset.C21_defect_self_append`
* `Itlib.Bitset.C22_copy_aligned_partial`
* `Itlib.Bitset.C22_copy_partial`
* `Itlib.Bitset.C22_defect_copy_tail`
* `Itlib.Bitset.C82_amortised_partial`
* `Itlib.Bitset.C82_exact_quadratic`
* `Itlib.Bitset.C82_pod_vector`
* `Itlib.Bitset.C82_push_back`
* `Itlib.Bitset.C82_reserve`
* `Itlib.Counter.C38_distinct`
* `Itlib.Counter.C38_monotone`
* `Itlib.Counter.C38_no_lost_update`
* `Itlib.Counter.C38_no_ub_signed`
* `Itlib.Counter.C38_post_distinct`
* `Itlib.Counter.C38_pre_distinct`
* `Itlib.Counter.C38_tickets`
* `Itlib.DataMutex.C42_balanced_partial`
* `Itlib.DataMutex.C42_exclusive`
* `Itlib.DataMutex.C42_linearizable`
* `Itlib.DataMutex.C42_lock_throws_defect`
* `Itlib.DataMutex.C42_no_race`
* `Itlib.DataMutex.C42_no_ub_partial`
* `Itlib.DataMutex.C42_objects`
* `Itlib.DataMutex.C42_try_lock_throws_defect`
* `Itlib.DataMutex.C42_waits_only_for_conflict`
* `Itlib.DataMutex.C62_data_mutex_publishes`
* `Itlib.DataMutex.C69_data_mutex_returns`
* `Itlib.DataMutex.C69_data_mutex_waits_limit`
* `Itlib.Expected.C23_expected_copy_assign_defect`
* `Itlib.Expected.C23_expected_emplace_self_defect`
* `Itlib.Expected.C23_expected_ref_error`
* `Itlib.Expected.C23_expected_ref_void`
* `Itlib.Expected.C23_expected_value_error`
* `Itlib.Expected.C23_expected_value_void_partial`
* `Itlib.Expected.C23_expected_void_error_partial`
* `Itlib.Expected.C23_expected_void_move_assign_defect`
* `Itlib.Expected.C23_expected_void_void`
* `Itlib.Expected.C63_unexpected_ref_lvalue_defect`
* `Itlib.Expected.C63_unexpected_ref_partial`
* `Itlib.Expected.C63_unexpected_value_lvalue_defect`
* `Itlib.Expected.C63_unexpected_value_partial`
* `Itlib.Expected.C63_unexpected_void_lvalue_defect`
* `Itlib.Expected.C63_unexpected_void_partial`
* `Itlib.Expected.C76_noexcept_defect`
* `Itlib.Expected.C76_ref_error`
* `Itlib.Expected.C76_value_error`
* `Itlib.Expected.C76_value_void_partial`
* `Itlib.Expected.C76_void_error_partial`
* `Itlib.Flat.C15_converting_insert_defect`
* `Itlib.Flat.C15_flat_map`
* `Itlib.Flat.C15_flat_map_erase_function`
* `Itlib.Flat.C15_flat_map_index_function`
* `Itlib.Flat.C15_flat_map_insert_function`
* `Itlib.Flat.C15_flat_map_lookup_function`
* `Itlib.Flat.C16_flat_set`
* `Itlib.Flat.C17_construction`
* `Itlib.Flat.C18_lookup`
* `Itlib.Flat.C48_flat_eq`
* `Itlib.Flat.C48_flat_eq_elementwise`
* `Itlib.FlatAny.C80_absent`
* `Itlib.FlatAny.C80_failed_insert_defect`
* `Itlib.FlatAny.C80_safe`
* `Itlib.FlatOver.C57_defect_index_own_value`
* `Itlib.FlatOver.C57_flat_over_small_vector_partial`
* `Itlib.FlatOver.C57_flat_over_static_vector_partial`
* `Itlib.FlatOver.T.C66_failed_assign_defect`
* `Itlib.FlatOver.T.C66_user_exceptions_partial`
* `Itlib.FlatOver.T.C66_user_exceptions_small_vector_partial`
* `Itlib.FlatOver.T.C66_user_exceptions_static_vector_partial`
* `Itlib.FlatOver.T.C66_user_exceptions_std_vector_partial`
* `Itlib.Gen.C26_begin_finished_defect`
* `Itlib.Gen.C26_generator_history_partial`
* `Itlib.Gen.C26_next_sequence`
* `Itlib.Gen.C27_all_frames_destroyed_partial`
* `Itlib.Gen.C27_frame_destroyed_once_partial`
* `Itlib.Gen.C27_self_move_assign_defect`
* `Itlib.MakePtr.C78_failed`
* `Itlib.MakePtr.C78_no_leak`
* `Itlib.MakePtr.C78_refines`
* `Itlib.MemIn.C30_chunks`
* `Itlib.MemIn.C30_istream_history_partial`
* `Itlib.MemIn.C30_wrapping_read_defect`
* `Itlib.MemOut.C28_get_after_clear_partial`
* `Itlib.MemOut.C28_get_is_concatenation_partial`
* `Itlib.MemOut.C28_long_chunk_defect`
* `Itlib.MemOut.C29_file_history_partial`
* `Itlib.MemOut.C29_get_truncates_defect`
* `Itlib.MemOut.C29_peek_prefix`
* `Itlib.MemOut.C29_reuse_after_get`
* `Itlib.MemOut.C29_reuse_after_get_defect`
* `Itlib.MemOut.C29_seek_end_defect`
* `Itlib.MemOut.C29_seek_far_defect`
* `Itlib.MemOut.C64_assign_defect`
* `Itlib.MemOut.C64_copies_partial`
* `Itlib.MemOut.C64_copy_undefined_defect`
* `Itlib.MemOut.C64_copy_writes_original_defect`
* `Itlib.MemOut.C64_move_inline_defect`
* `Itlib.MemOut.C64_moved_from_defect`
* `Itlib.MemOut.C70_no_memory_partial`
* `Itlib.MemOut.C70_reserved_writes_succeed`
* `Itlib.MemOut.C70_retry`
* `Itlib.MemOut.C79_amortised_partial`
* `Itlib.MemOut.C79_clear_defect`
* `Itlib.MemOut.C79_exact_limit`
* `Itlib.MemOut.C79_text_linear`
* `Itlib.MemView.C34_memory_view_history`
* `Itlib.MemView.C34_reset_size`
* `Itlib.Pmr.C45_pmr_objects_balance`
* `Itlib.PodVector.C10_defect_insert_alias`
* `Itlib.PodVector.C10_defect_push_back_alias`
* `Itlib.PodVector.C10_pod_vector_sequence_partial`
* `Itlib.PodVector.C11_defect_resize_value`
* `Itlib.PodVector.C11_pod_vector_memory_partial`
* `Itlib.PodVector.C12_reserve_reports`
* `Itlib.PodVector.C12_resize_reports`
* `Itlib.PodVector.C12_resize_value_reports`
* `Itlib.PodVector.C12_shrink_to_fit_reports`
* `Itlib.PodVector.C13_data_aligned_partial`
* `Itlib.PodVector.C13_defect_recast_expand`
* `Itlib.PodVector.C13_defect_recast_misaligned`
* `Itlib.PodVector.C14_defect_self_recast`
* `Itlib.PodVector.C14_recast_copy`
* `Itlib.PodVector.C14_recast_round_trip`
* `Itlib.PodVector.C14_recast_take_partial`
* `Itlib.PodVector.C48_pod_vector_bytes_defect`
* `Itlib.PodVector.C48_pod_vector_eq`
* `Itlib.PodVector.C61_assign_double_free`
* `Itlib.PodVector.C61_assign_lost`
* `Itlib.PodVector.C61_pod_vector_bad_alloc_partial`
* `Itlib.PodVector.C61_reserve_null`
* `Itlib.PodVector.C67_defect_ctor`
* `Itlib.PodVector.C67_defect_insert`
* `Itlib.PodVector.C67_defect_reserve_endless`
* `Itlib.PodVector.C67_defect_reserve_short`
* `Itlib.PodVector.C67_machine_sizes_partial`
* `Itlib.PodVector.C68_pod_vector_amortised`
* `Itlib.PodVector.C68_pod_vector_reserved`
* `Itlib.PodVector.C83_pod_vector_history_partial`
* `Itlib.PodVector.C83_pod_vector_value`
* `Itlib.QAlg.C36_erase_all_alias_defect`
* `Itlib.QAlg.C36_erase_all_if`
* `Itlib.QAlg.C36_erase_all_if_throw`
* `Itlib.QAlg.C36_erase_all_partial`
* `Itlib.QAlg.C36_erase_first`
* `Itlib.QAlg.C36_erase_first_if`
* `Itlib.QAlg.C36_quantifiers`
* `Itlib.RStream.C31_redirect_reads_and_restores`
* `Itlib.RStream.C65_copy_moves_original_defect`
* `Itlib.RStream.Scope.C77_masked_read_defect`
* `Itlib.RStream.Scope.C77_redirect_exact`
* `Itlib.RStream.Scope.C77_scopes_partial`
* `Itlib.RStream.Scope.C77_terminates_only`
* `Itlib.RecMutex.C41_exclusive`
* `Itlib.RecMutex.C41_fails_iff_owned`
* `Itlib.RecMutex.C41_linearizable`
* `Itlib.RecMutex.C41_no_deadlock`
* `Itlib.RecMutex.C41_no_ub`
* `Itlib.RecMutex.C41_released`
* `Itlib.RecMutex.C62_rec_mutex_members`
* `Itlib.RecMutex.C62_rec_mutex_publishes`
* `Itlib.RecMutex.C69_rec_mutex_every_call_returns`
* `Itlib.RecMutex.C69_rec_mutex_some_call_returns`
* `Itlib.Sentry.C43_sentry_exactly_once`
* `Itlib.Sentry.C43_sentry_history`
* `Itlib.Sentry.C74_defect_moves_own_sentry`
* `Itlib.Sentry.C74_depth`
* `Itlib.Sentry.C74_exactly_once`
* `Itlib.Sentry.C74_sentry_programs`
* `Itlib.SharedFrom.C44_control_blocks`
* `Itlib.SharedFrom.C44_history`
* `Itlib.SharedFrom.C44_lifetime`
* `Itlib.SmallVector.C05_defect_assign_alias`
* `Itlib.SmallVector.C05_defect_erase_nothing`
* `Itlib.SmallVector.C05_defect_insert_alias_after_position`
* `Itlib.SmallVector.C05_defect_insert_alias_at_position`
* `Itlib.SmallVector.C05_defect_insert_nothing`
* `Itlib.SmallVector.C05_defect_push_back_alias_moves`
* `Itlib.SmallVector.C05_small_vector_sequence_partial`
* `Itlib.SmallVector.C06_small_vector_no_leaks_partial`
* `Itlib.SmallVector.C07_capacity_kept_partial`
* `Itlib.SmallVector.C07_defect_push_back_drops_reserve`
* `Itlib.SmallVector.C07_push_back_stable_partial`
* `Itlib.SmallVector.C07_reserve`
* `Itlib.SmallVector.C07_size_le_capacity_partial`
* `Itlib.SmallVector.C08_defect_revert_full`
* `Itlib.SmallVector.C08_revert_to_static_partial`
* `Itlib.SmallVector.C08_shrink_to_fit`
* `Itlib.SmallVector.C09_move_keeps_buffer_partial`
* `Itlib.SmallVector.C09_small_vector_copy_move_partial`
* `Itlib.SmallVector.C47_defect_small_vector_assign_alloc`
* `Itlib.SmallVector.C47_defect_small_vector_assign_throws`
* `Itlib.SmallVector.C47_defect_small_vector_push_back_throws`
* `Itlib.SmallVector.C47_small_vector_alloc_failure_strong`
* `Itlib.SmallVector.C47_small_vector_shrink_failure_strong`
* `Itlib.SmallVector.C48_small_vector_eq`
* `Itlib.SmallVector.C49_defect_resize_stays`
* `Itlib.SmallVector.C49_erase_reverts_partial`
* `Itlib.SmallVector.C58_fatal_call`
* `Itlib.SmallVector.C58_fatal_ctor`
* `Itlib.SmallVector.C58_small_vector_throwing_partial`
* `Itlib.SmallVector.C68_limit_seesaw`
* `Itlib.SmallVector.C68_small_vector_amortised`
* `Itlib.SmallVector.C68_small_vector_amortised_default`
* `Itlib.SmallVector.C68_small_vector_amortised_from`
* `Itlib.SmallVector.C71_defect_endless`
* `Itlib.SmallVector.C71_defect_insert`
* `Itlib.SmallVector.C71_machine_sizes_partial`
* `Itlib.SmallVector.C71_refused`
* `Itlib.SmallVector.C75_fatal_call`
* `Itlib.SmallVector.C75_noexcept_defect`
* `Itlib.SmallVector.C75_small_vector_moves_partial`
* `Itlib.SmallVector.C83_small_vector`
* `Itlib.SmallVector.C83_small_vector_history_partial`
* `Itlib.SmallVector.C83_small_vector_value`
* `Itlib.Span.C32_as_bytes`
* `Itlib.Span.C32_last_too_many_defect`
* `Itlib.Span.C32_span_history_partial`
* `Itlib.Span.C32_subspan_wrap_defect`
* `Itlib.StaticVector.C01_defect_assign_alias`
* `Itlib.StaticVector.C01_defect_insert_alias_after_position`
* `Itlib.StaticVector.C01_defect_insert_alias_at_position`
* `Itlib.StaticVector.C01_static_vector_sequence_partial`
* `Itlib.StaticVector.C02_static_vector_lifetimes_partial`
* `Itlib.StaticVector.C03_defect_assign_too_many`
* `Itlib.StaticVector.C03_static_vector_capacity_partial`
* `Itlib.StaticVector.C04_defect_self_move`
* `Itlib.StaticVector.C04_static_vector_copy_move_swap_partial`
* `Itlib.StaticVector.C47_defect_copy_ctor_leaks`
* `Itlib.StaticVector.C47_defect_insert_throws`
* `Itlib.StaticVector.C47_static_vector_basic_guarantee_partial`
* `Itlib.StaticVector.C47_static_vector_push_back_strong`
* `Itlib.StaticVector.C48_static_vector_eq`
* `Itlib.StaticVector.C60_fatal_call`
* `Itlib.StaticVector.C60_static_vector_throwing_partial`
* `Itlib.StaticVector.C73_fatal_call`
* `Itlib.StaticVector.C73_noexcept_defect`
* `Itlib.StaticVector.C73_static_vector_moves_partial`
* `Itlib.StaticVector.C83_history_partial`
* `Itlib.StaticVector.C83_untouched`
* `Itlib.StaticVector.C83_value`
* `Itlib.StrUtil.C35_ends_with`
* `Itlib.StrUtil.C35_remove_prefix_all`
* `Itlib.StrUtil.C35_remove_suffix_all`
* `Itlib.StrUtil.C35_starts_with`
* `Itlib.StrideSpan.C33_from_array_covers`
* `Itlib.StrideSpan.C33_from_array_offset_defect`
* `Itlib.StrideSpan.C33_iterator_laws`
* `Itlib.StrideSpan.C33_last_too_many_defect`
* `Itlib.StrideSpan.C33_poly_span_history_partial`
* `Itlib.StrideSpan.C33_stride_span_history_partial`
* `Itlib.StrideSpan.C33_zero_stride_defect`
* `Itlib.TimeT.C37_history`
* `Itlib.TimeT.C37_strftime_empty_defect`
* `Itlib.TimeT.C37_sum_difference`
* `Itlib.TimeT.C37_truncates`
* `Itlib.TypeTraits.C54_base_pointer_defect`
* `Itlib.TypeTraits.C54_bool_enum_defect`
* `Itlib.TypeTraits.C54_exact`
* `Itlib.TypeTraits.C54_float_format_defect`
* `Itlib.TypeTraits.C54_integral_exact`
* `Itlib.TypeTraits.C54_member_class_defect`
* `Itlib.TypeTraits.C54_no_cast_defect`
* `Itlib.TypeTraits.C54_null_member_defect`
* `Itlib.UFunction.C50_alloc_failure`
* `Itlib.UFunction.C50_history`
* `Itlib.UFunction.C50_history_alloc`
* `Itlib.UFunction.C50_null_pointer_defect`
* `Itlib.UFunction.C50_ownership`
* `Itlib.UFunction.C72_alloc`
* `Itlib.UFunction.C72_moved_inline`
* `Itlib.UFunction.C72_own_reset_defect`
* `Itlib.UFunction.C72_returns`
* `Itlib.UFunction.C72_undefined`
* `Itlib.UFunction.C72_unfinished`
* `Itlib.UMap.C51_history`
* `Itlib.UMap.C51_history_memory`
* `Itlib.UMap.T.C81_history`
* `Itlib.UMap.T.C81_retry`
* `Itlib.Utility.C46_padding_is_lost`

## Quot.sound, propext

* `Itlib.ASptr.C69_storage_starvation_limit`
* `Itlib.Bitset.C82_std_vector`
* `Itlib.Counter.C38_linearizable`
* `Itlib.Counter.C38_no_ub`
* `Itlib.Counter.C38_signed_overflow_defect`
* `Itlib.Expected.C76_ended_iff`
* `Itlib.FlatAny.C80_in_order`
* `Itlib.MemOut.C70_constructor`
* `Itlib.Pmr.C45_pmr_allocate_object_overflow_defect`
* `Itlib.PodVector.C13_align_ptr_real_addr`
* `Itlib.PodVector.C61_push_back_null`
* `Itlib.PodVector.C61_resize_null`
* `Itlib.PodVector.C83_pod_vector`
* `Itlib.QAlg.C36_erase_first_if_throw`
* `Itlib.QAlg.C36_find`
* `Itlib.QAlg.C36_find_if`
* `Itlib.RStream.C31_not_restored_after_failed_read_defect`
* `Itlib.RStream.C31_redirect_at_eof_defect`
* `Itlib.RStream.C31_redirect_history_partial`
* `Itlib.RStream.C65_redirects_any_order_partial`
* `Itlib.RStream.Scope.C77_open_failed`
* `Itlib.SmallVector.C58_alloc_failure_survived`
* `Itlib.SmallVector.C75_growth`
* `Itlib.SmallVector.C75_in_place_fatal`
* `Itlib.SmallVector.C75_lost_only_by_moves`
* `Itlib.StaticVector.C01_defect_erase_empty_range`
* `Itlib.StaticVector.C03_defect_insert_count_wraps`
* `Itlib.StaticVector.C60_fatal_iff_insert`
* `Itlib.StaticVector.C60_lost_only_by_ctor`
* `Itlib.StaticVector.C73_fatal_iff`
* `Itlib.StaticVector.C73_lost_only_by_ctor`
* `Itlib.StrUtil.C35_make_string_view`
* `Itlib.StrUtil.C35_maximal`
* `Itlib.StrideSpan.C33_iterator_difference_partial`
* `Itlib.StrideSpan.C33_negative_difference_defect`
* `Itlib.ThrowEx.C53_program_partial`
* `Itlib.ThrowEx.C53_unwinding_defect`
* `Itlib.TimeT.C37_strftime_partial`
* `Itlib.TypeTraits.C54_noop_partial`
* `Itlib.UMap.T.C81_value_lost_limit`
* `Itlib.Utility.C46_bit_cast`
* `Itlib.Utility.C46_bit_cast_round_trip`

## propext

* `Itlib.Expected.C76_alternatives`
* `Itlib.FlatAny.C80_finds_no_other`
* `Itlib.StrUtil.C35_empty_affix`
* `Itlib.ThrowEx.C53_exact`
* `Itlib.ThrowEx.C53_operand_defect`
* `Itlib.ThrowEx.C53_unwinding_ideal`
* `Itlib.UFunction.C72_moved_heap`
* `Itlib.UMap.Types.C52_calls_partial`
* `Itlib.UMap.Types.C52_hash_irrelevant_defect`
* `Itlib.UMap.Types.C52_hint_defect`
* `Itlib.UMap.Types.C52_lvalue_defect`
* `Itlib.UMap.Types.C52_member_defect`
* `Itlib.Utility.C46_owner_from_member`
* `Itlib.Utility.C46_owner_nested`
* `Itlib.Utility.C46_owner_unique`
