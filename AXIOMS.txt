'Props.C01_queue_is_bounded_fifo' depends on axioms: [propext, Classical.choice, Quot.sound]
'Props.C02_queue_interleaving_safe' depends on axioms: [propext, Classical.choice, Quot.sound]
'Props.C02_queue_takes_prefix_of_pushes' depends on axioms: [propext, Classical.choice, Quot.sound]
'Props.C02_queue_no_loss' depends on axioms: [propext, Classical.choice, Quot.sound]
'Props.C02_queue_push_succeeds' depends on axioms: [propext, Classical.choice, Quot.sound]
'Props.C02_queue_no_slot_conflict' depends on axioms: [propext, Classical.choice, Quot.sound]
'Props.C03_deque_refines_list' depends on axioms: [propext, Classical.choice, Quot.sound]
'Props.C04_deque_indexing' depends on axioms: [propext, Classical.choice, Quot.sound]
'Props.C05_deque_iteration_partial' depends on axioms: [propext, Classical.choice, Quot.sound]
'Props.C05_deque_iterator_decrement_partial' depends on axioms: [propext, Classical.choice, Quot.sound]
'Props.C05_deque_empty_iteration_counterexample' depends on axioms: [propext, Classical.choice, Quot.sound]
'Props.C05_deque_decrement_end_counterexample' depends on axioms: [propext]
'Props.LinkedList.C06_linkedList_refines_sequence' depends on axioms: [propext, Classical.choice, Quot.sound]
'Props.LinkedList.C06_remove_returns_successor' depends on axioms: [propext, Classical.choice, Quot.sound]
'Props.DoublyLinkedList.C07_doublyLinkedList_refines_sequence' depends on axioms: [propext, Classical.choice, Quot.sound]
'Props.DoublyLinkedList.C07_erase_returns_successor' depends on axioms: [propext, Classical.choice, Quot.sound]
'Props.DynamicArray.C08_runs_partial' depends on axioms: [propext, Classical.choice, Quot.sound]
'Props.DynamicArray.C08_contents_partial' depends on axioms: [propext, Classical.choice, Quot.sound]
'Props.DynamicArray.C08_no_leak_partial' depends on axioms: [propext, Classical.choice, Quot.sound]
'Props.DynamicArray.C08_find_partial' depends on axioms: [propext, Classical.choice, Quot.sound]
'Props.DynamicArray.C08_reserve_partial' depends on axioms: [propext, Classical.choice, Quot.sound]
'Props.DynamicArray.C08_append_own_element_counterexample' depends on axioms: [propext, Classical.choice, Quot.sound]
'Props.DynamicArray.C08_append_own_element_room_partial' depends on axioms: [propext, Classical.choice, Quot.sound]
'Props.DynamicArray.C08_self_assignment_counterexample' depends on axioms: [propext, Classical.choice, Quot.sound]
'Props.DynamicArray.C08_reserve_overflow_counterexample' depends on axioms: [propext]
'Props.SmartPointer.C09_runs_partial' depends on axioms: [propext, Classical.choice, Quot.sound]
'Props.SmartPointer.C09_freed_with_last_handle_partial' depends on axioms: [propext, Classical.choice, Quot.sound]
'Props.SmartPointer.C09_counter_wraps_counterexample' depends on axioms: [propext]
'Props.SmartPointer.C09_self_assignment_counterexample' depends on axioms: [propext, Classical.choice, Quot.sound]
'Props.C10_timeout_expiry' depends on axioms: [propext, Classical.choice, Quot.sound]
'Props.C11_timeout_history' depends on axioms: [propext, Classical.choice, Quot.sound]
'Props.C11_timeout_history' depends on axioms: [propext, Classical.choice, Quot.sound]
'Props.C11_timeout_fires_at_most_once' depends on axioms: [propext, Quot.sound]
'Props.C11_timeout_silent_after_stop' depends on axioms: [propext, Quot.sound]
'Props.C12_remaining_exact' depends on axioms: [propext, Quot.sound]
'Props.C12_remaining_partial' depends on axioms: [propext, Quot.sound]
'Props.C12_remaining_wrap_counterexample' depends on axioms: [propext, Quot.sound]
'Props.C13_periodic_partial' depends on axioms: [propext, Quot.sound]
'Props.C13_periodic_not_due' depends on axioms: [propext, Quot.sound]
'Props.C13_periodic_phase' depends on axioms: [propext, Quot.sound]
'Props.C13_periodic_count_counterexample' depends on axioms: [propext, Quot.sound]
'Props.C14_interval_partial' depends on axioms: [propext, Quot.sound]
'Props.C14_interval_counterexample' does not depend on any axioms
'Props.Scheduler.C15_runs_due_tasks_in_order_partial' depends on axioms: [propext, Classical.choice, Quot.sound]
'Props.Scheduler.C15_order_is_fixed' depends on axioms: [propext, Classical.choice, Quot.sound]
'Props.Scheduler.C15_priority_zero_counterexample' depends on axioms: [propext, Classical.choice, Quot.sound]
'Props.Scheduler.C15_priority_zero_never_runs' depends on axioms: [propext, Quot.sound]
'Props.Scheduler.C15_overrun_hangs_counterexample' depends on axioms: [propext, Classical.choice, Quot.sound]
'Props.PtSemaphore.C16_never_over_grants' depends on axioms: [propext, Classical.choice, Quot.sound]
'Props.PtSemaphore.C16_fails_only_when_empty_partial' depends on axioms: [propext, Classical.choice, Quot.sound]
'Props.PtSemaphore.C16_release_wraps_counterexample' does not depend on any axioms
'Props.Fiber.C17_agrees_with_queue' depends on axioms: [propext, Classical.choice, Quot.sound]
'Props.Fiber.C17_runs' depends on axioms: [propext, Classical.choice, Quot.sound]
'Props.Fiber.C17_round_robin' depends on axioms: [propext, Classical.choice, Quot.sound]
'Props.C18_bitReverse8' depends on axioms: [propext, Classical.choice, Quot.sound]
'Props.C18_bitReverse16' depends on axioms: [propext, Classical.choice, Quot.sound]
'Props.C18_bitReverse32' depends on axioms: [propext, Classical.choice, Quot.sound]
'Props.C19_bitCount8' depends on axioms: [propext, Quot.sound]
'Props.C19_bitCount16' depends on axioms: [propext, Quot.sound]
'Props.C19_bitCount32' depends on axioms: [propext, Classical.choice, Quot.sound]
'Props.C19_leftmostBit' depends on axioms: [propext, Quot.sound]
'Props.C20_swap8' depends on axioms: [propext, Classical.choice, Quot.sound]
'Props.C20_swap16' depends on axioms: [propext, Classical.choice, Quot.sound]
'Props.C20_swap32' depends on axioms: [propext, Classical.choice, Quot.sound]
'Props.C20_swap_involutive' depends on axioms: [propext, Classical.choice, Quot.sound]
'Props.C20_bigEndian_memory' depends on axioms: [propext, Classical.choice, Quot.sound]
'Props.C21_crc8_detects_low_bits_partial' depends on axioms: [propext, Quot.sound]
'Props.C21_crc8_misses_bit7_counterexample' depends on axioms: [propext, Quot.sound]
'Props.C21_crc8_not_ccitt_counterexample' depends on axioms: [propext, Quot.sound]
'Props.C22_crc16_is_remainder' depends on axioms: [propext, Classical.choice, Quot.sound]
'Props.C22_crc16_value' depends on axioms: [propext, Classical.choice, Quot.sound]
'Props.C22_generator' depends on axioms: [propext, Classical.choice, Quot.sound]
'Props.C22_crc16_remainder_determines' depends on axioms: [propext, Classical.choice, Quot.sound]
'Props.C22_crc16_detects_two_bytes' depends on axioms: [propext, Classical.choice, Quot.sound]
'Props.C22_crc16_linear' depends on axioms: [propext, Classical.choice, Quot.sound]
'Props.C23_crc32_is_remainder' depends on axioms: [propext, Classical.choice, Quot.sound]
'Props.C23_crc32_value' depends on axioms: [propext, Classical.choice, Quot.sound]
'Props.C23_generator' depends on axioms: [propext, Classical.choice, Quot.sound]
'Props.C23_crc32_detects_four_bytes' depends on axioms: [propext, Classical.choice, Quot.sound]
'Props.C23_crc32_residue' depends on axioms: [propext, Classical.choice, Quot.sound]
'Props.C24_add_clamps_partial' depends on axioms: [propext, Classical.choice, Quot.sound]
'Props.C24_sub_clamps_partial' depends on axioms: [propext, Classical.choice, Quot.sound]
'Props.C24_inc_dec' depends on axioms: [propext, Quot.sound]
'Props.C24_min_operand_counterexample' does not depend on any axioms
'Props.C25_mul_unsigned' depends on axioms: [propext, Classical.choice, Quot.sound]
'Props.C25_mul_signed_partial' depends on axioms: [propext, Classical.choice, Quot.sound]
'Props.C25_mul_counterexamples' does not depend on any axioms
'Props.C25_mul_underflow_wrong' depends on axioms: [propext, Classical.choice, Quot.sound]
'Props.C26_median_filter' depends on axioms: [propext, Classical.choice, Quot.sound]
'Props.C26_median_unique' depends on axioms: [propext, Quot.sound]
'Props.C26_append_keeps_value' depends on axioms: [propext]
'Props.C27_moving_average' depends on axioms: [propext, Classical.choice, Quot.sound]
'Props.C27_moving_average_recovers' depends on axioms: [propext, Classical.choice, Quot.sound]
'Props.C27_reset' depends on axioms: [propext, Classical.choice, Quot.sound]
'Props.C28_fir' depends on axioms: [propext, Classical.choice, Quot.sound]
'Props.C28_fir_int' depends on axioms: [propext, Classical.choice, Quot.sound]
'Props.C29_limits' depends on axioms: [propext, Classical.choice, Quot.sound]
'Props.C29_value_partial' depends on axioms: [propext, Classical.choice, Quot.sound]
'Props.C29_int16_never_negative' depends on axioms: [propext, Classical.choice, Quot.sound]
'Props.C29_documented_example' does not depend on any axioms
'Props.C29_error_sum_wraps_counterexample' does not depend on any axioms
'Props.C30_ramp_partial' depends on axioms: [propext, Classical.choice, Quot.sound]
'Props.C30_ramp_unsigned' depends on axioms: [propext, Classical.choice, Quot.sound]
'Props.C30_ramp_counterexample' does not depend on any axioms
'Props.C30_reset_stale' does not depend on any axioms
'Props.C31_hysteresis' depends on axioms: [propext, Classical.choice, Quot.sound]
'Props.C31_glitch_immunity' depends on axioms: [propext, Classical.choice, Quot.sound]
'Props.C31_response' depends on axioms: [propext, Classical.choice, Quot.sound]
'Props.C31_counter_in_range' depends on axioms: [propext, Classical.choice, Quot.sound]
'Props.C31_init_reset' depends on axioms: [propext, Quot.sound]
'Props.C31_reset_immunity' depends on axioms: [propext, Classical.choice, Quot.sound]
'Props.C32_range_partial' depends on axioms: [propext, Classical.choice, Quot.sound]
'Props.C32_range_step_one' depends on axioms: [propext, Classical.choice, Quot.sound]
'Props.C32_range_empty' depends on axioms: [propext, Classical.choice, Quot.sound]
'Props.C32_range_wraps_forever' depends on axioms: [propext, Classical.choice, Quot.sound]
'Props.C32_range_wrong_values' does not depend on any axioms
'Props.C33_from_range' depends on axioms: [propext, Classical.choice, Quot.sound]
'Props.C33_from_function' depends on axioms: [propext, Classical.choice, Quot.sound]
'Props.C33_from_linear' depends on axioms: [propext, Classical.choice, Quot.sound]
'Props.C33_from_linear_wraps' depends on axioms: [propext, Classical.choice, Quot.sound]
'Props.C33_from_power' depends on axioms: [propext, Classical.choice, Quot.sound]
'Props.C34_counter_partial' depends on axioms: [propext, Classical.choice, Quot.sound]
'Props.C34_skipped_prescaler_counterexample' depends on axioms: [propext, Classical.choice, Quot.sound]
'Props.C34_overflow_counterexample' depends on axioms: [propext, Classical.choice, Quot.sound]
'Props.C35_clamp' depends on axioms: [propext, Quot.sound]
'Props.C35_linear_partial' depends on axioms: [propext, Classical.choice, Quot.sound]
'Props.C35_exact_at_points_partial' depends on axioms: [propext, Classical.choice, Quot.sound]
'Props.C35_unsigned_output_counterexample' does not depend on any axioms
'Props.C35_signed_input_counterexample' does not depend on any axioms
'Props.C35_unsigned_input_counterexample' does not depend on any axioms
'Props.C35_product_overflow_counterexample' does not depend on any axioms
'Props.Sab.C36_sends_frame' depends on axioms: [propext, Classical.choice, Quot.sound]
'Props.Sab.C36_receives_every_frame' depends on axioms: [propext, Classical.choice, Quot.sound]
'Props.Sab.C36_round_trip' depends on axioms: [propext, Classical.choice, Quot.sound]
'Props.Sab.C37_memory_safe' depends on axioms: [propext, Classical.choice, Quot.sound]
'Props.Sab.C37_resynchronises' depends on axioms: [propext, Classical.choice, Quot.sound]
'Props.Sab.C37_bound_tight' depends on axioms: [propext, Quot.sound]
'Props.Sab.C38_new_message_is_frame_partial' depends on axioms: [propext, Classical.choice, Quot.sound]
'Props.Sab.C38_intact_without_sync_partial' depends on axioms: [propext, Quot.sound]
'Props.Sab.C38_overwritten_counterexample' depends on axioms: [propext, Quot.sound]
'Props.Sab.C38_bad_frame_replaces_counterexample' depends on axioms: [propext, Quot.sound]
'Props.Sab.C39_single_byte_error' depends on axioms: [propext, Classical.choice, Quot.sound]
'Props.Sab2.C40_sends_frame' depends on axioms: [propext, Classical.choice, Quot.sound]
'Props.Sab2.C40_round_trip' depends on axioms: [propext, Classical.choice, Quot.sound]
'Props.Sab2.C40_round_trip_initial' depends on axioms: [propext, Classical.choice, Quot.sound]
'Props.Sab2.size_fits' depends on axioms: [propext, Quot.sound]
'Props.Sab2.C40_size_wraps_counterexample' depends on axioms: [propext, Classical.choice, Quot.sound]
'Props.Sab2.C41_memory_safe' depends on axioms: [propext, Classical.choice, Quot.sound]
'Props.Sab2.C41_pending_untouched' depends on axioms: [propext, Quot.sound]
'Props.Sab2.C41_overlong_partial' depends on axioms: [propext, Classical.choice, Quot.sound]
'Props.Sab2.C41_overlong_reported_counterexample' depends on axioms: [propext, Classical.choice, Quot.sound]
'Props.Rpr.C42_sends_frame' depends on axioms: [propext, Classical.choice, Quot.sound]
'Props.Rpr.C42_node_to_node_partial' depends on axioms: [propext, Classical.choice, Quot.sound]
'Props.Rpr.C42_received_partial' depends on axioms: [propext, Classical.choice, Quot.sound]
'Props.Rpr.C42_bad_checksum' depends on axioms: [propext, Classical.choice, Quot.sound]
'Props.Rpr.C42_payload_counterexample' depends on axioms: [propext, Classical.choice, Quot.sound]
'Props.Rpr.C43_memory_safe_partial' depends on axioms: [propext, Classical.choice, Quot.sound]
'Props.Rpr.C43_length_wraps_counterexample' depends on axioms: [propext, Classical.choice, Quot.sound]
'Props.Rpr.C44_single_message_partial' depends on axioms: [propext, Classical.choice, Quot.sound]
'Props.Rpr.C44_second_lost_counterexample' depends on axioms: [propext, Quot.sound]
'Props.Rpr.C44_direct_send_drops_counterexample' depends on axioms: [propext, Quot.sound]
'Props.Lawicel.C45_round_trip' depends on axioms: [propext, Classical.choice, Quot.sound]
'Props.Lawicel.C45_writes' depends on axioms: [propext, Classical.choice, Quot.sound]
'Props.Lawicel.C45_parses' depends on axioms: [propext, Classical.choice, Quot.sound]
'Props.Lawicel.C45_parser_safe' depends on axioms: [propext, Classical.choice, Quot.sound]
'Props.Lawicel.C45_rejects_partial' depends on axioms: [propext, Classical.choice, Quot.sound]
'Props.Lawicel.C45_any_letter_counterexample' depends on axioms: [propext, Classical.choice, Quot.sound]
'Props.Lawicel.C45_long_message_rejected' depends on axioms: [propext, Classical.choice, Quot.sound]
'Props.C46_bounded_queue_is_fifo' depends on axioms: [propext, Classical.choice, Quot.sound]
'Props.C46_bounded_stack_is_lifo' depends on axioms: [propext, Classical.choice, Quot.sound]
'Props.C47_convert_clamps' depends on axioms: [propext, Classical.choice, Quot.sound]
'Props.C47_fitsAny_holds_both' depends on axioms: [propext, Classical.choice, Quot.sound]
'Props.C47_fitsAny_compiles' does not depend on any axioms
'Props.C48_neg_unsigned' depends on axioms: [propext, Classical.choice, Quot.sound]
'Props.C48_neg_signed_partial' depends on axioms: [propext, Quot.sound]
'Props.C48_neg_min_wrong' does not depend on any axioms
'Props.C49_lagrange_polynomial' depends on axioms: [propext, Classical.choice, Quot.sound]
'Props.C49_lagrange_at_points' depends on axioms: [propext, Classical.choice, Quot.sound]
'Props.Sab.C50_slave_answers' depends on axioms: [propext, Classical.choice, Quot.sound]
'Props.Sab.C50_always_answers' depends on axioms: [propext]
'Props.Sab.C50_response_frames' depends on axioms: [propext, Classical.choice, Quot.sound]
'Props.Sab.C51_query_round_trip' depends on axioms: [propext, Classical.choice, Quot.sound]
'Props.Sab.C52_completion_partial' depends on axioms: [propext, Quot.sound]
'Props.Sab.C52_stale_answer_counterexample' depends on axioms: [propext, Quot.sound]
'Props.Sab2.C53_corrupted_content_partial' depends on axioms: [propext, Classical.choice, Quot.sound]
'Props.Sab2.C53_boundary_counterexample' depends on axioms: [propext, Quot.sound]
'Props.Sab2.C54_reported_is_frame_partial' depends on axioms: [propext, Classical.choice, Quot.sound]
'Props.Sab2.unstuff_stuff' depends on axioms: [propext, Quot.sound]
'Props.Rpr.C55_forwards' depends on axioms: [propext, Classical.choice, Quot.sound]
'Props.Rpr.C56_broadcast_ring' depends on axioms: [propext, Classical.choice, Quot.sound]
'Props.Rpr.C56_unicast_ring' depends on axioms: [propext, Classical.choice, Quot.sound]
'Props.Can.C57_set_length' depends on axioms: [propext, Quot.sound]
'Props.Can.C57_set_dlc' depends on axioms: [propext, Quot.sound]
'Props.Can.C57_from_number' depends on axioms: [propext, Classical.choice, Quot.sound]
'Props.Can.C57_dlc_out_of_range' depends on axioms: [propext, Quot.sound]
'Props.Can.C58_base_decides' depends on axioms: [propext, Quot.sound]
'Props.Can.C58_order' depends on axioms: [propext, Classical.choice, Quot.sound]
'Props.Can.C58_eq' depends on axioms: [propext]
'Props.Can.C58_tie' depends on axioms: [propext]
'Props.Scheduler.C59_nothing_higher_partial' depends on axioms: [propext, Classical.choice, Quot.sound]
'Props.Scheduler.C59_lower_preempts_counterexample' does not depend on any axioms
'Props.BlockAllocator.C60_defined' depends on axioms: [propext, Classical.choice, Quot.sound]
'Props.BlockAllocator.C60_separate' depends on axioms: [propext, Classical.choice, Quot.sound]
'Props.BlockAllocator.C60_keeps_data' depends on axioms: [propext, Classical.choice, Quot.sound]
'Props.BlockAllocator.C60_aligned' depends on axioms: [propext, Classical.choice, Quot.sound]
'Props.BlockAllocator.C60_huge_request_counterexample' depends on axioms: [propext]
'Props.BlockAllocator.C60_large_heap_counterexample' does not depend on any axioms
'Props.BlockAllocator.C61_fails_only_without_gap' depends on axioms: [propext, Classical.choice, Quot.sound]
'Props.BlockAllocator.C61_all_freed' depends on axioms: [propext, Classical.choice, Quot.sound]
'Props.BlockAllocator.C61_available' depends on axioms: [propext, Classical.choice, Quot.sound]
'Props.XpccCan.C62_round_trip' depends on axioms: [propext, Classical.choice, Quot.sound]
'Props.XpccCan.C62_range' depends on axioms: [propext, Quot.sound]
'Props.XpccCan.C62_filters' depends on axioms: [propext, Classical.choice, Quot.sound]
'Props.XpccCan.C63_any_order' depends on axioms: [propext, Classical.choice, Quot.sound]
'Props.XpccCan.C63_short' depends on axioms: [propext, Classical.choice, Quot.sound]
'Props.XpccCan.C64_memory_safe_partial' depends on axioms: [propext, Classical.choice, Quot.sound]
'Props.XpccCan.C64_memory_safe_counterexample' depends on axioms: [propext, Quot.sound]
'Props.XpccCan.C65_lossless_partial' depends on axioms: [propext, Classical.choice, Quot.sound]
'Props.XpccCan.C65_in_order_partial' depends on axioms: [propext, Classical.choice, Quot.sound]
'Props.XpccCan.C65_drains_partial' depends on axioms: [propext, Classical.choice, Quot.sound]
'Props.XpccCan.C65_overtakes_counterexample' depends on axioms: [propext, Quot.sound]
'Props.XpccCan.C65_long_packet_counterexample' depends on axioms: [propext, Quot.sound]
'Props.XpccCan.C65_two_connectors_counterexample' depends on axioms: [propext, Quot.sound]
'Props.Amnb.C66_small_round_trip' depends on axioms: [propext, Classical.choice, Quot.sound]
'Props.Amnb.C66_large_round_trip_partial' depends on axioms: [propext, Classical.choice, Quot.sound]
'Props.Amnb.C66_long_payload_lost_counterexample' depends on axioms: [propext, Classical.choice, Quot.sound]
'Props.Amnb.C67_header_partial' depends on axioms: [propext, Classical.choice, Quot.sound]
'Props.Amnb.C67_header_bit7_counterexample' depends on axioms: [propext, Classical.choice, Quot.sound]
'Props.Amnb.C67_data_detected' depends on axioms: [propext, Classical.choice, Quot.sound]
'Props.Amnb.C68_safe_partial' depends on axioms: [propext, Classical.choice, Quot.sound]
'Props.Amnb.C68_small_safe_partial' depends on axioms: [propext, Classical.choice, Quot.sound]
'Props.Amnb.C68_stale_pointer_counterexample' depends on axioms: [propext, Quot.sound]
'Props.Amnb.C68_unwanted_counterexample' depends on axioms: [propext, Quot.sound]
'Props.Amnb.C68_wild_free_counterexample' depends on axioms: [propext, Quot.sound]
'Props.Amnb.C69_dispatch' depends on axioms: [propext, Classical.choice, Quot.sound]
'Props.Encoder.C70_counts_exactly' depends on axioms: [propext, Classical.choice, Quot.sound]
'Props.Encoder.C70_ideal_conserves' depends on axioms: [propext, Classical.choice, Quot.sound]
'Props.Encoder.C70_init' depends on axioms: [propext, Quot.sound]
'Props.Encoder.C71_reaches_setpoint' depends on axioms: [propext, Quot.sound]
'Props.Encoder.C71_forward_partial' depends on axioms: [propext, Quot.sound]
'Props.Encoder.C71_backward_counterexample' depends on axioms: [propext, Quot.sound]
'Props.Encoder.C72_delta_partial' depends on axioms: [propext, Quot.sound]
'Props.Encoder.C72_delta32_counterexample' depends on axioms: [propext]
'Props.Encoder.C73_even_parity' depends on axioms: [propext, Classical.choice, Quot.sound]
'Props.Date.C74_toDate' depends on axioms: [propext, Classical.choice, Quot.sound]
'Props.Date.C74_date_unique' depends on axioms: [propext, Quot.sound]
'Props.Date.C74_toUnixTimestamp' depends on axioms: [propext, Classical.choice, Quot.sound]
'Props.Date.C74_round_trip' depends on axioms: [propext, Classical.choice, Quot.sound]
'Props.Date.C74_beyond_range_counterexample' depends on axioms: [propext]
'Props.Date.C75_dayOfTheYear_partial' depends on axioms: [propext, Classical.choice, Quot.sound]
'Props.Date.C75_dayOfTheYear_counterexample' depends on axioms: [propext]
'Props.Register.C76_change' depends on axioms: [propext, Classical.choice, Quot.sound]
'Props.Register.C76_ask' depends on axioms: [propext, Classical.choice, Quot.sound]
'Props.Register.C76_ask_bit' depends on axioms: [propext, Classical.choice, Quot.sound]
'Props.Register.C76_all_enum_of_two_bits_counterexample' depends on axioms: [propext, Quot.sound]
'Props.Register.C77_value_get' depends on axioms: [propext, Classical.choice, Quot.sound]
'Props.Register.C77_value_set' depends on axioms: [propext, Classical.choice, Quot.sound]
'Props.Register.C77_value_independent' depends on axioms: [propext, Classical.choice, Quot.sound]
'Props.Register.C77_value_reset' depends on axioms: [propext, Quot.sound]
'Props.Register.C77_configuration_partial' depends on axioms: [propext, Classical.choice, Quot.sound]
'Props.Register.C77_configuration_counterexample' depends on axioms: [propext, Quot.sound]
'Props.Color.C78_components' depends on axioms: [propext, Classical.choice, Quot.sound]
'Props.Color.C78_round_trip' depends on axioms: [propext, Classical.choice, Quot.sound]
'Props.Color.C78_loss' depends on axioms: [propext, Classical.choice, Quot.sound]
'Props.Color.C78_add' depends on axioms: [propext, Classical.choice, Quot.sound]
'Props.Color.C78_sub' depends on axioms: [propext, Classical.choice, Quot.sound]
'Props.Color.C78_widen_narrow' depends on axioms: [propext, Classical.choice, Quot.sound]
'Props.Color.C78_uint16_counterexample' depends on axioms: [propext]
'Props.Color.C79_hsv' depends on axioms: [propext, Classical.choice, Quot.sound]
'Props.Color.C79_value' depends on axioms: [propext, Classical.choice, Quot.sound]
'Props.Color.C79_uint16_counterexample' depends on axioms: [propext]
'Props.Button.C80_debounce' depends on axioms: [propext, Classical.choice, Quot.sound]
'Props.Button.C80_getState' depends on axioms: [propext, Classical.choice, Quot.sound]
'Props.Button.C81_events' depends on axioms: [propext, Classical.choice, Quot.sound]
'Props.Button.C82_repeat' depends on axioms: [propext, Quot.sound]
'Props.Button.C82_reported_once' depends on axioms: [propext, Classical.choice, Quot.sound]
'Props.Button.C82_shared_counter_counterexample' depends on axioms: [propext, Quot.sound]
'Props.OneWire.C83_enumerate' depends on axioms: [propext, Classical.choice, Quot.sound]
'Props.OneWire.C83_order' depends on axioms: [propext, Classical.choice, Quot.sound]
'Props.OneWire.C83_found_is_present' depends on axioms: [propext, Classical.choice, Quot.sound]
'Props.OneWire.C84_family_partial' depends on axioms: [propext, Classical.choice, Quot.sound]
'Props.OneWire.C84_family_counterexample' depends on axioms: [propext, Quot.sound]
'Props.OneWire.C85_skip_next_partial' depends on axioms: [propext, Classical.choice, Quot.sound]
'Props.OneWire.C85_families_partial' depends on axioms: [propext, Classical.choice, Quot.sound]
'Props.OneWire.C85_skip_counterexample' depends on axioms: [propext, Quot.sound]
'Props.OneWire.C86_verify_partial' depends on axioms: [propext, Classical.choice, Quot.sound]
'Props.OneWire.C86_verified_is_present' depends on axioms: [propext, Classical.choice, Quot.sound]
'Props.OneWire.C86_verify_counterexample' depends on axioms: [propext, Quot.sound]
'Props.OneWire.C87_writeByte' depends on axioms: [propext, Quot.sound]
'Props.OneWire.C87_readByte' depends on axioms: [propext, Quot.sound]
'Props.OneWire.C87_round_trip' depends on axioms: [propext, Quot.sound]
'Props.OneWire.C87_touchByte' depends on axioms: [propext, Quot.sound]
'Props.Mono.C88_vertical_partial' depends on axioms: [propext, Classical.choice, Quot.sound]
'Props.Mono.C88_horizontal_partial' depends on axioms: [propext, Classical.choice, Quot.sound]
'Props.Mono.C88_cleared' depends on axioms: [propext, Classical.choice, Quot.sound]
'Props.Mono.C88_negative_counterexample' depends on axioms: [propext, Classical.choice, Quot.sound]
'Props.Display.C88_clear_point_counterexample' depends on axioms: [propext]
'Props.Display.C89_line' depends on axioms: [propext, Classical.choice, Quot.sound]
'Props.Display.C89_line_counterexample' depends on axioms: [propext, Quot.sound]
'Props.Display.C90_straight_lines' depends on axioms: [propext, Classical.choice, Quot.sound]
'Props.Display.C90_rectangle_partial' depends on axioms: [propext, Classical.choice, Quot.sound]
'Props.Display.C90_image' depends on axioms: [propext, Classical.choice, Quot.sound]
'Props.Display.C90_rectangle_counterexample' depends on axioms: [propext, Quot.sound]
'Props.Display.C91_circle' depends on axioms: [propext, Classical.choice, Quot.sound]
'Props.Mono.C92_horizontal_partial' depends on axioms: [propext, Classical.choice, Quot.sound]
'Props.Mono.C92_vertical_partial' depends on axioms: [propext, Classical.choice, Quot.sound]
'Props.Mono.C92_image_partial' depends on axioms: [propext, Classical.choice, Quot.sound]
'Props.Mono.C92_lines_counterexample' depends on axioms: [propext, Quot.sound]
'Props.Mono.C92_image_counterexample' depends on axioms: [propext, Quot.sound]
'Props.Display.C93_rectangle_partial' depends on axioms: [propext, Classical.choice, Quot.sound]
'Props.Display.C93_circle_partial' depends on axioms: [propext, Classical.choice, Quot.sound]
'Props.Display.C93_rectangle_counterexample' does not depend on any axioms
'Props.Display.C93_circle_counterexample' depends on axioms: [propext, Quot.sound]
'Props.Display.C94_rounded_partial' depends on axioms: [propext, Classical.choice, Quot.sound]
'Props.Display.C94_rounded_counterexample' depends on axioms: [propext, Quot.sound]
'Props.Mono.C95_write_partial' depends on axioms: [propext, Classical.choice, Quot.sound]
'Props.Mono.C95_outside' depends on axioms: [propext, Quot.sound]
'Props.Mono.C95_newline' depends on axioms: [propext, Quot.sound]
'Props.Mono.C95_width_partial' depends on axioms: [propext, Classical.choice, Quot.sound]
'Props.Mono.C95_width_counterexample' depends on axioms: [propext]
'Props.Mono.C95_write_counterexample' depends on axioms: [propext]
'Props.Resumable.C96_fiber_partial' depends on axioms: [propext, Classical.choice, Quot.sound]
'Props.Resumable.C96_idle_again_partial' depends on axioms: [propext, Classical.choice, Quot.sound]
'Props.Resumable.C96_blocking_partial' depends on axioms: [propext, Classical.choice, Quot.sound]
'Props.Resumable.C96_static_assert' depends on axioms: [propext, Classical.choice, Quot.sound]
'Props.Resumable.C96_argument_counterexample' depends on axioms: [propext, Quot.sound]
'Props.Resumable.C97_exclusive_partial' depends on axioms: [propext, Classical.choice, Quot.sound]
'Props.Resumable.C97_same_file' depends on axioms: [propext, Quot.sound]
'Props.Resumable.C97_two_files_counterexample' depends on axioms: [propext, Quot.sound]
'Props.Resumable.C98_memory_safe_partial' depends on axioms: [propext, Classical.choice, Quot.sound]
'Props.Resumable.C98_too_deep' depends on axioms: [propext, Quot.sound]
'Props.Resumable.C98_unchecked_counterexample' depends on axioms: [propext, Quot.sound]
'Props.Resumable.C98_running_counterexample' depends on axioms: [propext, Quot.sound]
'Props.Resumable.C99_stop_all' depends on axioms: [propext, Classical.choice, Quot.sound]
'Props.Resumable.C99_stop_one' depends on axioms: [propext, Quot.sound]
'Props.Resumable.C99_queries' depends on axioms: [propext, Classical.choice, Quot.sound]
'Props.Resumable.C99_nested_stop' depends on axioms: [propext, Classical.choice, Quot.sound]
'Props.Resumable.C99_stop_idle' depends on axioms: [propext, Classical.choice, Quot.sound]
'Props.Resumable.C99_depth' depends on axioms: [propext, Quot.sound]
'Props.Resumable.C99_single' depends on axioms: [propext, Classical.choice, Quot.sound]
'Props.Resumable.C100_ended' depends on axioms: [propext, Classical.choice, Quot.sound]
'Props.Resumable.C100_running' depends on axioms: [propext, Classical.choice, Quot.sound]
'Props.Resumable.C100_stop' depends on axioms: [propext]
'Props.Resumable.C101_return' depends on axioms: [propext, Classical.choice, Quot.sound]
'Props.Resumable.C101_end_counterexample' depends on axioms: [propext, Classical.choice, Quot.sound]
'Props.Storage.C102_heap' depends on axioms: [propext, Quot.sound]
'Props.Storage.C102_heap_refuses_partial' depends on axioms: [propext]
'Props.Storage.C102_heap_counterexample' depends on axioms: [propext, Classical.choice, Quot.sound]
'Props.Storage.C102_file' depends on axioms: [propext, Classical.choice, Quot.sound]
'Props.Storage.C102_file_refuses_partial' depends on axioms: [propext]
'Props.Storage.C102_file_init' depends on axioms: [propext, Quot.sound]
'Props.Storage.C102_file_counterexample' depends on axioms: [propext, Quot.sound]
'Props.Storage.C103_mirror_partial' depends on axioms: [propext, Quot.sound]
'Props.Storage.C103_both' depends on axioms: [propext, Quot.sound]
'Props.Storage.C103_failure_counterexample' depends on axioms: [propext, Quot.sound]
'Props.Storage.C103_size_counterexample' depends on axioms: [propext]
'Props.Storage.C104_flash_partial' depends on axioms: [propext, Classical.choice, Quot.sound]
'Props.Storage.C104_program_partial' depends on axioms: [propext, Classical.choice, Quot.sound]
'Props.Storage.C104_erase_partial' depends on axioms: [propext, Classical.choice, Quot.sound]
'Props.Storage.C104_initialize' depends on axioms: [propext, Classical.choice, Quot.sound]
'Props.Storage.C104_refuses_partial' depends on axioms: [propext]
'Props.Storage.C104_whole_counterexample' depends on axioms: [propext, Classical.choice, Quot.sound]
'Props.Storage.C104_whole_write_counterexample' depends on axioms: [propext, Classical.choice, Quot.sound]
'Props.Storage.C104_unaligned_counterexample' depends on axioms: [propext, Classical.choice, Quot.sound]
'Props.Storage.C104_wrap_counterexample' depends on axioms: [propext, Classical.choice, Quot.sound]
'Props.Storage.C105_stack_partial' depends on axioms: [propext, Classical.choice, Quot.sound]
'Props.Storage.C105_unaligned' depends on axioms: [propext, Quot.sound]
'Props.Storage.C105_initialize' depends on axioms: [propext, Classical.choice, Quot.sound]
'Props.Storage.C105_refuses_partial' depends on axioms: [propext]
'Props.Storage.C105_whole_die_counterexample' depends on axioms: [propext, Classical.choice, Quot.sound]
'Props.Storage.C106_is_busy_partial' depends on axioms: [propext, Classical.choice, Quot.sound]
'Props.Storage.C106_counterexample' depends on axioms: [propext]
'Props.Storage.C106_wrap_counterexample' depends on axioms: [propext]
'Props.Spi.C107_byte' depends on axioms: [propext, Classical.choice, Quot.sound]
'Props.Spi.C107_swap' depends on axioms: [propext, Classical.choice, Quot.sound]
'Props.Spi.C107_device' depends on axioms: [propext, Classical.choice, Quot.sound]
'Props.Spi.C107_buffers' depends on axioms: [propext, Classical.choice, Quot.sound]
'Props.Spi.C107_mode' depends on axioms: [propext, Quot.sound]
'Props.Spi.C107_reinitialise_counterexample' depends on axioms: [propext, Quot.sound]
'Props.I2c.C108_write_read' depends on axioms: [propext, Classical.choice, Quot.sound]
'Props.I2c.C108_write' depends on axioms: [propext, Classical.choice, Quot.sound]
'Props.I2c.C108_read' depends on axioms: [propext, Classical.choice, Quot.sound]
'Props.I2c.C108_general_call_counterexample' depends on axioms: [propext, Quot.sound]
'Props.I2c.C108_stretch_counterexample' depends on axioms: [propext, Quot.sound]
'Props.I2c.C109_over' depends on axioms: [propext, Quot.sound]
'Props.I2c.C109_returns' depends on axioms: [propext, Quot.sound]
'Props.I2c.C109_occupied' depends on axioms: [propext, Quot.sound]
'Props.I2c.C109_stop_counterexample' depends on axioms: [propext, Quot.sound]
'Props.I2c.C109_lines_counterexample' depends on axioms: [propext, Quot.sound]
'Props.I2c.C109_busy_counterexample' depends on axioms: [propext, Quot.sound]
'Props.I2c.C110_configure' depends on axioms: [propext]
'Props.I2c.C110_attach' depends on axioms: [propext]
'Props.I2c.C110_again_write' depends on axioms: [propext, Classical.choice, Quot.sound]
'Props.I2c.C110_again_read' depends on axioms: [propext, Classical.choice, Quot.sound]
'Props.I2c.C110_again_counterexample' depends on axioms: [propext, Quot.sound]
'Props.I2c.C110_null_counterexample' depends on axioms: [propext, Quot.sound]
'Props.Spi.C111_spi_partial' depends on axioms: [propext, Quot.sound]
'Props.Spi.C111_spi_counterexample' does not depend on any axioms
'Props.I2c.C111_i2c_partial' depends on axioms: [propext, Quot.sound]
'Props.I2c.C111_i2c_counterexample' does not depend on any axioms
'Props.Spi.C112_lock_partial' depends on axioms: [propext, Classical.choice, Quot.sound]
'Props.Spi.C112_configured' depends on axioms: [propext, Classical.choice, Quot.sound]
'Props.Spi.C112_handler_calls' does not depend on any axioms
'Props.Spi.C112_overflow_counterexample' does not depend on any axioms
'Props.I2c.C113_sending_partial' depends on axioms: [propext, Classical.choice, Quot.sound]
'Props.I2c.C113_written_counterexample' depends on axioms: [propext, Quot.sound]
'Props.I2c.C113_pulled_counterexample' depends on axioms: [propext, Quot.sound]
'Props.I2c.C114_bytes_partial' depends on axioms: [propext, Classical.choice, Quot.sound]
'Props.I2c.C114_conditions_counterexample' depends on axioms: [propext, Quot.sound]
'Props.Geometry.C115_order' depends on axioms: [propext, Classical.choice, Quot.sound]
'Props.Geometry.C116_ccw' depends on axioms: [propext, Classical.choice, Quot.sound]
'Props.Geometry.C116_equal_counterexample' depends on axioms: [propext, Classical.choice, Quot.sound]
'Props.Geometry.C116_overflow_counterexample' does not depend on any axioms
'Props.Geometry.C117_intersects' depends on axioms: [propext, Classical.choice, Quot.sound]
'Props.Geometry.C117_sound' depends on axioms: [propext, Classical.choice, Quot.sound]
'Props.Geometry.C117_points_partial' depends on axioms: [propext, Classical.choice, Quot.sound]
'Props.Geometry.C117_point_counterexample' depends on axioms: [propext, Classical.choice, Quot.sound]
'Props.Geometry.C117_float_counterexample' depends on axioms: [propext, Classical.choice, Quot.sound]
'Props.Geometry.C117_parallel_counterexample' depends on axioms: [propext, Classical.choice, Quot.sound]
'Props.Geometry.C118_polygons' depends on axioms: [propext, Classical.choice, Quot.sound]
'Props.Geometry.C118_segment' depends on axioms: [propext, Classical.choice, Quot.sound]
'Props.Geometry.C118_inside' depends on axioms: [propext, Classical.choice, Quot.sound]
'Props.Geometry.C118_twice_counterexample' depends on axioms: [propext, Classical.choice, Quot.sound]
'Props.Geometry.C118_point_counterexample' depends on axioms: [propext, Classical.choice, Quot.sound]
'Props.Geometry.C119_crosses' depends on axioms: [propext, Classical.choice, Quot.sound]
'Props.Geometry.C119_total' depends on axioms: [propext, Classical.choice, Quot.sound]
'Props.Geometry.C119_meets_partial' depends on axioms: [propext, Classical.choice, Quot.sound]
'Props.Geometry.C119_polygon' depends on axioms: [propext, Classical.choice, Quot.sound]
'Props.Geometry.C119_polygon_none' depends on axioms: [propext, Classical.choice, Quot.sound]
'Props.Geometry.C119_ccw' depends on axioms: [propext, Classical.choice, Quot.sound]
'Props.Geometry.C119_touch_counterexample' depends on axioms: [propext, Classical.choice, Quot.sound]
'Props.Geometry.C119_polygon_counterexample' depends on axioms: [propext, Classical.choice, Quot.sound]
'Props.Geometry.C119_overflow_counterexample' does not depend on any axioms
'Props.Geometry.C120_lines' depends on axioms: [propext, Classical.choice, Quot.sound]
'Props.Geometry.C120_line_circle' depends on axioms: [propext, Classical.choice, Quot.sound]
'Props.Geometry.C120_total' depends on axioms: [propext, Classical.choice, Quot.sound]
'Props.Geometry.C120_circles_partial' depends on axioms: [propext, Classical.choice, Quot.sound]
'Props.Geometry.C120_same' depends on axioms: [propext, Classical.choice, Quot.sound]
'Props.Geometry.C120_overflow_counterexample' does not depend on any axioms
'Props.Geometry.C120_zero_counterexample' depends on axioms: [propext, Classical.choice, Quot.sound]
'Props.Geometry.C120_inside_counterexample' depends on axioms: [propext, Classical.choice, Quot.sound]
'Props.Geometry.C121_cross' depends on axioms: [propext, Classical.choice, Quot.sound]
'Props.Geometry.C121_dot' depends on axioms: [propext, Classical.choice, Quot.sound]
'Props.Geometry.C121_length_partial' depends on axioms: [propext, Classical.choice, Quot.sound]
'Props.Geometry.C121_length_counterexample' does not depend on any axioms
'Props.Geometry.C121_distance_partial' depends on axioms: [propext, Classical.choice, Quot.sound]
'Props.Geometry.C121_distance_counterexample' depends on axioms: [propext, Classical.choice, Quot.sound]
'Props.Geometry.C121_operators_partial' depends on axioms: [propext, Classical.choice, Quot.sound]
'Props.Geometry.C121_operators_counterexample' does not depend on any axioms
'Props.Dispatcher.C122_accepted' depends on axioms: [propext, Classical.choice, Quot.sound]
'Props.Dispatcher.C122_refused' depends on axioms: [propext, Classical.choice, Quot.sound]
'Props.Dispatcher.C122_event' depends on axioms: [propext, Classical.choice, Quot.sound]
'Props.Dispatcher.C122_response' depends on axioms: [propext, Classical.choice, Quot.sound]
'Props.Dispatcher.C122_no_more' depends on axioms: [propext, Classical.choice, Quot.sound]
'Props.Dispatcher.C122_delivered' depends on axioms: [propext, Classical.choice, Quot.sound]
'Props.Dispatcher.C123_at_most_once' depends on axioms: [propext, Classical.choice, Quot.sound]
'Props.Dispatcher.C123_genuine' depends on axioms: [propext, Classical.choice, Quot.sound]
'Props.Dispatcher.C123_swap_counterexample' depends on axioms: [propext, Quot.sound]
'Props.Dispatcher.C124_tries' depends on axioms: [propext, Classical.choice, Quot.sound]
'Props.Dispatcher.C124_spacing' depends on axioms: [propext, Classical.choice, Quot.sound]
'Props.Dispatcher.C125_timeline' depends on axioms: [propext, Classical.choice, Quot.sound]
'Props.Dispatcher.C125_gives_up' depends on axioms: [propext, Classical.choice, Quot.sound]
'Props.Dispatcher.C125_response_counterexample' depends on axioms: [propext, Quot.sound]
'Props.Dispatcher.C125_broadcast_counterexample' depends on axioms: [propext, Quot.sound]
'Props.Dispatcher.C126_sent_partial' depends on axioms: [propext, Classical.choice, Quot.sound]
'Props.Dispatcher.C126_requests_partial' depends on axioms: [propext, Classical.choice, Quot.sound]
'Props.Dispatcher.C126_responses_stay' depends on axioms: [propext, Classical.choice, Quot.sound]
'Props.Dispatcher.C126_duplicate_counterexample' depends on axioms: [propext, Quot.sound]
'Props.Dispatcher.C126_kind_counterexample' depends on axioms: [propext, Quot.sound]
'Props.Dispatcher.C126_forgotten_counterexample' depends on axioms: [propext, Quot.sound]
'Props.Dispatcher.C127_delivered' depends on axioms: [propext, Classical.choice, Quot.sound]
'Props.Dispatcher.C127_order' depends on axioms: [propext, Classical.choice, Quot.sound]
'Props.Dispatcher.C127_counterexample' depends on axioms: [propext, Quot.sound]
'Props.Dispatcher.C128_returns' depends on axioms: [propext, Classical.choice, Quot.sound]
'Props.Dispatcher.C128_runs' depends on axioms: [propext, Classical.choice, Quot.sound]
'Props.Dispatcher.C128_counterexample' depends on axioms: [propext, Quot.sound]
'Props.Dispatcher.C129_sent' depends on axioms: [propext, Classical.choice, Quot.sound]
'Props.Dispatcher.C129_delivered' depends on axioms: [propext, Classical.choice, Quot.sound]
'Props.Dispatcher.C129_boards' depends on axioms: [propext, Classical.choice, Quot.sound]
'Props.Dispatcher.C129_callbacks' depends on axioms: [propext, Classical.choice, Quot.sound]
'Props.Matrix.C130_arithmetic' depends on axioms: [propext, Classical.choice, Quot.sound]
'Props.Matrix.C130_product' depends on axioms: [propext, Classical.choice, Quot.sound]
'Props.Matrix.C130_transpose' depends on axioms: [propext, Classical.choice, Quot.sound]
'Props.Matrix.C130_constants' depends on axioms: [propext, Classical.choice, Quot.sound]
'Props.Matrix.C130_equal' depends on axioms: [propext, Classical.choice, Quot.sound]
'Props.Matrix.C130_size_counterexample' depends on axioms: [propext, Classical.choice, Quot.sound]
'Props.Matrix.C131_subMatrix' depends on axioms: [propext, Classical.choice, Quot.sound]
'Props.Matrix.C131_outside' depends on axioms: [propext, Quot.sound]
'Props.Matrix.C131_row' depends on axioms: [propext, Classical.choice, Quot.sound]
'Props.Matrix.C131_column' depends on axioms: [propext, Classical.choice, Quot.sound]
'Props.Matrix.C131_replace' depends on axioms: [propext, Classical.choice, Quot.sound]
'Props.Matrix.C131_removeRow' depends on axioms: [propext, Classical.choice, Quot.sound]
'Props.Matrix.C131_removeColumn' depends on axioms: [propext, Classical.choice, Quot.sound]
'Props.Matrix.C131_add_counterexample' depends on axioms: [propext, Quot.sound]
'Props.Matrix.C132_determinant' depends on axioms: [propext, Classical.choice, Quot.sound]
'Props.Lu.C133_plain_partial' depends on axioms: [propext, Classical.choice, Quot.sound]
'Props.Lu.C133_pivot' depends on axioms: [propext, Classical.choice, Quot.sound]
'Props.Lu.C133_matrix' depends on axioms: [propext, Classical.choice, Quot.sound]
'Props.Lu.C133_plain_counterexample' depends on axioms: [propext, Classical.choice, Quot.sound]
'Props.Lu.C134_factors' depends on axioms: [propext, Classical.choice, Quot.sound]
'Props.Lu.C134_solve_partial' depends on axioms: [propext, Classical.choice, Quot.sound]
'Props.Lu.C134_counterexample' depends on axioms: [propext, Classical.choice, Quot.sound]
'Props.Quaternion.C135_arithmetic' depends on axioms: [propext, Quot.sound]
'Props.Quaternion.C135_equal' depends on axioms: [propext, Classical.choice, Quot.sound]
'Props.Quaternion.C135_order' depends on axioms: [propext, Classical.choice, Quot.sound]
'Props.Quaternion.C135_quotient_partial' depends on axioms: [propext, Classical.choice, Quot.sound]
'Props.Quaternion.C135_inverse_partial' depends on axioms: [propext, Classical.choice, Quot.sound]
'Props.Quaternion.C135_unitInverse_partial' depends on axioms: [propext, Quot.sound]
'Props.Quaternion.C135_length' depends on axioms: [propext, Classical.choice, Quot.sound]
'Props.Quaternion.C135_scaled' depends on axioms: [propext, Classical.choice, Quot.sound]
'Props.Quaternion.C135_rotation' depends on axioms: [propext, Classical.choice, Quot.sound]
'Props.Quaternion.C135_to3x3_partial' depends on axioms: [propext, Classical.choice, Quot.sound]
'Props.Quaternion.C135_to4x4' depends on axioms: [propext, Classical.choice, Quot.sound]
'Props.Quaternion.C135_alias_counterexample' depends on axioms: [propext, Classical.choice, Quot.sound]
'Props.Quaternion.C135_inverse_counterexample' depends on axioms: [propext, Classical.choice, Quot.sound]
'Props.Quaternion.C135_to3x3_counterexample' depends on axioms: [propext, Classical.choice, Quot.sound]
'Props.Vector.C136_order' depends on axioms: [propext, Classical.choice, Quot.sound]
'Props.Vector.C136_order3' depends on axioms: [propext, Classical.choice, Quot.sound]
'Props.Vector.C136_products' depends on axioms: [propext, Classical.choice, Quot.sound]
'Props.Vector.C136_products3' depends on axioms: [propext, Classical.choice, Quot.sound]
'Props.Vector.C136_scale3_partial' depends on axioms: [propext, Classical.choice, Quot.sound]
'Props.Vector.C136_length' depends on axioms: [propext, Classical.choice, Quot.sound]
'Props.Vector.C136_alias_counterexample' depends on axioms: [propext, Classical.choice, Quot.sound]
'Props.Vector.C136_scaleAssign_counterexample' depends on axioms: [propext, Classical.choice, Quot.sound]
'Props.Vector.C136_neg_counterexample' depends on axioms: [propext, Classical.choice, Quot.sound]
'Props.Uart.C137_order' depends on axioms: [propext, Classical.choice, Quot.sound]
'Props.Uart.C137_complete' depends on axioms: [propext, Classical.choice, Quot.sound]
'Props.Uart.C137_drains' depends on axioms: [propext, Classical.choice, Quot.sound]
'Props.Uart.C137_refused' depends on axioms: [propext, Classical.choice, Quot.sound]
'Props.Uart.C137_defined' depends on axioms: [propext, Classical.choice, Quot.sound]
'Props.Uart.C138_finished_partial' depends on axioms: [propext, Classical.choice, Quot.sound]
'Props.Uart.C138_unfinished' depends on axioms: [propext, Classical.choice, Quot.sound]
'Props.Uart.C138_finished_counterexample' depends on axioms: [propext]
'Props.Uart.C139_order_partial' depends on axioms: [propext, Classical.choice, Quot.sound]
'Props.Uart.C139_overtakes_counterexample' depends on axioms: [propext]
'Props.Uart.C139_lost_counterexample' depends on axioms: [propext]
'Props.Uart.C139_waits_counterexample' depends on axioms: [propext]
'Props.Uart.C140_discard_partial' depends on axioms: [propext, Classical.choice, Quot.sound]
'Props.Uart.C140_empty_partial' depends on axioms: [propext, Classical.choice, Quot.sound]
'Props.Uart.C140_discard_counterexample' depends on axioms: [propext]
'Props.Uart.C140_hardware_counterexample' depends on axioms: [propext]
'Props.Uart.C141_order' depends on axioms: [propext, Classical.choice, Quot.sound]
'Props.Uart.C141_exact_partial' depends on axioms: [propext, Classical.choice, Quot.sound]
'Props.Uart.C141_fetched' depends on axioms: [propext, Classical.choice, Quot.sound]
'Props.Uart.C141_eaten_counterexample' depends on axioms: [propext]
'Props.Uart.C141_unbuffered_counterexample' depends on axioms: [propext]
'Props.Uart.C141_length_counterexample' depends on axioms: [propext]
'Props.Uart.C142_transmitBufferSize' depends on axioms: [propext, Classical.choice, Quot.sound]
'Props.Uart.C142_room' depends on axioms: [propext, Classical.choice, Quot.sound]
'Props.Uart.C142_available' depends on axioms: [propext, Classical.choice, Quot.sound]
'Props.CanFilter.C143_extended' depends on axioms: [propext, Classical.choice, Quot.sound]
'Props.CanFilter.C143_standard_partial' depends on axioms: [propext, Classical.choice, Quot.sound]
'Props.CanFilter.C143_list' depends on axioms: [propext, Classical.choice, Quot.sound]
'Props.CanFilter.C143_short_partial' depends on axioms: [propext, Classical.choice, Quot.sound]
'Props.CanFilter.C143_short_list_partial' depends on axioms: [propext, Classical.choice, Quot.sound]
'Props.CanFilter.C143_standard_counterexample' depends on axioms: [propext, Quot.sound]
'Props.CanFilter.C143_short_counterexample' depends on axioms: [propext, Quot.sound]
'Props.CanFilter.C144_disable' depends on axioms: [propext, Classical.choice, Quot.sound]
'Props.CanFilter.C144_start' depends on axioms: [propext, Classical.choice, Quot.sound]
'Props.BxcanTx.C145_defined' depends on axioms: [propext, Classical.choice, Quot.sound]
'Props.BxcanTx.C145_origin' depends on axioms: [propext, Classical.choice, Quot.sound]
'Props.BxcanTx.C145_order_partial' depends on axioms: [propext, Classical.choice, Quot.sound]
'Props.BxcanTx.C145_refused' depends on axioms: [propext, Classical.choice, Quot.sound]
'Props.BxcanTx.C145_overtakes_counterexample' depends on axioms: [propext, Quot.sound]
'Props.BxcanTx.C145_lost_counterexample' depends on axioms: [propext, Quot.sound]
'Props.BxcanTx.C145_ignored_counterexample' depends on axioms: [propext, Quot.sound]
'Props.BxcanTx.C145_waits_counterexample' depends on axioms: [propext, Quot.sound]
'Props.BxcanTx.C145_mixed_counterexample' depends on axioms: [propext, Quot.sound]
'Props.BxcanTx.C145_twice_counterexample' depends on axioms: [propext, Quot.sound]
'Props.BxcanTx.C146_order' depends on axioms: [propext, Quot.sound]
'Props.BxcanTx.C146_refused' depends on axioms: [propext, Classical.choice, Quot.sound]
'Props.BxcanTx.C147_ready' depends on axioms: [propext, Classical.choice, Quot.sound]
'Props.BxcanRx.C148_defined' depends on axioms: [propext, Classical.choice, Quot.sound]
'Props.BxcanRx.C148_order' depends on axioms: [propext, Classical.choice, Quot.sound]
'Props.BxcanRx.C148_exact' depends on axioms: [propext, Classical.choice, Quot.sound]
'Props.BxcanRx.C148_nothing' depends on axioms: [propext, Classical.choice, Quot.sound]
'Props.BxcanRx.C148_overrun_counterexample' depends on axioms: [propext]
'Props.BxcanRx.C149_exact_partial' depends on axioms: [propext, Classical.choice, Quot.sound]
'Props.BxcanRx.C149_mixed_counterexample' depends on axioms: [propext]
'Props.BxcanRx.C150_available_partial' depends on axioms: [propext, Classical.choice, Quot.sound]
'Props.BxcanRx.C150_unbuffered_partial' depends on axioms: [propext, Classical.choice, Quot.sound]
'Props.BxcanRx.C150_overrun_counterexample' depends on axioms: [propext]
'Props.CanFrame.C151_send' depends on axioms: [propext, Classical.choice, Quot.sound]
'Props.CanFrame.C151_receive' depends on axioms: [propext, Classical.choice, Quot.sound]
'Props.CanFrame.C151_receive_partial' depends on axioms: [propext, Classical.choice, Quot.sound]
'Props.CanFrame.C151_roundtrip' depends on axioms: [propext, Classical.choice, Quot.sound]
'Props.CanFrame.C151_receive_counterexample' depends on axioms: [propext, Quot.sound]
'Props.CanFrame.C151_send_counterexample' depends on axioms: [propext, Quot.sound]
'Props.CanFrame.C152_send' depends on axioms: [propext, Classical.choice, Quot.sound]
'Props.CanFrame.C152_send_masked' depends on axioms: [propext, Classical.choice, Quot.sound]
'Props.CanFrame.C152_receive' depends on axioms: [propext, Classical.choice, Quot.sound]
'Props.CanFrame.C152_content' depends on axioms: [propext, Classical.choice, Quot.sound]
'Props.CanFrame.C152_receive_partial' depends on axioms: [propext, Classical.choice, Quot.sound]
'Props.CanFrame.C152_receive_counterexample' depends on axioms: [propext, Quot.sound]
'Props.CanFrame.C152_roundtrip_partial' depends on axioms: [propext, Classical.choice, Quot.sound]
'Props.CanFrame.C152_handler_partial' depends on axioms: [propext, Classical.choice, Quot.sound]
'Props.CanFrame.C152_handler_counterexample' depends on axioms: [propext, Quot.sound]
'Props.CanFrame.C153_send_partial' depends on axioms: [propext, Classical.choice, Quot.sound]
'Props.CanFrame.C153_send_counterexample' depends on axioms: [propext, Quot.sound]
'Props.CanFrame.C153_content' depends on axioms: [propext, Classical.choice, Quot.sound]
'Props.CanFrame.C153_receive_partial' depends on axioms: [propext, Classical.choice, Quot.sound]
'Props.CanFrame.C153_receive_counterexample' depends on axioms: [propext, Classical.choice, Quot.sound]
'Props.CanFrame.C154_send_partial' depends on axioms: [propext, Classical.choice, Quot.sound]
'Props.CanFrame.C154_receive_partial' depends on axioms: [propext, Classical.choice, Quot.sound]
'Props.CanFrame.C154_receive_counterexample' depends on axioms: [propext, Quot.sound]
'Props.CanFrame.C155_send_partial' depends on axioms: [propext, Classical.choice, Quot.sound]
'Props.CanFrame.C155_receive_partial' depends on axioms: [propext, Classical.choice, Quot.sound]
'Props.CanFrame.C155_counterexample' depends on axioms: [propext, Quot.sound]
'Props.Mcp2515.C156_receive_account' depends on axioms: [propext, Classical.choice, Quot.sound]
'Props.Mcp2515.C156_receive_lost' depends on axioms: [propext, Quot.sound]
'Props.Mcp2515.C156_receive_order_partial' depends on axioms: [propext, Quot.sound]
'Props.Mcp2515.C156_receive_order_counterexample' depends on axioms: [propext, Quot.sound]
'Props.Mcp2515.C156_receive_rollover_counterexample' depends on axioms: [propext, Quot.sound]
'Props.Mcp2515.C156_send_account' depends on axioms: [propext, Classical.choice, Quot.sound]
'Props.Mcp2515.C156_send_refused' depends on axioms: [propext, Classical.choice, Quot.sound]
'Props.Mcp2515.C156_send_order_partial' depends on axioms: [propext, Classical.choice, Quot.sound]
'Props.Mcp2515.C156_send_order_counterexample' depends on axioms: [propext, Classical.choice, Quot.sound]
'Props.FdcanTx.C157_exact' depends on axioms: [propext, Classical.choice, Quot.sound]
'Props.FdcanTx.C157_nothing_else' depends on axioms: [propext, Classical.choice, Quot.sound]
'Props.FdcanTx.C157_complete' depends on axioms: [propext, Classical.choice, Quot.sound]
'Props.FdcanTx.C157_order_partial' depends on axioms: [propext, Classical.choice, Quot.sound]
'Props.FdcanTx.C157_order_counterexample' depends on axioms: [propext]
'Props.FdcanTx.C157_shared_counterexample' depends on axioms: [propext]
'Props.FdcanTx.C158_refused' depends on axioms: [propext, Classical.choice, Quot.sound]
'Props.FdcanTx.C158_ready' depends on axioms: [propext, Classical.choice, Quot.sound]
'Props.FdcanTx.C158_ready_counterexample' depends on axioms: [propext, Classical.choice, Quot.sound]
'Props.FdcanRx.C159_queue' depends on axioms: [propext, Quot.sound]
'Props.FdcanRx.C159_order_partial' depends on axioms: [propext, Classical.choice, Quot.sound]
'Props.FdcanRx.C159_prefix_partial' depends on axioms: [propext, Classical.choice, Quot.sound]
'Props.FdcanRx.C159_overwrite_counterexample' depends on axioms: [propext]
'Props.FdcanRx.C160_available' depends on axioms: [propext]
'Props.FdcanRx.C160_enabled' depends on axioms: [propext, Quot.sound]
'Props.FdcanRx.C160_complete_partial' depends on axioms: [propext, Classical.choice, Quot.sound]
'Props.FdcanRx.C160_complete_counterexample' depends on axioms: [propext]
'Props.SystemClock.C161_exact_partial' depends on axioms: [propext, Classical.choice, Quot.sound]
'Props.SystemClock.C161_elapsed_partial' depends on axioms: [propext, Classical.choice, Quot.sound]
'Props.SystemClock.C161_returns' depends on axioms: [propext, Quot.sound]
'Props.SystemClock.C161_other_counterexample' depends on axioms: [propext]
'Props.SystemClock.C161_disabled_counterexample' depends on axioms: [propext]
'Props.SystemClock.C162_period' depends on axioms: [propext, Classical.choice, Quot.sound]
'Props.SystemClock.C162_micro_partial' depends on axioms: [propext, Classical.choice, Quot.sound]
'Props.SystemClock.C162_milli_partial' depends on axioms: [propext, Classical.choice, Quot.sound]
'Props.SystemClock.C162_right_partial' depends on axioms: [propext, Classical.choice, Quot.sound]
'Props.SystemClock.C162_elapsed_partial' depends on axioms: [propext, Classical.choice, Quot.sound]
'Props.SystemClock.C162_still_counterexample' depends on axioms: [propext, Classical.choice, Quot.sound]
'Props.SystemClock.C162_remainder_counterexample' depends on axioms: [propext, Classical.choice, Quot.sound]
'Props.SystemClock.C163_interpolation' depends on axioms: [propext, Classical.choice, Quot.sound]
'Props.SystemClock.C163_elapsed_partial' depends on axioms: [propext, Classical.choice, Quot.sound]
'Props.SystemClock.C163_slow_counterexample' depends on axioms: [propext, Classical.choice, Quot.sound]
'Props.CanTiming.C164_bxcan_partial' depends on axioms: [propext, Classical.choice, Quot.sound]
'Props.CanTiming.C164_fdcan' depends on axioms: [propext, Classical.choice, Quot.sound]
'Props.CanTiming.C164_fdcan_data' depends on axioms: [propext, Classical.choice, Quot.sound]
'Props.CanTiming.C164_sample' depends on axioms: [propext, Classical.choice, Quot.sound]
'Props.CanTiming.C164_best_partial' depends on axioms: [propext, Classical.choice, Quot.sound]
'Props.CanTiming.C164_truncated_counterexample' depends on axioms: [propext, Classical.choice, Quot.sound]
'Props.CanTiming.C165_partial' depends on axioms: [propext, Classical.choice, Quot.sound]
'Props.CanTiming.C165_20MHz_counterexample' depends on axioms: [propext, Classical.choice, Quot.sound]
'Props.CanTiming.C165_odd_counterexample' depends on axioms: [propext, Quot.sound]
'Props.CanTiming.C165_segment_counterexample' depends on axioms: [propext, Quot.sound]
'Props.Delay.C166_early_partial' depends on axioms: [propext, Classical.choice, Quot.sound]
'Props.Delay.C166_late' depends on axioms: [propext, Classical.choice, Quot.sound]
'Props.Delay.C166_whole' depends on axioms: [propext, Classical.choice, Quot.sound]
'Props.Delay.C166_early_counterexample' depends on axioms: [propext, Classical.choice, Quot.sound]
'Props.Delay.C166_none_counterexample' depends on axioms: [propext, Classical.choice, Quot.sound]
'Props.Delay.C166_overflow_counterexample' depends on axioms: [propext, Classical.choice, Quot.sound]
'Props.Delay.C166_wrap_counterexample' depends on axioms: [propext, Classical.choice, Quot.sound]
'Props.Delay.C167_split' depends on axioms: [propext, Classical.choice, Quot.sound]
'Props.Delay.C167_ms' depends on axioms: [propext, Classical.choice, Quot.sound]
'Props.Delay.C167_exact' depends on axioms: [propext]
'Props.Delay.C167_other_partial' depends on axioms: [propext, Classical.choice, Quot.sound]
'Props.Delay.C167_counterexample' depends on axioms: [propext]
'Props.Delay.C168_ns_partial' depends on axioms: [propext, Classical.choice, Quot.sound]
'Props.Delay.C168_m0_partial' depends on axioms: [propext, Classical.choice, Quot.sound]
'Props.Delay.C168_early_counterexample' depends on axioms: [propext, Classical.choice, Quot.sound]
'Props.Delay.C168_range_counterexample' depends on axioms: [propext, Classical.choice, Quot.sound]
'Props.Delay.C168_slow_counterexample' depends on axioms: [propext, Classical.choice, Quot.sound]
'Props.Delay.C169_const' depends on axioms: [propext, Classical.choice, Quot.sound]
'Props.Delay.C169_ns_partial' depends on axioms: [propext, Classical.choice, Quot.sound]
'Props.Delay.C169_ns_counterexample' depends on axioms: [propext, Classical.choice, Quot.sound]
'Props.Delay.C169_slow' depends on axioms: [propext, Classical.choice, Quot.sound]
'Props.Delay.C169_short_counterexample' depends on axioms: [propext, Classical.choice, Quot.sound]
'Props.Delay.C169_hang_counterexample' depends on axioms: [propext, Quot.sound]
'Props.Delay.C169_fast_partial' depends on axioms: [propext, Classical.choice, Quot.sound]
'Props.IoStream.C170_hex' depends on axioms: [propext, Classical.choice, Quot.sound]
'Props.IoStream.C170_bin' depends on axioms: [propext, Classical.choice, Quot.sound]
'Props.IoStream.C170_byte' depends on axioms: [propext, Classical.choice, Quot.sound]
'Props.IoStream.C170_pointer' depends on axioms: [propext, Classical.choice, Quot.sound]
'Props.IoStream.C170_mode' depends on axioms: [propext, Classical.choice, Quot.sound]
'Props.IoStream.C170_function_counterexample' depends on axioms: [propext, Classical.choice, Quot.sound]
'Props.IoStream.C171_unsigned_partial' depends on axioms: [propext, Classical.choice, Quot.sound]
'Props.IoStream.C171_signed_partial' depends on axioms: [propext, Classical.choice, Quot.sound]
'Props.IoStream.C171_buffers' depends on axioms: [propext, Classical.choice, Quot.sound]
'Props.IoStream.C171_least_counterexample' depends on axioms: [propext, Classical.choice, Quot.sound]
'Props.IoStream.C171_silent_counterexample' depends on axioms: [propext, Classical.choice, Quot.sound]
'Props.IoStream.C172_block' depends on axioms: [propext, Quot.sound]
'Props.IoStream.C172_block_only' depends on axioms: [propext, Quot.sound]
'Props.IoStream.C172_discard' depends on axioms: [propext, Classical.choice, Quot.sound]
'Props.IoStream.C172_discard_sublist' depends on axioms: [propext, Classical.choice, Quot.sound]
'Props.IoStream.C173_get' depends on axioms: [propext, Classical.choice, Quot.sound]
'Props.IoStream.C173_char' does not depend on any axioms
'Props.IoStream.C173_eof_counterexample' does not depend on any axioms
'Props.FdcanFilter.C174_fates_partial' depends on axioms: [propext, Classical.choice, Quot.sound]
'Props.FdcanFilter.C174_hits' depends on axioms: [propext, Quot.sound]
'Props.FdcanFilter.C174_stale_counterexample' depends on axioms: [propext, Classical.choice, Quot.sound]
'Props.FdcanFilter.C175_places' depends on axioms: [propext, Quot.sound]
'Props.FdcanFilter.C175_apart' depends on axioms: [propext, Classical.choice, Quot.sound]
'Props.Mcp2515Filter.C176_filters' depends on axioms: [propext, Classical.choice, Quot.sound]
'Props.Mcp2515Filter.C176_mode_counterexample' depends on axioms: [propext, Quot.sound]
'Props.Mcp2515Filter.C176_macro_counterexample' depends on axioms: [propext, Quot.sound]
'Props.Eeprom.C177_write_partial' depends on axioms: [propext, Classical.choice, Quot.sound]
'Props.Eeprom.C177_read_partial' depends on axioms: [propext, Classical.choice, Quot.sound]
'Props.Eeprom.C177_page_counterexample' depends on axioms: [propext, Quot.sound]
'Props.Eeprom.C177_address_counterexample' depends on axioms: [propext, Quot.sound]
'Props.Eeprom.C177_value_counterexample' depends on axioms: [propext, Quot.sound]
'Props.Eeprom.C177_byte_counterexample' depends on axioms: [propext, Quot.sound]
'Props.Eeprom.C178_address' depends on axioms: [propext, Quot.sound]
'Props.Eeprom.C178_read' depends on axioms: [propext, Classical.choice, Quot.sound]
'Props.Eeprom.C178_write_partial' depends on axioms: [propext, Classical.choice, Quot.sound]
'Props.Animation.C179_ramp_partial' depends on axioms: [propext, Classical.choice, Quot.sound]
'Props.Animation.C179_hold_partial' depends on axioms: [propext, Classical.choice, Quot.sound]
'Props.Animation.C179_flat_counterexample' depends on axioms: [propext]
'Props.Animation.C179_line_counterexample' depends on axioms: [propext, Quot.sound]
'Props.Animation.C179_hold_counterexample' depends on axioms: [propext]
'Props.Animation.C179_avr_counterexample' depends on axioms: [propext]
'Props.Animation.C180_animation' depends on axioms: [propext, Classical.choice, Quot.sound]
'Props.Animation.C180_handler' depends on axioms: [propext]
'Props.Animation.C180_long_counterexample' depends on axioms: [propext]
'Props.Animation.C180_rare_counterexample' depends on axioms: [propext]
'Props.Animation.C180_result_counterexample' depends on axioms: [propext]
'Props.Animation.C181_order_partial' depends on axioms: [propext, Classical.choice, Quot.sound]
'Props.Animation.C181_frame' depends on axioms: [propext, Classical.choice, Quot.sound]
'Props.Animation.C181_stop' depends on axioms: [propext, Classical.choice, Quot.sound]
'Props.Animation.C181_single_counterexample' depends on axioms: [propext]
'Props.Animation.C181_last_counterexample' depends on axioms: [propext]
'Props.Animation.C181_late_counterexample' depends on axioms: [propext]
'Props.Animation.C182_pulse' depends on axioms: [propext, Quot.sound]
'Props.Animation.C182_fades_partial' depends on axioms: [propext, Quot.sound]
'Props.Animation.C182_indicator_counterexample' depends on axioms: [propext, Quot.sound]
'Props.Animation.C182_strobe_counterexample' does not depend on any axioms
'Props.InplaceAny.C183_lifetimes_partial' depends on axioms: [propext, Quot.sound]
'Props.InplaceAny.C183_aligned_partial' depends on axioms: [propext, Quot.sound]
'Props.InplaceAny.C183_own_counterexample' depends on axioms: [propext]
'Props.InplaceAny.C183_aligned_counterexample' depends on axioms: [propext]
'Props.InplaceAny.C184_values_partial' depends on axioms: [propext, Quot.sound]
'Props.InplaceAny.C184_swap_counterexample' depends on axioms: [propext]
'Props.InplaceFunction.C185_function' depends on axioms: [propext, Classical.choice, Quot.sound]
'Props.AdcSampler.C186_readout_partial' depends on axioms: [propext, Classical.choice, Quot.sound]
'Props.AdcSampler.C186_endless_counterexample' depends on axioms: [propext, Quot.sound]
'Props.AdcSampler.C187_refused_partial' depends on axioms: [propext, Classical.choice, Quot.sound]
'Props.AdcSampler.C187_refused_counterexample' depends on axioms: [propext, Classical.choice, Quot.sound]
'Props.ViewStack.C188_views_partial' depends on axioms: [propext, Classical.choice, Quot.sound]
'Props.ViewStack.C188_replace_counterexample' depends on axioms: [propext]
'Props.ViewStack.C188_last_counterexample' does not depend on any axioms
'Props.ViewStack.C188_destroy_counterexample' does not depend on any axioms
'Props.ViewStack.C188_gui_counterexample' does not depend on any axioms
'Props.ViewStack.C189_display_partial' depends on axioms: [propext, Quot.sound]
'Props.ViewStack.C189_push_counterexample' depends on axioms: [propext]
'Props.ViewStack.C189_pop_counterexample' depends on axioms: [propext, Quot.sound]
'Props.Menu.C190_scroll_partial' depends on axioms: [propext, Quot.sound]
'Props.Menu.C190_space_counterexample' depends on axioms: [propext, Quot.sound]
'Props.Menu.C190_assign_counterexample' depends on axioms: [propext, Classical.choice, Quot.sound]
'Props.Menu.C191_standard_partial' depends on axioms: [propext, Classical.choice, Quot.sound]
'Props.Menu.C191_choice_partial' depends on axioms: [propext, Classical.choice, Quot.sound]
'Props.Menu.C191_many_counterexample' depends on axioms: [propext, Quot.sound]
'Props.Menu.C191_empty_counterexample' depends on axioms: [propext]
'Props.Menu.C191_ends_counterexample' depends on axioms: [propext, Classical.choice, Quot.sound]
'Props.Menu.C192_standard_partial' depends on axioms: [propext, Classical.choice, Quot.sound]
'Props.Menu.C192_choice_partial' depends on axioms: [propext, Classical.choice, Quot.sound]
'Props.Menu.C192_first_counterexample' depends on axioms: [propext, Classical.choice, Quot.sound]
'Props.Menu.C192_again_counterexample' depends on axioms: [propext, Classical.choice, Quot.sound]
'Props.Menu.C192_display_counterexample' depends on axioms: [propext, Classical.choice, Quot.sound]
'Props.GpioExpander.C193_mcp23x17_pins' depends on axioms: [propext, Classical.choice, Quot.sound]
'Props.GpioExpander.C193_mcp23x17_heals' depends on axioms: [propext, Classical.choice, Quot.sound]
'Props.GpioExpander.C193_mcp23x17_init' depends on axioms: [propext, Classical.choice, Quot.sound]
'Props.GpioExpander.C194_mcp23x17_isSet_partial' depends on axioms: [propext, Classical.choice, Quot.sound]
'Props.GpioExpander.C194_mcp23x17_levels_partial' depends on axioms: [propext, Classical.choice, Quot.sound]
'Props.GpioExpander.C194_mcp23x17_no_inputs_partial' depends on axioms: [propext, Classical.choice, Quot.sound]
'Props.GpioExpander.C194_latch_counterexample' depends on axioms: [propext, Quot.sound]
'Props.GpioExpander.C194_toggle_counterexample' depends on axioms: [propext, Quot.sound]
'Props.GpioExpander.C195_pca9535_partial' depends on axioms: [propext, Classical.choice, Quot.sound]
'Props.GpioExpander.C195_pca9535_heals_partial' depends on axioms: [propext, Classical.choice, Quot.sound]
'Props.GpioExpander.C195_setInput_counterexample' depends on axioms: [propext, Quot.sound]
'Props.GpioExpander.C195_setOutput_counterexample' depends on axioms: [propext, Quot.sound]
'Props.GpioExpander.C195_getDirection_counterexample' depends on axioms: [propext, Quot.sound]
'Props.GpioExpander.C196_pca8574_partial' depends on axioms: [propext, Classical.choice, Quot.sound]
'Props.GpioExpander.C196_pca8574_without_writePort_partial' depends on axioms: [propext, Classical.choice, Quot.sound]
'Props.GpioExpander.C196_writePort_counterexample' depends on axioms: [propext, Quot.sound]
'Props.GpioExpander.C197_write' depends on axioms: [propext, Classical.choice, Quot.sound]
'Props.GpioExpander.C197_read' depends on axioms: [propext, Classical.choice, Quot.sound]
'Props.GpioExpander.C197_reversed8' depends on axioms: [propext, Classical.choice, Quot.sound]
'Props.GpioExpander.C197_reversed16' depends on axioms: [propext, Classical.choice, Quot.sound]
'Props.GpioExpander.C197_pca8574' depends on axioms: [propext, Classical.choice, Quot.sound]
'Props.GpioExpander.C198_setOutput_partial' depends on axioms: [propext, Classical.choice, Quot.sound]
'Props.GpioExpander.C198_setOutput_counterexample' depends on axioms: [propext, Quot.sound]
'Props.GpioExpander.C198_then_output_counterexample' depends on axioms: [propext, Quot.sound]
'Props.GpioExpander.C198_pca9535_counterexample' depends on axioms: [propext, Quot.sound]
'Props.GpioPins.C199_stm32_call' depends on axioms: [propext, Classical.choice, Quot.sound]
'Props.GpioPins.C199_stm32' depends on axioms: [propext, Classical.choice, Quot.sound]
'Props.GpioPins.C199_inverted' depends on axioms: [propext, Quot.sound]
'Props.GpioPins.C199_getDirection' depends on axioms: [propext, Quot.sound]
'Props.GpioPins.C200_portGet' depends on axioms: [propext, Quot.sound]
'Props.GpioPins.C200_stm32_portWrite' depends on axioms: [propext, Classical.choice, Quot.sound]
'Props.GpioPins.C200_avr_portWrite' depends on axioms: [propext, Classical.choice, Quot.sound]
'Props.GpioPins.C200_softGet' depends on axioms: [propext, Classical.choice, Quot.sound]
'Props.GpioPins.C200_stm32_softWrite' depends on axioms: [propext, Classical.choice, Quot.sound]
'Props.GpioPins.C200_avr_softWrite' depends on axioms: [propext, Classical.choice, Quot.sound]
'Props.GpioPins.C201_f1_call' depends on axioms: [propext, Classical.choice, Quot.sound]
'Props.GpioPins.C201_setAlternateFunction' depends on axioms: [propext, Classical.choice, Quot.sound]
'Props.GpioPins.C202_getDirection_partial' depends on axioms: [propext, Quot.sound]
'Props.GpioPins.C202_right_partial' depends on axioms: [propext, Quot.sound]
'Props.GpioPins.C202_getDirection_counterexample' depends on axioms: [propext, Quot.sound]
'Props.GpioPins.C203_openDrain_partial' depends on axioms: [propext, Classical.choice, Quot.sound]
'Props.GpioPins.C203_f1_counterexample' depends on axioms: [propext, Quot.sound]
'Props.GpioPins.C204_avr_call' depends on axioms: [propext, Classical.choice, Quot.sound]
'Props.GpioPins.C204_avr' depends on axioms: [propext, Classical.choice, Quot.sound]
'Props.GpioPins.C204_getDirection' depends on axioms: [propext, Quot.sound]
'Props.GpioPins.C205_stm32_levels_partial' depends on axioms: [propext, Classical.choice, Quot.sound]
'Props.GpioPins.C205_avr_partial' depends on axioms: [propext, Classical.choice, Quot.sound]
'Props.GpioPins.C205_avr_counterexample' depends on axioms: [propext, Quot.sound]
'Props.GpioPins.C205_stm32_counterexample' depends on axioms: [propext, Quot.sound]
'Props.Stm32Timer.C206_cycles16_partial' depends on axioms: [propext, Classical.choice, Quot.sound]
'Props.Stm32Timer.C206_cycles32_partial' depends on axioms: [propext, Classical.choice, Quot.sound]
'Props.Stm32Timer.C206_setPeriod_partial' depends on axioms: [propext, Classical.choice, Quot.sound]
'Props.Stm32Timer.C206_prescaler' depends on axioms: [propext, Quot.sound]
'Props.Stm32Timer.C206_long_counterexample' depends on axioms: [propext, Classical.choice, Quot.sound]
'Props.Stm32Timer.C206_divide_counterexample' does not depend on any axioms
'Props.Stm32Timer.C206_zero_counterexample' does not depend on any axioms
'Props.Stm32Timer.C206_one_counterexample' depends on axioms: [propext]
'Props.Stm32Timer.C207_full_partial' depends on axioms: [propext, Classical.choice, Quot.sound]
'Props.Stm32Timer.C207_compare_partial' depends on axioms: [propext, Classical.choice, Quot.sound]
'Props.Stm32Timer.C207_gp_partial' depends on axioms: [propext, Classical.choice, Quot.sound]
'Props.Stm32Timer.C207_adv_partial' depends on axioms: [propext, Classical.choice, Quot.sound]
'Props.Stm32Timer.C207_mode_counterexample' depends on axioms: [propext, Quot.sound]
'Props.Stm32Timer.C208_setInvertedPwm' depends on axioms: [propext, Classical.choice, Quot.sound]
'Props.Stm32Timer.C208_setNormalPwm' depends on axioms: [propext, Classical.choice, Quot.sound]
'Props.Stm32Timer.C208_forceInactive' depends on axioms: [propext, Classical.choice, Quot.sound]
'Props.Stm32Timer.C208_forceActive' depends on axioms: [propext, Classical.choice, Quot.sound]
'Props.Stm32Timer.C208_raw' depends on axioms: [propext, Classical.choice, Quot.sound]
'Props.Stm32Timer.C209_input' depends on axioms: [propext, Classical.choice, Quot.sound]
'Props.Stm32Timer.C209_filter' depends on axioms: [propext, Classical.choice, Quot.sound]
'Props.Stm32Timer.C209_isInput' depends on axioms: [propext, Classical.choice, Quot.sound]
'Props.Stm32Timer.C210_compare_partial' depends on axioms: [propext, Quot.sound]
'Props.Stm32Timer.C210_channel5_counterexample' does not depend on any axioms
'Props.Stm32Timer.C211_deadTime' depends on axioms: [propext, Classical.choice, Quot.sound]
'Props.Stm32Timer.C212_idle_partial' depends on axioms: [propext, Quot.sound]
'Props.Stm32Timer.C212_reset_counterexample' depends on axioms: [propext, Quot.sound]
'Props.Stm32Timer.C212_others_counterexample' depends on axioms: [propext, Quot.sound]
'Props.Stm32Timer.C213_acknowledge' depends on axioms: [propext, Classical.choice, Quot.sound]
'Props.Rtc.C214_set' depends on axioms: [propext, Quot.sound]
'Props.Rtc.C214_get' depends on axioms: [propext, Quot.sound]
'Props.Rtc.C214_roundtrip' depends on axioms: [propext, Quot.sound]
'Props.Rtc.C214_fail' depends on axioms: [propext, Quot.sound]
'Props.Rtc.C215_running_partial' depends on axioms: [propext, Quot.sound]
'Props.Rtc.C215_stopped_counterexample' depends on axioms: [propext, Quot.sound]
'Props.Rtc.C216_write' depends on axioms: [propext, Classical.choice, Quot.sound]
'Props.Rtc.C216_initialize' does not depend on any axioms
'Props.Rtc.C216_writeProtect' depends on axioms: [propext, Classical.choice, Quot.sound]
'Props.Rtc.C216_enableOscillator_partial' depends on axioms: [propext, Classical.choice, Quot.sound]
'Props.Rtc.C216_seconds_counterexample' depends on axioms: [propext, Quot.sound]
'Props.Rtc.C217_readRtc' depends on axioms: [propext, Classical.choice, Quot.sound]
'Props.Rtc.C218_read_partial' depends on axioms: [propext, Quot.sound]
'Props.Rtc.C218_read_counterexample' depends on axioms: [propext, Quot.sound]
'Props.Rtc.C219_getters_partial' depends on axioms: [propext, Quot.sound]
'Props.Rtc.C219_hours12' depends on axioms: [propext, Quot.sound]
'Props.Rtc.C219_protected' depends on axioms: [propext, Classical.choice, Quot.sound]
'Props.Rtc.C219_year_counterexample' depends on axioms: [propext, Quot.sound]
'Props.I2cAvr.C220_writeRead' depends on axioms: [propext, Quot.sound]
'Props.I2cAvr.C220_write' depends on axioms: [propext, Quot.sound]
'Props.I2cAvr.C220_read' depends on axioms: [propext, Quot.sound]
'Props.I2cAvr.C221_any_partial' depends on axioms: [propext, Quot.sound]
'Props.I2cAvr.C221_empty_counterexample' depends on axioms: [propext, Quot.sound]
'Props.I2cAvr.C221_null_counterexample' depends on axioms: [propext, Quot.sound]
'Props.I2cAvr.C222_alive' depends on axioms: [propext, Quot.sound]
'Props.I2cAvr.C222_lost' depends on axioms: [propext, Quot.sound]
'Props.I2cAvr.C222_occupied' depends on axioms: [propext]
'Props.I2cAvr.C222_reset_counterexample' depends on axioms: [propext, Quot.sound]
'Props.I2cAvr.C222_reset_read_counterexample' depends on axioms: [propext, Quot.sound]
'Props.I2cAvr.C222_busy_counterexample' depends on axioms: [propext, Quot.sound]
'Props.I2cStm32.C223_writeRead_partial' depends on axioms: [propext, Classical.choice, Quot.sound]
'Props.I2cStm32.C223_write_partial' depends on axioms: [propext, Classical.choice, Quot.sound]
'Props.I2cStm32.C223_read_partial' depends on axioms: [propext, Classical.choice, Quot.sound]
'Props.I2cStm32.C223_write_late_counterexample' depends on axioms: [propext, Quot.sound]
'Props.I2cStm32.C223_read_late_counterexample' depends on axioms: [propext, Quot.sound]
'Props.I2cStm32.C223_general_call_counterexample' depends on axioms: [propext, Quot.sound]
'Props.I2cStm32.C224_any_partial' depends on axioms: [propext, Classical.choice, Quot.sound]
'Props.I2cStm32.C224_one_counterexample' depends on axioms: [propext, Quot.sound]
'Props.I2cStm32.C224_empty_counterexample' depends on axioms: [propext, Quot.sound]
'Props.I2cStm32.C224_restart_counterexample' depends on axioms: [propext, Quot.sound]
'Props.I2cStm32.C225_queue_partial' depends on axioms: [propext, Classical.choice, Quot.sound]
'Props.I2cStm32.C225_later' depends on axioms: [propext]
'Props.I2cStm32.C225_full' depends on axioms: [propext, Quot.sound]
'Props.I2cStm32.C225_handler_counterexample' depends on axioms: [propext, Quot.sound]
'Props.I2cStm32.C226_reset_partial' depends on axioms: [propext]
'Props.I2cStm32.C226_reset_counterexample' depends on axioms: [propext, Quot.sound]
'Props.I2cStm32.C226_busy_counterexample' depends on axioms: [propext, Quot.sound]
'Props.I2cStm32Ext.C227_writeRead_partial' depends on axioms: [propext, Classical.choice, Quot.sound]
'Props.I2cStm32Ext.C227_write_partial' depends on axioms: [propext, Classical.choice, Quot.sound]
'Props.I2cStm32Ext.C227_read_partial' depends on axioms: [propext, Classical.choice, Quot.sound]
'Props.I2cStm32Ext.C227_address_counterexample' depends on axioms: [propext, Quot.sound]
'Props.I2cStm32Ext.C227_address_read_counterexample' depends on axioms: [propext, Quot.sound]
'Props.I2cStm32Ext.C227_data_counterexample' depends on axioms: [propext, Quot.sound]
'Props.I2cStm32Ext.C227_data_more_counterexample' depends on axioms: [propext, Quot.sound]
'Props.I2cStm32Ext.C227_race_counterexample' depends on axioms: [propext, Quot.sound]
'Props.I2cStm32Ext.C227_long_counterexample' depends on axioms: [propext, Quot.sound]
'Props.I2cStm32Ext.C228_any_partial' depends on axioms: [propext, Classical.choice, Quot.sound]
'Props.I2cStm32Ext.C228_empty_counterexample' depends on axioms: [propext, Quot.sound]
'Props.I2cStm32Ext.C228_restart_counterexample' depends on axioms: [propext, Quot.sound]
'Props.I2cStm32Ext.C228_starting_counterexample' depends on axioms: [propext, Quot.sound]
'Props.I2cStm32Ext.C228_after_counterexample' depends on axioms: [propext, Quot.sound]
'Props.I2cStm32Ext.C229_queue_partial' depends on axioms: [propext, Classical.choice, Quot.sound]
'Props.I2cStm32Ext.C229_full' depends on axioms: [propext, Quot.sound]
'Props.I2cStm32Ext.C229_handler_counterexample' depends on axioms: [propext, Quot.sound]
'Props.I2cStm32Ext.C229_wait_counterexample' depends on axioms: [propext, Quot.sound]
'Props.I2cStm32Ext.C230_reset_partial' depends on axioms: [propext]
'Props.I2cStm32Ext.C230_reset_counterexample' depends on axioms: [propext, Quot.sound]
'Props.I2cStm32Ext.C230_memory_counterexample' depends on axioms: [propext, Quot.sound]
'Props.I2cStm32Ext.C230_null_counterexample' depends on axioms: [propext, Quot.sound]
'Props.I2cStm32Ext.C230_busy_counterexample' depends on axioms: [propext, Quot.sound]
'Props.Flash.C231_getPage_partial' depends on axioms: [propext, Classical.choice, Quot.sound]
'Props.Flash.C231_getPage_counterexample' depends on axioms: [propext, Classical.choice, Quot.sound]
'Props.Flash.C231_getOffset_partial' depends on axioms: [propext, Quot.sound]
'Props.Flash.C231_getOffset_counterexample' depends on axioms: [propext, Quot.sound]
'Props.Flash.C231_getSize_partial' depends on axioms: [propext, Quot.sound]
'Props.Flash.C231_getSize_counterexample' depends on axioms: [propext, Quot.sound]
'Props.Flash.C232_pages_partial' depends on axioms: [propext, Classical.choice, Quot.sound]
'Props.Flash.C232_pages_counterexample' depends on axioms: [propext]
'Props.Flash.C233_erase_partial' depends on axioms: [propext, Classical.choice, Quot.sound]
'Props.Flash.C233_at_partial' depends on axioms: [propext, Classical.choice, Quot.sound]
'Props.Flash.C233_bank_counterexample' depends on axioms: [propext, Quot.sound]
'Props.Flash.C233_pnb_counterexample' depends on axioms: [propext, Quot.sound]
'Props.Flash.C233_protect_counterexample' depends on axioms: [propext, Quot.sound]
'Props.Flash.C234_program_partial' depends on axioms: [propext, Classical.choice, Quot.sound]
'Props.Flash.C234_error_partial' depends on axioms: [propext, Classical.choice, Quot.sound]
'Props.Flash.C234_silent_counterexample' depends on axioms: [propext, Classical.choice, Quot.sound]
'Props.Flash.C234_stale_counterexample' depends on axioms: [propext, Quot.sound]
'Props.Flash.C235_words_partial' depends on axioms: [propext, Classical.choice, Quot.sound]
'Props.Flash.C235_update_partial' depends on axioms: [propext, Classical.choice, Quot.sound]
'Props.Flash.C235_unlock' depends on axioms: [propext, Quot.sound]
'Props.Flash.C235_locked_counterexample' depends on axioms: [propext, Quot.sound]
'Props.HeapTable.C236_report_partial' depends on axioms: [propext, Classical.choice, Quot.sound]
'Props.HeapTable.C236_none' depends on axioms: [propext, Quot.sound]
'Props.HeapTable.C236_clear' depends on axioms: [propext, Quot.sound]
'Props.HeapTable.C236_beyond_counterexample' depends on axioms: [propext]
'Props.HeapTable.C236_adjacent_counterexample' depends on axioms: [propext]
'Props.HeapTable.C236_lost_counterexample' depends on axioms: [propext]
'Props.HeapTable.C236_full_counterexample' depends on axioms: [propext]
'Props.HeapTable.C236_stack_counterexample' depends on axioms: [propext]
'Props.HeapTable.C237_all' depends on axioms: [propext, Quot.sound]
'Props.HeapTable.C237_report_partial' depends on axioms: [propext, Classical.choice, Quot.sound]
'Props.HeapTable.C237_offset_counterexample' does not depend on any axioms
'Props.HeapTable.C237_largest_counterexample' depends on axioms: [propext]
'Props.HeapTable.C237_filled_counterexample' depends on axioms: [propext]
'Props.HeapTable.C238_sound_partial' depends on axioms: [propext, Quot.sound]
'Props.HeapTable.C238_largest_partial' depends on axioms: [propext, Quot.sound]
'Props.HeapTable.C238_touching_counterexample' depends on axioms: [propext]
'Props.HeapTable.C238_null_counterexample' depends on axioms: [propext]
'Props.HeapTable.C238_traits_counterexample' depends on axioms: [propext]
'Props.HeapTlsf.C239_traits_partial' depends on axioms: [propext, Quot.sound]
'Props.HeapTlsf.C239_defined_partial' depends on axioms: [propext, Quot.sound]
'Props.HeapTlsf.C239_malloc' depends on axioms: [propext, Quot.sound]
'Props.HeapTlsf.C239_null_counterexample' depends on axioms: [propext]
'Props.HeapTlsf.C240_free' depends on axioms: [propext, Classical.choice, Quot.sound]
'Props.HeapTlsf.C240_six_counterexample' does not depend on any axioms
'Props.HeapTlsf.C240_calloc_partial' depends on axioms: [propext]
'Props.HeapTlsf.C240_calloc_counterexample' depends on axioms: [propext]
'Props.AtomicLock.C241_restore' depends on axioms: [propext, Quot.sound]
'Props.AtomicLock.C241_lock' depends on axioms: [propext, Quot.sound]
'Props.AtomicLock.C241_unlock' depends on axioms: [propext, Quot.sound]
'Props.AtomicLock.C242_priority_partial' depends on axioms: [propext, Classical.choice, Quot.sound]
'Props.AtomicLock.C242_zero_counterexample' depends on axioms: [propext, Quot.sound]
'Props.AtomicLock.C242_range_counterexample' depends on axioms: [propext, Quot.sound]
'Props.AtomicLock.C242_m0' does not depend on any axioms
'Props.AtomicLock.C243_atomic' depends on axioms: [propext, Quot.sound]
'Props.StaticGuard.C244_once_partial' depends on axioms: [propext, Quot.sound]
'Props.StaticGuard.C244_recursive_partial' depends on axioms: [propext, Quot.sound]
'Props.StaticGuard.C244_twice_counterexample' does not depend on any axioms
'Props.StaticGuard.C244_assert_counterexample' does not depend on any axioms
'Props.StaticGuard.C245_decision' depends on axioms: [propext, Quot.sound]
'Props.StaticGuard.C245_value' depends on axioms: [propext, Quot.sound]
'Props.StaticGuard.C245_order' depends on axioms: [propext, Quot.sound]
'Props.Multicore.C246_exclusive' depends on axioms: [propext, Quot.sound]
'Props.Multicore.C247_guard_partial' depends on axioms: [propext, Quot.sound]
'Props.Multicore.C247_nested_counterexample' depends on axioms: [propext, Quot.sound]
'Props.Multicore.C247_constructor_counterexample' depends on axioms: [propext, Quot.sound]
'Props.Multicore.C247_destructor_counterexample' depends on axioms: [propext, Quot.sound]
'Props.Multicore.C248_exclusive' depends on axioms: [propext, Quot.sound]
'Props.Multicore.C248_wake' depends on axioms: [propext, Quot.sound]
'Props.Multicore.C249_runCore1' depends on axioms: [propext, Classical.choice, Quot.sound]
'Props.Multicore.C249_outside_counterexample' depends on axioms: [propext, Quot.sound]
'Props.Multicore.C249_core0_counterexample' does not depend on any axioms
'Props.LedDrivers.C250_set' depends on axioms: [propext, Classical.choice, Quot.sound]
'Props.LedDrivers.C250_get' depends on axioms: [propext, Classical.choice, Quot.sound]
'Props.LedDrivers.C250_all' depends on axioms: [propext, Classical.choice, Quot.sound]
'Props.LedDrivers.C251_set' depends on axioms: [propext, Classical.choice, Quot.sound]
'Props.LedDrivers.C251_get' depends on axioms: [propext, Classical.choice, Quot.sound]
'Props.LedDrivers.C251_all' depends on axioms: [propext, Classical.choice, Quot.sound]
'Props.LedDrivers.C251_large_counterexample' depends on axioms: [propext, Quot.sound]
'Props.LedDrivers.C252_clear' depends on axioms: [propext, Classical.choice, Quot.sound]
'Props.LedDrivers.C252_frame' depends on axioms: [propext, Classical.choice, Quot.sound]
'Props.LedDrivers.C252_color_partial' depends on axioms: [propext, Classical.choice, Quot.sound]
'Props.LedDrivers.C252_color_counterexample' depends on axioms: [propext]
'Props.LedDrivers.C252_get_partial' depends on axioms: [propext, Classical.choice, Quot.sound]
'Props.LedDrivers.C252_get_counterexample' depends on axioms: [propext]
'Props.LedDrivers.C253_init' depends on axioms: [propext, Quot.sound]
'Props.LedDrivers.C253_clocks' depends on axioms: [propext, Quot.sound]
'Props.LedDrivers.C253_both' depends on axioms: [propext, Classical.choice, Quot.sound]
'Props.LedDrivers.C253_color' depends on axioms: [propext, Classical.choice, Quot.sound]
'Props.LedDrivers.C253_brightness' depends on axioms: [propext, Quot.sound]
'Props.LedDrivers.C253_get' depends on axioms: [propext, Classical.choice, Quot.sound]
'Props.LedDrivers.C254_set' depends on axioms: [propext, Classical.choice, Quot.sound]
'Props.LedDrivers.C254_get' depends on axioms: [propext, Classical.choice, Quot.sound]
'Props.LedDrivers.C254_array' depends on axioms: [propext, Classical.choice, Quot.sound]
'Props.LedDrivers.C254_all' depends on axioms: [propext, Classical.choice, Quot.sound]
'Props.LedDrivers.C254_half' depends on axioms: [propext, Classical.choice, Quot.sound]
'Props.TempSensors.C255_lm75' depends on axioms: [propext, Classical.choice, Quot.sound]
'Props.TempSensors.C255_tmp102' depends on axioms: [propext, Classical.choice, Quot.sound]
'Props.TempSensors.C255_tmp102_extended' depends on axioms: [propext, Classical.choice, Quot.sound]
'Props.TempSensors.C255_extended_counterexample' depends on axioms: [propext, Classical.choice, Quot.sound]
'Props.TempSensors.C255_stts22h' depends on axioms: [propext, Classical.choice, Quot.sound]
'Props.TempSensors.C255_max31855_thermocouple' depends on axioms: [propext, Classical.choice, Quot.sound]
'Props.TempSensors.C255_max31855_reference' depends on axioms: [propext, Classical.choice, Quot.sound]
'Props.TempSensors.C255_mcp990x' depends on axioms: [propext, Classical.choice, Quot.sound]
'Props.TempSensors.C255_tmp12x' depends on axioms: [propext, Classical.choice, Quot.sound]
'Props.TempSensors.C256_lm75' depends on axioms: [propext, Classical.choice, Quot.sound]
'Props.TempSensors.C256_tmp12x' depends on axioms: [propext, Classical.choice, Quot.sound]
'Props.TempSensors.C256_tmp102_partial' depends on axioms: [propext, Classical.choice, Quot.sound]
'Props.TempSensors.C256_tmp102_counterexample' depends on axioms: [propext, Quot.sound]
'Props.TempSensors.C256_tmp102_minus25_counterexample' depends on axioms: [propext, Quot.sound]
'Props.TempSensors.C256_mcp990x_partial' depends on axioms: [propext, Classical.choice, Quot.sound]
'Props.TempSensors.C256_mcp990x_counterexample' depends on axioms: [propext, Quot.sound]
'Props.TempSensors.C257_nearest_partial' depends on axioms: [propext, Classical.choice, Quot.sound]
'Props.TempSensors.C257_error' depends on axioms: [propext, Classical.choice, Quot.sound]
'Props.TempSensors.C257_counterexample' depends on axioms: [propext, Classical.choice, Quot.sound]
'Props.TempSensors.C257_missing_counterexample' depends on axioms: [propext, Quot.sound]
'Props.TempSensors.C258_lm75' depends on axioms: [propext, Classical.choice, Quot.sound]
'Props.TempSensors.C258_tmp102' depends on axioms: [propext, Classical.choice, Quot.sound]
'Props.TempSensors.C258_tmp102_extended' depends on axioms: [propext, Classical.choice, Quot.sound]
'Props.TempSensors.C258_range_counterexample' depends on axioms: [propext, Classical.choice, Quot.sound]
'Props.TempSensors.C259_limit_counterexample' depends on axioms: [propext, Classical.choice, Quot.sound]
'Props.TempSensors.C259_example_counterexample' depends on axioms: [propext, Classical.choice, Quot.sound]
'Props.TempSensors.C259_factor_partial' depends on axioms: [propext, Classical.choice, Quot.sound]
'Props.TempSensors.C260_rate_partial' depends on axioms: [propext, Quot.sound]
'Props.TempSensors.C260_rate8_counterexample' depends on axioms: [propext, Quot.sound]
'Props.TempSensors.C260_other' depends on axioms: [propext, Quot.sound]
'Props.TempSensors.C260_period_counterexample' does not depend on any axioms
'Props.TempSensors.C261_tmp175_partial' depends on axioms: [propext]
'Props.TempSensors.C261_tmp175_counterexample' does not depend on any axioms
'Props.TempSensors.C261_ds1631_partial' depends on axioms: [propext, Quot.sound]
'Props.TempSensors.C261_oneshot_counterexample' depends on axioms: [propext, Quot.sound]
'Props.TempSensors.C261_ds1631_counterexample' does not depend on any axioms
'Props.TempSensors.C261_address_counterexample' depends on axioms: [propext]
'Props.TempSensors.C262_resistance' depends on axioms: [propext, Classical.choice, Quot.sound]
'Props.TempSensors.C262_fast_partial' depends on axioms: [propext, Classical.choice, Quot.sound]
'Props.TempSensors.C262_fast_counterexample' depends on axioms: [propext, Classical.choice, Quot.sound]
'Props.TempSensors.C262_first_partial' depends on axioms: [propext, Quot.sound]
'Props.TempSensors.C262_oneshot_counterexample' depends on axioms: [propext, Quot.sound]
'Props.TempSensors.C262_second_counterexample' depends on axioms: [propext, Quot.sound]
'Props.Barometer.C263_datasheet_partial' depends on axioms: [propext, Classical.choice, Quot.sound]
'Props.Barometer.C263_overflow_counterexample' depends on axioms: [propext, Classical.choice, Quot.sound]
'Props.Barometer.C263_zero_counterexample' does not depend on any axioms
'Props.Barometer.C264_datasheet_partial' depends on axioms: [propext, Classical.choice, Quot.sound]
'Props.Barometer.C264_zero_counterexample' does not depend on any axioms
'Props.Barometer.C265_ms5611' depends on axioms: [propext, Classical.choice, Quot.sound]
'Props.Barometer.C265_ms5837' depends on axioms: [propext, Classical.choice, Quot.sound]
'Props.Barometer.C265_absent_counterexample' depends on axioms: [propext, Quot.sound]
'Props.Barometer.C266_getters_partial' depends on axioms: [propext, Quot.sound]
'Props.Barometer.C266_temperature' depends on axioms: [propext]
'Props.Barometer.C266_between_counterexample' does not depend on any axioms
'Props.Barometer.C266_bmp085_counterexample' does not depend on any axioms
'Props.Barometer.C267_temperature_partial' depends on axioms: [propext, Classical.choice, Quot.sound]
'Props.Barometer.C267_ac5_counterexample' does not depend on any axioms
'Props.Barometer.C267_zero_counterexample' depends on axioms: [propext]
'Props.Barometer.C267_pressure_partial' depends on axioms: [propext, Classical.choice, Quot.sound]
'Props.Barometer.C267_below_counterexample' does not depend on any axioms
'Props.Barometer.C268_ams5915' depends on axioms: [propext, Quot.sound]
'Props.Barometer.C268_hclax_partial' depends on axioms: [propext, Quot.sound]
'Props.Barometer.C268_hclax_counterexample' does not depend on any axioms
'Props.AdcDrivers.C269_crc' depends on axioms: [propext, Classical.choice, Quot.sound]
'Props.AdcDrivers.C269_burst' depends on axioms: [propext, Classical.choice, Quot.sound]
'Props.AdcDrivers.C269_zero_counterexample' depends on axioms: [propext, Quot.sound]
'Props.AdcDrivers.C270_frame' depends on axioms: [propext, Classical.choice, Quot.sound]
'Props.AdcDrivers.C270_device_counterexample' depends on axioms: [propext, Quot.sound]
'Props.AdcDrivers.C270_reading' depends on axioms: [propext, Classical.choice, Quot.sound]
'Props.AdcDrivers.C271_all' depends on axioms: [propext, Classical.choice, Quot.sound]
'Props.AdcDrivers.C271_error' depends on axioms: [propext, Quot.sound]
'Props.AdcDrivers.C271_selftest' depends on axioms: [propext, Classical.choice, Quot.sound]
'Props.AdcDrivers.C271_channel_partial' depends on axioms: [propext, Classical.choice, Quot.sound]
'Props.AdcDrivers.C271_channel_counterexample' depends on axioms: [propext, Classical.choice, Quot.sound]
'Props.AdcDrivers.C271_zero_counterexample' depends on axioms: [propext, Quot.sound]
'Props.AdcDrivers.C271_average_counterexample' depends on axioms: [propext, Quot.sound]
'Props.AdcDrivers.C271_setup_counterexample' depends on axioms: [propext, Quot.sound]
'Props.AdcDrivers.C272_fields_partial' depends on axioms: [propext, Classical.choice, Quot.sound]
'Props.AdcDrivers.C272_scale' depends on axioms: [propext, Classical.choice, Quot.sound]
'Props.AdcDrivers.C272_start' depends on axioms: [propext, Quot.sound]
'Props.AdcDrivers.C272_value' depends on axioms: [propext, Quot.sound]
'Props.AdcDrivers.C272_table' does not depend on any axioms
'Props.AdcDrivers.C272_comparator_counterexample' depends on axioms: [propext, Classical.choice, Quot.sound]
'Props.AdcDrivers.C273_ads7828' depends on axioms: [propext, Classical.choice, Quot.sound]
'Props.AdcDrivers.C273_ads7828_channels' depends on axioms: [propext, Quot.sound]
'Props.AdcDrivers.C273_mcp3008' depends on axioms: [propext, Quot.sound]
'Props.AdcDrivers.C273_hx711' depends on axioms: [propext, Classical.choice, Quot.sound]
'Props.AdcDrivers.C273_mcp4922' depends on axioms: [propext, Classical.choice, Quot.sound]
'Props.AdcDrivers.C274_single' depends on axioms: [propext, Classical.choice, Quot.sound]
'Props.AdcDrivers.C274_sequence' depends on axioms: [propext, Classical.choice, Quot.sound]
'Props.AdcDrivers.C274_auto_counterexample' depends on axioms: [propext, Classical.choice, Quot.sound]
'Props.AdcDrivers.C274_lost_counterexample' depends on axioms: [propext, Classical.choice, Quot.sound]
'Props.AvrHeap.C275_defined_partial' depends on axioms: [propext, Classical.choice, Quot.sound]
'Props.AvrHeap.C275_separate_partial' depends on axioms: [propext, Classical.choice, Quot.sound]
'Props.AvrHeap.C275_data_partial' depends on axioms: [propext, Classical.choice, Quot.sound]
'Props.AvrHeap.C275_first_partial' depends on axioms: [propext, Classical.choice, Quot.sound]
'Props.AvrHeap.C275_end_counterexample' does not depend on any axioms
'Props.AvrHeap.C275_marker_counterexample' does not depend on any axioms
'Props.AvrHeap.C275_largest_counterexample' does not depend on any axioms
'Props.AvrHeap.C275_again_counterexample' does not depend on any axioms
'Props.Startup.C276_hooks' depends on axioms: [propext, Quot.sound]
'Props.Startup.C276_constructors' depends on axioms: [propext, Quot.sound]
'Props.Startup.C276_main' does not depend on any axioms
'Props.Startup.C277_pieces' depends on axioms: [propext, Classical.choice, Quot.sound]
'Props.Startup.C277_room_partial' depends on axioms: [propext, Quot.sound]
'Props.Startup.C277_last_counterexample' does not depend on any axioms
'Props.Startup.C277_below_counterexample' does not depend on any axioms
'Props.Startup.C278_new' depends on axioms: [propext, Classical.choice, Quot.sound]
'Props.Startup.C278_nothrow_partial' depends on axioms: [propext]
'Props.Startup.C278_nothrow_counterexample' does not depend on any axioms
'Props.Startup.C278_empty_counterexample' depends on axioms: [propext]
'Props.Tlsf.C279_defined_partial' depends on axioms: [propext, Classical.choice, Quot.sound]
'Props.Tlsf.C279_disjoint_partial' depends on axioms: [propext, Classical.choice, Quot.sound]
'Props.Tlsf.C279_data_partial' depends on axioms: [propext, Classical.choice, Quot.sound]
'Props.Tlsf.C279_outside_partial' depends on axioms: [propext, Classical.choice, Quot.sound]
'Props.Tlsf.C279_malloc_counterexample' depends on axioms: [propext, Quot.sound]
'Props.Tlsf.C280_null' depends on axioms: [propext, Classical.choice, Quot.sound]
'Props.Tlsf.C280_recovers' depends on axioms: [propext, Classical.choice, Quot.sound]
'Props.Tlsf.C281_realloc_partial' depends on axioms: [propext, Classical.choice, Quot.sound]
'Props.Tlsf.C281_realloc_counterexample' depends on axioms: [propext, Quot.sound]
'Props.CharDisplay.C282_init' depends on axioms: [propext, Classical.choice, Quot.sound]
'Props.CharDisplay.C282_byte' depends on axioms: [propext, Classical.choice, Quot.sound]
'Props.CharDisplay.C283_text_partial' depends on axioms: [propext, Classical.choice, Quot.sound]
'Props.CharDisplay.C283_clear_counterexample' depends on axioms: [propext, Quot.sound]
'Props.CharDisplay.C283_cursor_counterexample' depends on axioms: [propext, Quot.sound]
'Props.CharDisplay.C284_cgram_partial' depends on axioms: [propext, Classical.choice, Quot.sound]
'Props.CharDisplay.C284_character_counterexample' depends on axioms: [propext, Quot.sound]
'Props.CharDisplay.C284_text_counterexample' depends on axioms: [propext, Quot.sound]
'Props.CharDisplay.C285_line_partial' depends on axioms: [propext, Quot.sound]
'Props.CharDisplay.C285_newline_counterexample' does not depend on any axioms
'Props.SpiStm32.C286_transfer' depends on axioms: [propext, Quot.sound]
'Props.SpiStm32.C286_prefix' depends on axioms: [propext, Quot.sound]
'Props.SpiStm32.C286_returns' depends on axioms: [propext, Classical.choice, Quot.sound]
'Props.SpiStm32.C287_transfer_partial' depends on axioms: [propext, Classical.choice, Quot.sound]
'Props.SpiStm32.C287_fifo_partial' depends on axioms: [propext, Classical.choice, Quot.sound]
'Props.SpiStm32.C287_plain_partial' depends on axioms: [propext, Classical.choice, Quot.sound]
'Props.SpiStm32.C287_live' depends on axioms: [propext, Classical.choice, Quot.sound]
'Props.SpiStm32.C287_last_counterexample' depends on axioms: [propext, Quot.sound]
'Props.SpiStm32.C287_overrun_counterexample' depends on axioms: [propext, Quot.sound]
'Props.SpiStm32.C287_dummy_counterexample' depends on axioms: [propext, Quot.sound]
'Props.SpiStm32.C287_long_counterexample' depends on axioms: [propext, Classical.choice, Quot.sound]
'Props.SpiStm32.C287_zero_counterexample' depends on axioms: [propext]
'Props.SpiStm32.C288_ends_partial' depends on axioms: [propext]
'Props.SpiStm32.C288_forever_counterexample' depends on axioms: [propext]
'Props.SpiStm32.C288_error_counterexample' depends on axioms: [propext, Quot.sound]
'Props.Dataflash.C289_store' depends on axioms: [propext, Classical.choice, Quot.sound]
'Props.Dataflash.C289_ends' depends on axioms: [propext, Classical.choice, Quot.sound]
'Props.Dataflash.C289_overlap' depends on axioms: [propext, Classical.choice, Quot.sound]
'Props.Dataflash.C290_chip_partial' depends on axioms: [propext, Classical.choice, Quot.sound]
'Props.Dataflash.C290_page_counterexample' depends on axioms: [propext, Classical.choice, Quot.sound]
'Props.Dataflash.C291_init_partial' depends on axioms: [propext, Classical.choice, Quot.sound]
'Props.Dataflash.C291_virgin_counterexample' depends on axioms: [propext, Quot.sound]
'Props.Dataflash.C291_busy_counterexample' depends on axioms: [propext, Quot.sound]
'Props.AvrUart.C292_order' depends on axioms: [propext, Quot.sound]
'Props.AvrUart.C292_drains' depends on axioms: [propext, Quot.sound]
'Props.AvrUart.C292_refused' depends on axioms: [propext, Quot.sound]
'Props.AvrUart.C292_finished_partial' depends on axioms: [propext, Quot.sound]
'Props.AvrUart.C292_finished_counterexample' depends on axioms: [propext, Quot.sound]
'Props.AvrUart.C293_read' depends on axioms: [propext, Quot.sound]
'Props.AvrUart.C293_order' depends on axioms: [propext, Quot.sound]
'Props.AvrUart.C293_lossless_partial' depends on axioms: [propext, Quot.sound]
'Props.AvrUart.C293_frame' depends on axioms: [propext, Quot.sound]
'Props.AvrUart.C293_overflow_counterexample' depends on axioms: [propext, Quot.sound]
'Props.Nrf24.C294_bits' depends on axioms: [propext, Quot.sound]
'Props.Nrf24.C294_address' depends on axioms: [propext, Classical.choice, Quot.sound]
'Props.Nrf24.C294_speed' depends on axioms: [propext, Classical.choice, Quot.sound]
'Props.Nrf24.C294_fields' depends on axioms: [propext, Classical.choice, Quot.sound]
'Props.Nrf24.C294_pipe' depends on axioms: [propext, Classical.choice, Quot.sound]
'Props.Nrf24.C295_send' depends on axioms: [propext, Classical.choice, Quot.sound]
'Props.Nrf24.C295_feedback_partial' depends on axioms: [propext, Classical.choice, Quot.sound]
'Props.Nrf24.C295_done' depends on axioms: [propext, Classical.choice, Quot.sound]
'Props.Nrf24.C295_broadcast_counterexample' depends on axioms: [propext, Quot.sound]
'Props.Nrf24.C295_late_counterexample' depends on axioms: [propext, Quot.sound]
'Props.Nrf24.C295_restart_counterexample' depends on axioms: [propext, Quot.sound]
'Props.Nrf24.C296_addresses' depends on axioms: [propext, Classical.choice, Quot.sound]
'Props.Nrf24.C296_taken' depends on axioms: [propext, Classical.choice, Quot.sound]
'Props.Nrf24.C296_packets_partial' depends on axioms: [propext, Classical.choice, Quot.sound]
'Props.Nrf24.C296_next_partial' depends on axioms: [propext, Classical.choice, Quot.sound]
'Props.Nrf24.C296_flush_counterexample' depends on axioms: [propext, Quot.sound]
'Props.Nrf24.C296_restart_counterexample' depends on axioms: [propext, Quot.sound]
'Props.Nrf24.C296_again_counterexample' depends on axioms: [propext, Quot.sound]
'Props.Panel.C297_update' depends on axioms: [propext, Classical.choice, Quot.sound]
'Props.Panel.C297_pixels' depends on axioms: [propext, Classical.choice, Quot.sound]
'Props.Panel.C297_small_counterexample' depends on axioms: [propext, Classical.choice, Quot.sound]
'Props.Panel.C297_interrupted_counterexample' depends on axioms: [propext, Classical.choice, Quot.sound]
'Props.Panel.C298_update' depends on axioms: [propext, Classical.choice, Quot.sound]
'Props.Panel.C298_initialized' depends on axioms: [propext, Classical.choice, Quot.sound]
'Props.Panel.C299_update_counterexample' depends on axioms: [propext, Classical.choice, Quot.sound]
'Props.Panel.C299_nokia_partial' depends on axioms: [propext, Classical.choice, Quot.sound]
'Props.Panel.C299_ks0108_partial' depends on axioms: [propext, Classical.choice, Quot.sound]
'Props.Panel.C299_ks0108_initialize' depends on axioms: [propext, Classical.choice, Quot.sound]
'Props.Panel.C299_st7565_partial' depends on axioms: [propext, Classical.choice, Quot.sound]
'Props.Panel.C300_turned_partial' depends on axioms: [propext, Classical.choice, Quot.sound]
'Props.Panel.C300_widths_counterexample' depends on axioms: [propext, Classical.choice, Quot.sound]
'Props.Panel.C301_line' depends on axioms: [propext, Classical.choice, Quot.sound]
'Props.Panel.C302_brightness' depends on axioms: [propext, Classical.choice, Quot.sound]
'Props.Panel.C302_initialize' depends on axioms: [propext, Classical.choice, Quot.sound]
'Props.Panel.C302_horizontal_partial' depends on axioms: [propext, Quot.sound]
'Props.Panel.C302_vertical_partial' depends on axioms: [propext, Quot.sound]
'Props.Panel.C302_matrix_counterexample' depends on axioms: [propext, Classical.choice, Quot.sound]
'Props.Rtt.C303_transmit' depends on axioms: [propext, Quot.sound]
'Props.Rtt.C303_refused' depends on axioms: [propext, Quot.sound]
'Props.Rtt.C303_drain' depends on axioms: [propext, Quot.sound]
'Props.Rtt.C303_finished' depends on axioms: [propext, Quot.sound]
'Props.Rtt.C304_receive' depends on axioms: [propext, Quot.sound]
'Props.Rtt.C304_read' depends on axioms: [propext, Quot.sound]
'Props.Rtt.C305_write_block' depends on axioms: [propext, Quot.sound]
'Props.Rtt.C305_read_block' depends on axioms: [propext, Quot.sound]
'Props.Rtt.C305_size_partial' depends on axioms: [propext, Quot.sound]
'Props.Rtt.C305_empty_counterexample' depends on axioms: [propext, Quot.sound]
'Props.Rtt.C305_no_buffer_counterexample' depends on axioms: [propext]
'Props.Touch.C306_raw' depends on axioms: [propext, Classical.choice, Quot.sound]
'Props.Touch.C306_range' depends on axioms: [propext, Classical.choice, Quot.sound]
'Props.Touch.C306_touched' depends on axioms: [propext, Classical.choice, Quot.sound]
'Props.Touch.C307_position_partial' depends on axioms: [propext, Quot.sound]
'Props.Touch.C307_touch_partial' depends on axioms: [propext, Classical.choice, Quot.sound]
'Props.Touch.C307_defined' depends on axioms: [propext, Classical.choice, Quot.sound]
'Props.Touch.C307_negative_counterexample' depends on axioms: [propext, Quot.sound]
'Props.Touch.C307_default_counterexample' depends on axioms: [propext, Quot.sound]
'Props.Touch.C308_read_data' depends on axioms: [propext, Classical.choice, Quot.sound]
'Props.Touch.C308_stable' depends on axioms: [propext, Classical.choice, Quot.sound]
'Props.Touch.C308_closest' depends on axioms: [propext, Classical.choice, Quot.sound]
'Props.Touch.C308_robust' depends on axioms: [propext, Classical.choice, Quot.sound]
'Props.Touch.C308_read' depends on axioms: [propext, Classical.choice, Quot.sound]
'Props.Touch.C309_touches' depends on axioms: [propext, Classical.choice, Quot.sound]
'Props.Touch.C309_none' depends on axioms: [propext, Quot.sound]
'Props.BusDevices.C310_channel_partial' depends on axioms: [propext, Quot.sound]
'Props.BusDevices.C310_refused' depends on axioms: [propext, Quot.sound]
'Props.BusDevices.C310_retry_counterexample' depends on axioms: [propext, Quot.sound]
'Props.BusDevices.C310_read_counterexample' depends on axioms: [propext, Quot.sound]
'Props.BusDevices.C311_pwm_partial' depends on axioms: [propext, Classical.choice, Quot.sound]
'Props.BusDevices.C311_results' depends on axioms: [propext, Quot.sound]
'Props.BusDevices.C311_zero_counterexample' depends on axioms: [propext, Classical.choice, Quot.sound]
'Props.BusDevices.C312_command' depends on axioms: [propext, Classical.choice, Quot.sound]
'Props.BusDevices.C312_angle' depends on axioms: [propext, Classical.choice, Quot.sound]
'Props.BusDevices.C312_degrees_partial' depends on axioms: [propext, Classical.choice, Quot.sound]
'Props.BusDevices.C312_degrees_counterexample' depends on axioms: [propext, Quot.sound]
'Props.BusDevices.C312_error_counterexample' depends on axioms: [propext, Classical.choice, Quot.sound]
'Props.BusDevices.C313_outputs' depends on axioms: [propext, Classical.choice, Quot.sound]
'Props.Gui.C314_topmost_partial' depends on axioms: [propext, Classical.choice, Quot.sound]
'Props.Gui.C314_edge_counterexample' depends on axioms: [propext, Classical.choice, Quot.sound]
'Props.Gui.C314_group_counterexample' does not depend on any axioms
'Props.Gui.C315_press_partial' depends on axioms: [propext, Classical.choice, Quot.sound]
'Props.Gui.C315_leave_counterexample' does not depend on any axioms
'Props.Gui.C316_positions' depends on axioms: [propext, Quot.sound]
'Props.Gui.C316_start' depends on axioms: [propext, Quot.sound]
'Props.Gui.C316_fits' depends on axioms: [propext, Classical.choice, Quot.sound]
'Props.Gui.C317_display_partial' depends on axioms: [propext, Classical.choice, Quot.sound]
'Props.Gui.C317_group_counterexample' depends on axioms: [propext]
'Props.Gui.C317_kids_counterexample' depends on axioms: [propext]
'Props.Gui.C317_move_counterexample' depends on axioms: [propext]
'Props.Gui.C318_float_partial' depends on axioms: [propext, Classical.choice, Quot.sound]
'Props.Gui.C318_click' does not depend on any axioms
'Props.Gui.C318_sign_counterexample' does not depend on any axioms
'Props.Gui.C318_setState_counterexample' does not depend on any axioms
'Props.Gui.C319_inverse' depends on axioms: [propext, Classical.choice, Quot.sound]
'Props.Gui.C319_cycle' depends on axioms: [propext, Quot.sound]
'Props.Gui.C320_palette_partial' depends on axioms: [propext, Quot.sound]
'Props.Gui.C320_group_counterexample' depends on axioms: [propext, Quot.sound]
'Props.I2cTiming.C321_timings' depends on axioms: [propext, Classical.choice, Quot.sound]
'Props.I2cTiming.C321_best' depends on axioms: [propext, Classical.choice, Quot.sound]
'Props.I2cTiming.C322_hold_partial' depends on axioms: [propext, Classical.choice, Quot.sound]
'Props.I2cTiming.C322_filter_counterexample' depends on axioms: [propext, Classical.choice, Quot.sound]
'Props.I2cTiming.C322_valid_counterexample' depends on axioms: [propext, Classical.choice, Quot.sound]
'Props.I2cTiming.C322_rise_counterexample' depends on axioms: [propext, Classical.choice, Quot.sound]
'Props.I2cTiming.C323_register' depends on axioms: [propext, Classical.choice, Quot.sound]
'Props.Location.C324_normalize_partial' depends on axioms: [propext, Classical.choice, Quot.sound]
'Props.Location.C324_endless_counterexample' depends on axioms: [propext, Classical.choice, Quot.sound]
'Props.Location.C325_reverse_partial' depends on axioms: [propext, Classical.choice, Quot.sound]
'Props.Location.C325_equivalent_counterexample' depends on axioms: [propext, Classical.choice, Quot.sound]
'Props.Location.C326_moves' depends on axioms: [propext, Classical.choice, Quot.sound]
'Props.Location.C327_compare_partial' depends on axioms: [propext, Classical.choice, Quot.sound]
'Props.Location.C327_neither_counterexample' depends on axioms: [propext, Classical.choice, Quot.sound]
'Props.CycleCounter.C328_up_partial' depends on axioms: [propext, Classical.choice, Quot.sound]
'Props.CycleCounter.C328_short_counterexample' depends on axioms: [propext]
'Props.CycleCounter.C329_down_partial' depends on axioms: [propext, Classical.choice, Quot.sound]
'Props.CycleCounter.C329_underflow_counterexample' depends on axioms: [propext]
'Props.CycleCounter.C330_units_partial' depends on axioms: [propext, Quot.sound]
'Props.CycleCounter.C330_nanoseconds_counterexample' depends on axioms: [propext]
'Props.ThreadSemaphore.C331_counter' depends on axioms: [propext, Classical.choice, Quot.sound]
'Props.ThreadSemaphore.C332_awake_partial' depends on axioms: [propext, Quot.sound]
'Props.ThreadSemaphore.C332_lost_counterexample' depends on axioms: [propext]
'Props.ThreadSemaphore.C333_timeout_partial' depends on axioms: [propext, Classical.choice, Quot.sound]
'Props.ThreadSemaphore.C333_restart_counterexample' depends on axioms: [propext, Quot.sound]
'Props.Exti.C334_source_partial' depends on axioms: [propext, Classical.choice, Quot.sound]
'Props.Exti.C334_eight_counterexample' depends on axioms: [propext, Quot.sound]
'Props.Exti.C335_irq_partial' depends on axioms: [propext, Classical.choice, Quot.sound]
'Props.Exti.C335_lost_counterexample' depends on axioms: [propext, Quot.sound]
'Props.Exti.C336_connect_partial' depends on axioms: [propext, Classical.choice, Quot.sound]
'Props.Exti.C336_early_counterexample' depends on axioms: [propext, Quot.sound]
'Props.Dma.C337_interrupt_partial' depends on axioms: [propext, Classical.choice, Quot.sound]
'Props.Dma.C337_lost_counterexample' depends on axioms: [propext, Quot.sound]
'Props.Dma.C338_error_partial' depends on axioms: [propext, Classical.choice, Quot.sound]
'Props.Dma.C338_controller_counterexample' depends on axioms: [propext, Quot.sound]
'Props.Dma.C339_flags' depends on axioms: [propext, Classical.choice, Quot.sound]
'Props.RpInt.C340_not_lost' depends on axioms: [propext, Classical.choice, Quot.sound]
'Props.RpInt.C341_calls_partial' depends on axioms: [propext, Classical.choice, Quot.sound]
'Props.RpInt.C341_upper_counterexample' depends on axioms: [propext, Quot.sound]
'Props.RpInt.C342_connect' depends on axioms: [propext, Classical.choice, Quot.sound]
'Props.SCurve.C343_limits' depends on axioms: [propext, Classical.choice, Quot.sound]
'Props.SCurve.C344_ramps' depends on axioms: [propext, Classical.choice, Quot.sound]
'Props.SCurve.C345_target_partial' depends on axioms: [propext, Classical.choice, Quot.sound]
'Props.SCurve.C345_constructor_counterexample' depends on axioms: [propext, Classical.choice, Quot.sound]
'Props.Ixm42.C346_parse' depends on axioms: [propext, Quot.sound]
'Props.Ixm42.C346_loop_partial' depends on axioms: [propext, Quot.sound]
'Props.Ixm42.C346_end_counterexample' depends on axioms: [propext, Quot.sound]
'Props.Ixm42.C347_values_partial' depends on axioms: [propext, Classical.choice, Quot.sound]
'Props.Ixm42.C347_gyro_counterexample' depends on axioms: [propext, Quot.sound]
'Props.Ixm42.C348_temperature_partial' depends on axioms: [propext, Quot.sound]
'Props.Ixm42.C348_byte_counterexample' depends on axioms: [propext, Quot.sound]
'Props.Drv832x.C349_commit_partial' depends on axioms: [propext, Classical.choice, Quot.sound]
'Props.Drv832x.C349_lost_counterexample' depends on axioms: [propext, Quot.sound]
'Props.Drv832x.C350_transfers' depends on axioms: [propext, Classical.choice, Quot.sound]
'Props.Ft245.C351_read_partial' depends on axioms: [propext, Classical.choice, Quot.sound]
'Props.Ft245.C351_zero_counterexample' does not depend on any axioms
'Props.Ft245.C352_write' depends on axioms: [propext, Quot.sound]
'Props.Spartan3.C353_configure_partial' depends on axioms: [propext, Classical.choice, Quot.sound]
'Props.Spartan3.C353_small_counterexample' depends on axioms: [propext, Classical.choice, Quot.sound]
'Props.DynamicPostman.C354_events_partial' depends on axioms: [propext, Classical.choice, Quot.sound]
'Props.DynamicPostman.C354_short_counterexample' depends on axioms: [propext]
'Props.DynamicPostman.C355_requests_partial' depends on axioms: [propext, Classical.choice, Quot.sound]
'Props.DynamicPostman.C355_zero_counterexample' depends on axioms: [propext]
'Props.GpioSampler.C356_samples_partial' depends on axioms: [propext, Quot.sound]
'Props.GpioSampler.C356_last_partial' depends on axioms: [propext, Quot.sound]
'Props.GpioSampler.C356_lost_counterexample' depends on axioms: [propext, Quot.sound]
'Props.GpioSampler.C357_diff' depends on axioms: [propext, Quot.sound]
'Props.SpiRam.C358_write' depends on axioms: [propext, Classical.choice, Quot.sound]
'Props.SpiRam.C359_read' depends on axioms: [propext, Classical.choice, Quot.sound]
'Props.Itm.C360_order' depends on axioms: [propext, Classical.choice, Quot.sound]
'Props.Itm.C361_flush_partial' depends on axioms: [propext, Classical.choice, Quot.sound]
'Props.Itm.C361_flush_counterexample' depends on axioms: [propext, Quot.sound]
'Props.Is31fl3733.C362_registers_partial' depends on axioms: [propext, Quot.sound]
'Props.Is31fl3733.C362_reset_counterexample' depends on axioms: [propext]
'Props.Is31fl3733.C363_leds_partial' depends on axioms: [propext, Classical.choice, Quot.sound]
'Props.Lp503x.C364_leds' depends on axioms: [propext, Classical.choice, Quot.sound]
'Props.Lp503x.C365_config' depends on axioms: [propext, Classical.choice, Quot.sound]
'Props.Lis3dsh.C366_control_partial' depends on axioms: [propext, Quot.sound]
'Props.Lis3dsh.C366_failed_counterexample' depends on axioms: [propext, Quot.sound]
'Props.Lis3dsh.C367_acceleration_partial' depends on axioms: [propext, Classical.choice, Quot.sound]
'Props.Lis3dsh.C367_failed_counterexample' depends on axioms: [propext, Quot.sound]
'Props.Lis3dsh.C367_increment_counterexample' depends on axioms: [propext, Quot.sound]
'Props.Ltc2984.C368_temperature' depends on axioms: [propext, Classical.choice, Quot.sound]
'Props.Ltc2984.C369_registers' depends on axioms: [propext, Classical.choice, Quot.sound]
'Props.Ltc2984.C369_absent' depends on axioms: [propext, Quot.sound]
'Props.Ltc2984.C370_configure_partial' depends on axioms: [propext, Quot.sound]
'Props.Ltc2984.C370_configure_counterexample' depends on axioms: [propext, Quot.sound]
'Props.Spartan6.C371_bytes' depends on axioms: [propext, Classical.choice, Quot.sound]
'Props.Spartan6.C372_result_partial' depends on axioms: [propext, Classical.choice, Quot.sound]
'Props.Spartan6.C372_error_counterexample' does not depend on any axioms
'Props.Cat24aa.C373_memory_partial' depends on axioms: [propext, Classical.choice, Quot.sound]
'Props.Cat24aa.C373_page_counterexample' depends on axioms: [propext, Quot.sound]
'Props.Mcp23s08.C374_port' depends on axioms: [propext, Classical.choice, Quot.sound]
'Props.Mcp23s08.C374_interrupt' depends on axioms: [propext, Quot.sound]
'Props.Tcs3414.C375_others_partial' depends on axioms: [propext, Quot.sound]
'Props.Tcs3414.C375_value_counterexample' depends on axioms: [propext, Quot.sound]
'Props.Tcs3414.C376_colors_partial' depends on axioms: [propext, Quot.sound]
'Props.Tcs3414.C376_beyond_counterexample' depends on axioms: [propext, Quot.sound]
'Props.Tcs3472.C377_registers' depends on axioms: [propext, Quot.sound]
'Props.Tcs3472.C377_colors' depends on axioms: [propext, Quot.sound]
'Props.Tcs3472.C378_modes_partial' depends on axioms: [propext, Quot.sound]
'Props.Tcs3472.C378_wait_counterexample' depends on axioms: [propext, Quot.sound]
'Props.Hmc6343.C379_values' depends on axioms: [propext, Classical.choice, Quot.sound]
'Props.Hmc6343.C379_mode' depends on axioms: [propext, Quot.sound]
'Props.Hmc6343.C380_written' depends on axioms: [propext, Classical.choice, Quot.sound]
'Props.Hmc6343.C380_read' depends on axioms: [propext, Quot.sound] 
