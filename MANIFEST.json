{
 "claims": [
  {
   "property": "C01",
   "status": "proved",
   "theorems": [
    "Props.C01_queue_is_bounded_fifo"
   ],
   "note": "All N <= 65535, all histories, all initial buffer contents; also shows no access leaves the buffer."
  },
  {
   "property": "C02",
   "status": "proved",
   "theorems": [
    "Props.C02_queue_interleaving_safe",
    "Props.C02_queue_takes_prefix_of_pushes",
    "Props.C02_queue_no_loss",
    "Props.C02_queue_push_succeeds",
    "Props.C02_queue_no_slot_conflict"
   ],
   "note": "Sequentially consistent accesses in source order; index accesses atomic; compiler reordering of buffer accesses is not modelled."
  },
  {
   "property": "C03",
   "status": "proved",
   "theorems": [
    "Props.C03_deque_refines_list"
   ],
   "note": "All N in 1..65535 (index types modelled at their minimum width)."
  },
  {
   "property": "C04",
   "status": "proved",
   "theorems": [
    "Props.C04_deque_indexing"
   ],
   "note": ""
  },
  {
   "property": "C05",
   "status": "partial",
   "theorems": [
    "Props.C05_deque_iteration_partial",
    "Props.C05_deque_iterator_decrement_partial",
    "Props.C05_deque_empty_iteration_counterexample",
    "Props.C05_deque_decrement_end_counterexample"
   ],
   "note": "Proved for non-empty deques. False for the empty deque (iteration visits one stale slot, for every N) and for decrementing end(); both refuted by theorem."
  },
  {
   "property": "C06",
   "status": "proved",
   "theorems": [
    "Props.LinkedList.C06_linkedList_refines_sequence",
    "Props.LinkedList.C06_remove_returns_successor"
   ],
   "note": "Proved over an explicit heap with adversarial node addresses (freed addresses may come back) and arbitrary contents of fresh memory; undefined behaviour is a failing step. Allocation is assumed to succeed. insert puts the new element behind the given position, at the end for end()."
  },
  {
   "property": "C07",
   "status": "proved",
   "theorems": [
    "Props.DoublyLinkedList.C07_doublyLinkedList_refines_sequence",
    "Props.DoublyLinkedList.C07_erase_returns_successor"
   ],
   "note": "Same heap model, both pointer chains; erase of an element of the list. Allocation is assumed to succeed."
  },
  {
   "property": "C08",
   "status": "partial",
   "theorems": [
    "Props.DynamicArray.C08_runs_partial",
    "Props.DynamicArray.C08_contents_partial",
    "Props.DynamicArray.C08_no_leak_partial",
    "Props.DynamicArray.C08_find_partial",
    "Props.DynamicArray.C08_reserve_partial",
    "Props.DynamicArray.C08_append_own_element_counterexample",
    "Props.DynamicArray.C08_append_own_element_room_partial",
    "Props.DynamicArray.C08_self_assignment_counterexample",
    "Props.DynamicArray.C08_reserve_overflow_counterexample"
   ],
   "note": "Proved over cells with explicit lifetimes for every history without the three refuted operations: assigning a non-empty array to itself, appending a reference to an own element while full, and reserving so much that the capacity arithmetic overflows. Allocation is assumed to succeed."
  },
  {
   "property": "C09",
   "status": "partial",
   "theorems": [
    "Props.SmartPointer.C09_runs_partial",
    "Props.SmartPointer.C09_freed_with_last_handle_partial",
    "Props.SmartPointer.C09_counter_wraps_counterexample",
    "Props.SmartPointer.C09_self_assignment_counterexample"
   ],
   "note": "Proved while no buffer has more than 256 handles and no sole handle is assigned to itself; both exceptions are refuted (8-bit counter, release before acquire)."
  },
  {
   "property": "C10",
   "status": "proved",
   "theorems": [
    "Props.C10_timeout_expiry",
    "Props.C11_timeout_history"
   ],
   "note": ""
  },
  {
   "property": "C11",
   "status": "proved",
   "theorems": [
    "Props.C11_timeout_history",
    "Props.C11_timeout_fires_at_most_once",
    "Props.C11_timeout_silent_after_stop"
   ],
   "note": ""
  },
  {
   "property": "C12",
   "status": "partial",
   "theorems": [
    "Props.C12_remaining_exact",
    "Props.C12_remaining_partial",
    "Props.C12_remaining_wrap_counterexample"
   ],
   "note": "Exact value proved for all inputs; equals t0+I-t only when the counter does not wrap between arming and query, refuted otherwise."
  },
  {
   "property": "C13",
   "status": "partial",
   "theorems": [
    "Props.C13_periodic_partial",
    "Props.C13_periodic_not_due",
    "Props.C13_periodic_phase",
    "Props.C13_periodic_count_counterexample"
   ],
   "note": "Phase part proved for all poll histories; the returned count is one too small when polled exactly on the second or a later multiple (refuted by example, exact count proved)."
  },
  {
   "property": "C14",
   "status": "partial",
   "theorems": [
    "Props.C14_interval_partial",
    "Props.C14_interval_counterexample"
   ],
   "note": "Proved for units not coarser than the tick; false for coarser units because the assertion checks the unconverted count."
  },
  {
   "property": "C15",
   "status": "partial",
   "theorems": [
    "Props.Scheduler.C15_runs_due_tasks_in_order_partial",
    "Props.Scheduler.C15_order_is_fixed",
    "Props.Scheduler.C15_priority_zero_counterexample",
    "Props.Scheduler.C15_priority_zero_never_runs",
    "Props.Scheduler.C15_overrun_hangs_counterexample"
   ],
   "note": "Proved for positive priorities and tasks that end before the next tick (a period of 0 counts 65536 ticks). Refuted: a task of priority 0 never runs and makes a later tick loop forever; a task that becomes due twice while waiting makes a tick loop forever."
  },
  {
   "property": "C16",
   "status": "partial",
   "theorems": [
    "Props.PtSemaphore.C16_never_over_grants",
    "Props.PtSemaphore.C16_fails_only_when_empty_partial",
    "Props.PtSemaphore.C16_release_wraps_counterexample"
   ],
   "note": "Never over-granting holds for every history. Acquire fails only when empty while at most 65535 permits are outstanding; beyond that it is refuted (16-bit counter)."
  },
  {
   "property": "C17",
   "status": "proved",
   "theorems": [
    "Props.Fiber.C17_agrees_with_queue",
    "Props.Fiber.C17_runs",
    "Props.Fiber.C17_round_robin"
   ],
   "note": "Refinement of a FIFO queue for every history. Context switching itself (assembler) is not modelled; one core."
  },
  {
   "property": "C18",
   "status": "proved",
   "theorems": [
    "Props.C18_bitReverse8",
    "Props.C18_bitReverse16",
    "Props.C18_bitReverse32"
   ],
   "note": "Portable C++ branches; inline assembly not modelled."
  },
  {
   "property": "C19",
   "status": "proved",
   "theorems": [
    "Props.C19_bitCount8",
    "Props.C19_bitCount16",
    "Props.C19_bitCount32",
    "Props.C19_leftmostBit"
   ],
   "note": ""
  },
  {
   "property": "C20",
   "status": "proved",
   "theorems": [
    "Props.C20_swap8",
    "Props.C20_swap16",
    "Props.C20_swap32",
    "Props.C20_swap_involutive",
    "Props.C20_bigEndian_memory"
   ],
   "note": "Portable C++ branches, little-endian host."
  },
  {
   "property": "C21",
   "status": "partial",
   "theorems": [
    "Props.C21_crc8_detects_low_bits_partial",
    "Props.C21_crc8_misses_bit7_counterexample",
    "Props.C21_crc8_not_ccitt_counterexample"
   ],
   "note": "False of the portable branch (the shift happens before the top-bit test, so bit 7 is lost). Proved instead: a one-byte change is detected exactly when it touches a bit other than bit 7."
  },
  {
   "property": "C22",
   "status": "proved",
   "theorems": [
    "Props.C22_crc16_is_remainder",
    "Props.C22_crc16_value",
    "Props.C22_generator",
    "Props.C22_crc16_remainder_determines",
    "Props.C22_crc16_detects_two_bytes",
    "Props.C22_crc16_linear"
   ],
   "note": "Remainder stated with Mathlib polynomials over ZMod 2; portable branch."
  },
  {
   "property": "C23",
   "status": "proved",
   "theorems": [
    "Props.C23_crc32_is_remainder",
    "Props.C23_crc32_value",
    "Props.C23_generator",
    "Props.C23_crc32_detects_four_bytes",
    "Props.C23_crc32_residue"
   ],
   "note": ""
  },
  {
   "property": "C24",
   "status": "partial",
   "theorems": [
    "Props.C24_add_clamps_partial",
    "Props.C24_sub_clamps_partial",
    "Props.C24_inc_dec",
    "Props.C24_min_operand_counterexample"
   ],
   "note": "Proved for all types and operands except the most negative value of a signed right operand of 32 or more bits, whose negation is undefined behaviour in the code."
  },
  {
   "property": "C25",
   "status": "partial",
   "theorems": [
    "Props.C25_mul_unsigned",
    "Props.C25_mul_signed_partial",
    "Props.C25_mul_counterexamples",
    "Props.C25_mul_underflow_wrong"
   ],
   "note": "Proved for unsigned types and for signed results within [-max, max] or above with non-negative factor; products below the minimum give +max, refuted for all types."
  },
  {
   "property": "C26",
   "status": "proved",
   "theorems": [
    "Props.C26_median_filter",
    "Props.C26_median_unique",
    "Props.C26_append_keeps_value"
   ],
   "note": "All linear orders (0-1 principle plus the complete Boolean table of each network)."
  },
  {
   "property": "C27",
   "status": "proved",
   "theorems": [
    "Props.C27_moving_average",
    "Props.C27_moving_average_recovers",
    "Props.C27_reset"
   ],
   "note": "Integer types; the floating-point branch is not modelled."
  },
  {
   "property": "C28",
   "status": "proved",
   "theorems": [
    "Props.C28_fir",
    "Props.C28_fir_int"
   ],
   "note": "Generic in the arithmetic of T."
  },
  {
   "property": "C29",
   "status": "partial",
   "theorems": [
    "Props.C29_limits",
    "Props.C29_value_partial",
    "Props.C29_int16_never_negative",
    "Props.C29_documented_example",
    "Props.C29_error_sum_wraps_counterexample"
   ],
   "note": "Limits proved for every run. The value claim is proved for int32_t or scale 1 and refuted for int16_t with a scale above one, where the output is never negative."
  },
  {
   "property": "C30",
   "status": "partial",
   "theorems": [
    "Props.C30_ramp_partial",
    "Props.C30_ramp_unsigned",
    "Props.C30_ramp_counterexample",
    "Props.C30_reset_stale"
   ],
   "note": "Proved for unsigned types and when the distance to the target is representable; false for signed types otherwise."
  },
  {
   "property": "C31",
   "status": "proved",
   "theorems": [
    "Props.C31_hysteresis",
    "Props.C31_glitch_immunity",
    "Props.C31_response",
    "Props.C31_counter_in_range",
    "Props.C31_init_reset",
    "Props.C31_reset_immunity"
   ],
   "note": ""
  },
  {
   "property": "C32",
   "status": "partial",
   "theorems": [
    "Props.C32_range_partial",
    "Props.C32_range_step_one",
    "Props.C32_range_empty",
    "Props.C32_range_wraps_forever",
    "Props.C32_range_wrong_values"
   ],
   "note": "Proved when the sequence reaches stop exactly or does not wrap; refuted near the type limits, where it loops forever or yields wrong values."
  },
  {
   "property": "C33",
   "status": "proved",
   "theorems": [
    "Props.C33_from_range",
    "Props.C33_from_function",
    "Props.C33_from_linear",
    "Props.C33_from_linear_wraps",
    "Props.C33_from_power"
   ],
   "note": "Positive frequencies up to 2^50, every rounding of double that is monotone, exact on integers up to 2^53 and has relative error at most 2^-53. from_power is optimal for the exact (unrounded) frequency."
  },
  {
   "property": "C34",
   "status": "partial",
   "theorems": [
    "Props.C34_counter_partial",
    "Props.C34_skipped_prescaler_counterexample",
    "Props.C34_overflow_counterexample"
   ],
   "note": "Optimal among prescalers that can reach the ratio, exact arithmetic, products below 2^32; refuted otherwise."
  },
  {
   "property": "C35",
   "status": "partial",
   "theorems": [
    "Props.C35_clamp",
    "Props.C35_linear_partial",
    "Props.C35_exact_at_points_partial",
    "Props.C35_unsigned_output_counterexample",
    "Props.C35_signed_input_counterexample",
    "Props.C35_unsigned_input_counterexample",
    "Props.C35_product_overflow_counterexample"
   ],
   "note": "Clamping proved for all tables. The value claim is proved for tables whose differences and products fit the types the code uses, and refuted by one witness for each way to leave them (signed casts of unsigned outputs, signed input distances, 32-bit unsigned inputs, product overflow)."
  },
  {
   "property": "C36",
   "status": "proved",
   "theorems": [
    "Props.Sab.C36_sends_frame",
    "Props.Sab.C36_receives_every_frame",
    "Props.Sab.C36_round_trip"
   ],
   "note": ""
  },
  {
   "property": "C37",
   "status": "proved",
   "theorems": [
    "Props.Sab.C37_memory_safe",
    "Props.Sab.C37_resynchronises",
    "Props.Sab.C37_bound_tight"
   ],
   "note": ""
  },
  {
   "property": "C38",
   "status": "partial",
   "theorems": [
    "Props.Sab.C38_new_message_is_frame_partial",
    "Props.Sab.C38_intact_without_sync_partial",
    "Props.Sab.C38_overwritten_counterexample",
    "Props.Sab.C38_bad_frame_replaces_counterexample"
   ],
   "note": "Holds at the moment the message becomes available and until the next sync byte; refuted afterwards, also within a single update() call."
  },
  {
   "property": "C39",
   "status": "proved",
   "theorems": [
    "Props.Sab.C39_single_byte_error"
   ],
   "note": ""
  },
  {
   "property": "C40",
   "status": "partial",
   "theorems": [
    "Props.Sab2.C40_sends_frame",
    "Props.Sab2.C40_round_trip",
    "Props.Sab2.C40_round_trip_initial",
    "Props.Sab2.size_fits",
    "Props.Sab2.C40_size_wraps_counterexample"
   ],
   "note": "Proved from every receiver state for every N below 252 or between 255 and 65531; for N = 252..254 the size type wraps and the longest payloads are lost (refuted). Payloads above 255 bytes assume uint_fast8_t wider than 8 bits."
  },
  {
   "property": "C41",
   "status": "partial",
   "theorems": [
    "Props.Sab2.C41_memory_safe",
    "Props.Sab2.C41_pending_untouched",
    "Props.Sab2.C41_overlong_partial",
    "Props.Sab2.C41_overlong_reported_counterexample"
   ],
   "note": "Memory safety proved for every stream. Over-long frames are refuted for every buffer size: the length is reset but the checksum is not."
  },
  {
   "property": "C42",
   "status": "partial",
   "theorems": [
    "Props.Rpr.C42_sends_frame",
    "Props.Rpr.C42_node_to_node_partial",
    "Props.Rpr.C42_received_partial",
    "Props.Rpr.C42_bad_checksum",
    "Props.Rpr.C42_payload_counterexample"
   ],
   "note": "Source, command and type are right for every message that fits; the delivered payload always carries the two checksum bytes at its end (refuted for every message)."
  },
  {
   "property": "C43",
   "status": "partial",
   "theorems": [
    "Props.Rpr.C43_memory_safe_partial",
    "Props.Rpr.C43_length_wraps_counterexample"
   ],
   "note": "Proved for streams with at most 255 content bytes between delimiters; refuted for every buffer size by a longer frame addressed to the node."
  },
  {
   "property": "C44",
   "status": "partial",
   "theorems": [
    "Props.Rpr.C44_single_message_partial",
    "Props.Rpr.C44_second_lost_counterexample",
    "Props.Rpr.C44_direct_send_drops_counterexample"
   ],
   "note": "A single queued message is written once; with two queued messages the second is dropped unsent (writeMessage and update both pop)."
  },
  {
   "property": "C45",
   "status": "partial",
   "theorems": [
    "Props.Lawicel.C45_round_trip",
    "Props.Lawicel.C45_writes",
    "Props.Lawicel.C45_parses",
    "Props.Lawicel.C45_parser_safe",
    "Props.Lawicel.C45_rejects_partial",
    "Props.Lawicel.C45_any_letter_counterexample",
    "Props.Lawicel.C45_long_message_rejected"
   ],
   "note": "Round trip and safety proved for all messages and strings. Rejection is proved for strings starting with one of the four letters and refuted for all others, which are read as standard data frames."
  },
  {
   "property": "C46",
   "status": "proved",
   "theorems": [
    "Props.C46_bounded_queue_is_fifo",
    "Props.C46_bounded_stack_is_lifo"
   ],
   "note": ""
  },
  {
   "property": "C47",
   "status": "partial",
   "theorems": [
    "Props.C47_convert_clamps",
    "Props.C47_fitsAny_holds_both",
    "Props.C47_fitsAny_compiles"
   ],
   "note": "Proved for every pair for which the code compiles; with uint64_t in the pair fits_any does not compile at all (also proved)."
  },
  {
   "property": "C48",
   "status": "partial",
   "theorems": [
    "Props.C48_neg_unsigned",
    "Props.C48_neg_signed_partial",
    "Props.C48_neg_min_wrong"
   ],
   "note": "False at the minimum of every signed type (refuted); proved for all other values."
  },
  {
   "property": "C49",
   "status": "proved",
   "theorems": [
    "Props.C49_lagrange_polynomial",
    "Props.C49_lagrange_at_points"
   ],
   "note": "Exact field arithmetic; floating-point rounding is not modelled."
  },
  {
   "property": "C50",
   "status": "proved",
   "theorems": [
    "Props.Sab.C50_slave_answers",
    "Props.Sab.C50_always_answers",
    "Props.Sab.C50_response_frames"
   ],
   "note": "A callback is modelled by the responses it sends."
  },
  {
   "property": "C51",
   "status": "proved",
   "theorems": [
    "Props.Sab.C51_query_round_trip"
   ],
   "note": ""
  },
  {
   "property": "C52",
   "status": "partial",
   "theorems": [
    "Props.Sab.C52_completion_partial",
    "Props.Sab.C52_stale_answer_counterexample"
   ],
   "note": "The master checks neither address nor command of the answer: refuted. Proved: success needs an acknowledge of the expected length, timeout needs no message."
  },
  {
   "property": "C53",
   "status": "partial",
   "theorems": [
    "Props.Sab2.C53_corrupted_content_partial",
    "Props.Sab2.C53_boundary_counterexample"
   ],
   "note": "Proved for altered content bytes; refuted when the altered byte becomes a boundary byte."
  },
  {
   "property": "C54",
   "status": "partial",
   "theorems": [
    "Props.Sab2.C54_reported_is_frame_partial",
    "Props.Sab2.unstuff_stuff"
   ],
   "note": "Proved except for over-long frames, where it is false (see C41)."
  },
  {
   "property": "C55",
   "status": "proved",
   "theorems": [
    "Props.Rpr.C55_forwards"
   ],
   "note": ""
  },
  {
   "property": "C56",
   "status": "proved",
   "theorems": [
    "Props.Rpr.C56_broadcast_ring",
    "Props.Rpr.C56_unicast_ring"
   ],
   "note": "Nodes deliver the payload with the checksum bytes appended, see C42."
  },
  {
   "property": "C57",
   "status": "proved",
   "theorems": [
    "Props.Can.C57_set_length",
    "Props.Can.C57_set_dlc",
    "Props.Can.C57_from_number",
    "Props.Can.C57_dlc_out_of_range"
   ],
   "note": "A data length code above 15 is outside the precondition and reads outside the table."
  },
  {
   "property": "C58",
   "status": "proved",
   "theorems": [
    "Props.Can.C58_base_decides",
    "Props.Can.C58_order",
    "Props.Can.C58_eq",
    "Props.Can.C58_tie"
   ],
   "note": ""
  },
  {
   "property": "C59",
   "status": "partial",
   "theorems": [
    "Props.Scheduler.C59_nothing_higher_partial",
    "Props.Scheduler.C59_lower_preempts_counterexample"
   ],
   "note": "Refuted: the end of a preempting task resets the current priority to 0. Proved: a tick starts nothing when no higher task waits or becomes due."
  },
  {
   "property": "C60",
   "status": "partial",
   "theorems": [
    "Props.BlockAllocator.C60_defined",
    "Props.BlockAllocator.C60_separate",
    "Props.BlockAllocator.C60_keeps_data",
    "Props.BlockAllocator.C60_aligned",
    "Props.BlockAllocator.C60_huge_request_counterexample",
    "Props.BlockAllocator.C60_large_heap_counterexample"
   ],
   "note": "Proved for T = uint16_t, at most 32767 blocks and requests that do not come close to SIZE_MAX; both limits are refuted beyond (arithmetic wraps)."
  },
  {
   "property": "C61",
   "status": "partial",
   "theorems": [
    "Props.BlockAllocator.C61_fails_only_without_gap",
    "Props.BlockAllocator.C61_all_freed",
    "Props.BlockAllocator.C61_available"
   ],
   "note": "Same limits as C60."
  },
  {
   "property": "C62",
   "status": "proved",
   "theorems": [
    "Props.XpccCan.C62_round_trip",
    "Props.XpccCan.C62_range",
    "Props.XpccCan.C62_filters"
   ],
   "note": ""
  },
  {
   "property": "C63",
   "status": "proved",
   "theorems": [
    "Props.XpccCan.C63_any_order",
    "Props.XpccCan.C63_short"
   ],
   "note": "Other fragments with the same header and counter, of another size or as leftovers of an earlier packet, are excluded by hypotheses (see C64)."
  },
  {
   "property": "C64",
   "status": "partial",
   "theorems": [
    "Props.XpccCan.C64_memory_safe_partial",
    "Props.XpccCan.C64_memory_safe_counterexample"
   ],
   "note": "Proved while fragments with the same header and counter announce the same size; refuted otherwise: two frames write 39 bytes behind a buffer of 9 bytes."
  },
  {
   "property": "C65",
   "status": "partial",
   "theorems": [
    "Props.XpccCan.C65_lossless_partial",
    "Props.XpccCan.C65_in_order_partial",
    "Props.XpccCan.C65_drains_partial",
    "Props.XpccCan.C65_overtakes_counterexample",
    "Props.XpccCan.C65_long_packet_counterexample",
    "Props.XpccCan.C65_two_connectors_counterexample"
   ],
   "note": "Exactly-once and unchanged delivery is proved for packets of up to 48 bytes and one connector per program; order only if no short packet is sent directly while others wait. All three limits are refuted beyond."
  },
  {
   "property": "C66",
   "status": "partial",
   "theorems": [
    "Props.Amnb.C66_small_round_trip",
    "Props.Amnb.C66_large_round_trip_partial",
    "Props.Amnb.C66_long_payload_lost_counterexample"
   ],
   "note": "Proved up to 28 bytes for any previous state, and for 29 to 255 bytes if no stale pointer is left; refuted from 256 bytes on: dataLength returns uint8_t, so only the length modulo 256 is sent."
  },
  {
   "property": "C67",
   "status": "partial",
   "theorems": [
    "Props.Amnb.C67_header_partial",
    "Props.Amnb.C67_header_bit7_counterexample",
    "Props.Amnb.C67_data_detected"
   ],
   "note": "Data proved. Header proved for changes outside of bit 7 and the length bits; refuted for bit 7 of any header byte but the checksum (the defect of crc8_ccitt, C21)."
  },
  {
   "property": "C68",
   "status": "partial",
   "theorems": [
    "Props.Amnb.C68_safe_partial",
    "Props.Amnb.C68_small_safe_partial",
    "Props.Amnb.C68_stale_pointer_counterexample",
    "Props.Amnb.C68_unwanted_counterexample",
    "Props.Amnb.C68_wild_free_counterexample"
   ],
   "note": "Refuted: payload of a small message is later used as pointer of a large one (write and free), and the checksum of an unwanted large message is read through null. Proved for lines that announce only large wanted messages and payloads of up to 4 bytes, and for lines without large messages."
  },
  {
   "property": "C69",
   "status": "proved",
   "theorems": [
    "Props.Amnb.C69_dispatch"
   ],
   "note": ""
  },
  {
   "property": "C70",
   "status": "proved",
   "theorems": [
    "Props.Encoder.C70_counts_exactly",
    "Props.Encoder.C70_ideal_conserves",
    "Props.Encoder.C70_init"
   ],
   "note": ""
  },
  {
   "property": "C71",
   "status": "partial",
   "theorems": [
    "Props.Encoder.C71_reaches_setpoint",
    "Props.Encoder.C71_forward_partial",
    "Props.Encoder.C71_backward_counterexample"
   ],
   "note": "Position and forward movement proved; refuted backwards: signal A is driven the wrong way round, so a decoder counts forwards."
  },
  {
   "property": "C72",
   "status": "partial",
   "theorems": [
    "Props.Encoder.C72_delta_partial",
    "Props.Encoder.C72_delta32_counterexample"
   ],
   "note": "Proved for delta types of up to 16 bits; refuted for int32_t, which the template allows."
  },
  {
   "property": "C73",
   "status": "proved",
   "theorems": [
    "Props.Encoder.C73_even_parity"
   ],
   "note": ""
  },
  {
   "property": "C74",
   "status": "proved",
   "theorems": [
    "Props.Date.C74_toDate",
    "Props.Date.C74_date_unique",
    "Props.Date.C74_toUnixTimestamp",
    "Props.Date.C74_round_trip",
    "Props.Date.C74_beyond_range_counterexample"
   ],
   "note": "Outside of the documented range: 2100 is taken for a leap year and dates from 2039 on overflow an int."
  },
  {
   "property": "C75",
   "status": "partial",
   "theorems": [
    "Props.Date.C75_dayOfTheYear_partial",
    "Props.Date.C75_dayOfTheYear_counterexample"
   ],
   "note": "Proved for the first 256 days of a year; refuted for the others: the field is a uint8_t."
  },
  {
   "property": "C76",
   "status": "proved",
   "theorems": [
    "Props.Register.C76_change",
    "Props.Register.C76_ask",
    "Props.Register.C76_ask_bit",
    "Props.Register.C76_all_enum_of_two_bits_counterexample"
   ],
   "note": "The overload of all for an enum value asks for any of its bits; the same thing for the documented single bits."
  },
  {
   "property": "C77",
   "status": "partial",
   "theorems": [
    "Props.Register.C77_value_get",
    "Props.Register.C77_value_set",
    "Props.Register.C77_value_independent",
    "Props.Register.C77_value_reset",
    "Props.Register.C77_configuration_partial",
    "Props.Register.C77_configuration_counterexample"
   ],
   "note": "Values proved. Configurations proved for enum values within the mask; refuted for others: set does not mask them."
  },
  {
   "property": "C78",
   "status": "partial",
   "theorems": [
    "Props.Color.C78_components",
    "Props.Color.C78_round_trip",
    "Props.Color.C78_loss",
    "Props.Color.C78_add",
    "Props.Color.C78_sub",
    "Props.Color.C78_widen_narrow",
    "Props.Color.C78_uint16_counterexample"
   ],
   "note": "Proved for byte components; refuted for RgbT<uint16_t>: the low bytes are packed, and the blue component is not masked."
  },
  {
   "property": "C79",
   "status": "partial",
   "theorems": [
    "Props.Color.C79_hsv",
    "Props.Color.C79_value",
    "Props.Color.C79_uint16_counterexample"
   ],
   "note": "Proved for byte components; refuted for HsvT<uint16_t>, which the code marks as unfinished."
  },
  {
   "property": "C80",
   "status": "proved",
   "theorems": [
    "Props.Button.C80_debounce",
    "Props.Button.C80_getState"
   ],
   "note": ""
  },
  {
   "property": "C81",
   "status": "proved",
   "theorems": [
    "Props.Button.C81_events"
   ],
   "note": ""
  },
  {
   "property": "C82",
   "status": "partial",
   "theorems": [
    "Props.Button.C82_repeat",
    "Props.Button.C82_reported_once",
    "Props.Button.C82_shared_counter_counterexample"
   ],
   "note": "Timing from the moment any button of the mask is pressed and single reports proved; refuted for a timing per button: the counter is shared, so that a button pressed while another is held repeats at once and counts as a long press."
  },
  {
   "property": "C83",
   "status": "proved",
   "theorems": [
    "Props.OneWire.C83_enumerate",
    "Props.OneWire.C83_order",
    "Props.OneWire.C83_found_is_present"
   ],
   "note": ""
  },
  {
   "property": "C84",
   "status": "partial",
   "theorems": [
    "Props.OneWire.C84_family_partial",
    "Props.OneWire.C84_family_counterexample"
   ],
   "note": "Proved: if there is a device of the family, all of them come first, in order. Refuted: other devices follow, and without a device of the family one of another family is returned."
  },
  {
   "property": "C85",
   "status": "partial",
   "theorems": [
    "Props.OneWire.C85_skip_next_partial",
    "Props.OneWire.C85_families_partial",
    "Props.OneWire.C85_skip_counterexample"
   ],
   "note": "Proved: the next family is found if there is one, and alternating searches and skips list the families. Refuted: skipping the last family returns its first device again if the search came there by itself (stale family discrepancy)."
  },
  {
   "property": "C86",
   "status": "partial",
   "theorems": [
    "Props.OneWire.C86_verify_partial",
    "Props.OneWire.C86_verified_is_present",
    "Props.OneWire.C86_verify_counterexample"
   ],
   "note": "Proved if the buffer of the last search holds the ROM code; a verified device is always on the bus. Refuted otherwise: the given ROM code is never copied to the buffer that guides the search."
  },
  {
   "property": "C87",
   "status": "proved",
   "theorems": [
    "Props.OneWire.C87_writeByte",
    "Props.OneWire.C87_readByte",
    "Props.OneWire.C87_round_trip",
    "Props.OneWire.C87_touchByte"
   ],
   "note": ""
  },
  {
   "property": "C88",
   "status": "partial",
   "theorems": [
    "Props.Mono.C88_vertical_partial",
    "Props.Mono.C88_horizontal_partial",
    "Props.Mono.C88_cleared",
    "Props.Mono.C88_negative_counterexample",
    "Props.Display.C88_clear_point_counterexample"
   ],
   "note": "Proved for coordinates that are not negative. Refuted: negative coordinates are not tested (write before the buffer, shift by a negative number); clearPixel(Point) calls setPixel."
  },
  {
   "property": "C89",
   "status": "partial",
   "theorems": [
    "Props.Display.C89_line",
    "Props.Display.C89_line_counterexample"
   ],
   "note": "Proved for all points from -32767 to 32766 with differences up to 32767; longer lines are refuted."
  },
  {
   "property": "C90",
   "status": "partial",
   "theorems": [
    "Props.Display.C90_straight_lines",
    "Props.Display.C90_rectangle_partial",
    "Props.Display.C90_image",
    "Props.Display.C90_rectangle_counterexample"
   ],
   "note": "Proved for sizes of at least one pixel; a rectangle without width is not empty."
  },
  {
   "property": "C91",
   "status": "proved",
   "theorems": [
    "Props.Display.C91_circle"
   ],
   "note": ""
  },
  {
   "property": "C92",
   "status": "partial",
   "theorems": [
    "Props.Mono.C92_horizontal_partial",
    "Props.Mono.C92_vertical_partial",
    "Props.Mono.C92_image_partial",
    "Props.Mono.C92_lines_counterexample",
    "Props.Mono.C92_image_counterexample"
   ],
   "note": "Proved for lines that do not begin left of the display and end before row 128 (or 249 on displays of up to 128 rows), and images up to the bottom of the display. Refuted: the end of a vertical line is stored in an int8_t; an image across the bottom of the display overflows the buffer."
  },
  {
   "property": "C93",
   "status": "partial",
   "theorems": [
    "Props.Display.C93_rectangle_partial",
    "Props.Display.C93_circle_partial",
    "Props.Display.C93_rectangle_counterexample",
    "Props.Display.C93_circle_counterexample"
   ],
   "note": "Rectangles proved for a start on the display, refuted for a negative start. Circle: all points within radius - 1 are filled and none beyond the radius and half a pixel; refuted: the lowest row and pixels of the drawn circle are missing."
  },
  {
   "property": "C94",
   "status": "partial",
   "theorems": [
    "Props.Display.C94_rounded_partial",
    "Props.Display.C94_rounded_counterexample"
   ],
   "note": "Proved for a rectangle with one more column and row than asked for; refuted for the given size; with radius 0 both sizes are drawn."
  },
  {
   "property": "C95",
   "status": "partial",
   "theorems": [
    "Props.Mono.C95_write_partial",
    "Props.Mono.C95_outside",
    "Props.Mono.C95_newline",
    "Props.Mono.C95_width_partial",
    "Props.Mono.C95_width_counterexample",
    "Props.Mono.C95_write_counterexample"
   ],
   "note": "Proved for characters below 128 that are in the font. Refuted: getStringWidth counts a space after characters from 128 on, and reads outside of the font for characters that are not in it, such as a newline."
  },
  {
   "property": "C96",
   "status": "partial",
   "theorems": [
    "Props.Resumable.C96_fiber_partial",
    "Props.Resumable.C96_idle_again_partial",
    "Props.Resumable.C96_blocking_partial",
    "Props.Resumable.C96_static_assert",
    "Props.Resumable.C96_argument_counterexample"
   ],
   "note": "Refinement proved for bodies whose macros have distinct positions (the static_assert implies it), whose call arguments do not change while the call is suspended and whose call chains fit into the levels. Refuted: the arguments of RF_CALL are evaluated anew at every resumption, from the state of that moment. Missing: PT_SPAWN and PT_WAIT_THREAD, for and switch statements, local variables."
  },
  {
   "property": "C97",
   "status": "partial",
   "theorems": [
    "Props.Resumable.C97_exclusive_partial",
    "Props.Resumable.C97_same_file",
    "Props.Resumable.C97_two_files_counterexample"
   ],
   "note": "Proved when the state numbers of the two functions are disjoint, which holds for functions of one file within 255 macros. Refuted for functions of one object that are written in two files: the numbers coincide and the other function goes on in the middle of its body."
  },
  {
   "property": "C98",
   "status": "partial",
   "theorems": [
    "Props.Resumable.C98_memory_safe_partial",
    "Props.Resumable.C98_too_deep",
    "Props.Resumable.C98_unchecked_counterexample",
    "Props.Resumable.C98_running_counterexample"
   ],
   "note": "Proved with the option check_nesting_depth. Refuted without it, and for isResumableRunning() called from the innermost level, which reads behind the array."
  },
  {
   "property": "C99",
   "status": "proved",
   "theorems": [
    "Props.Resumable.C99_stop_all",
    "Props.Resumable.C99_stop_one",
    "Props.Resumable.C99_queries",
    "Props.Resumable.C99_nested_stop",
    "Props.Resumable.C99_stop_idle",
    "Props.Resumable.C99_depth",
    "Props.Resumable.C99_single"
   ],
   "note": "getResumableDepth for fewer than 128 active levels; stopping a nested object from outside makes it callable anew if it calls functions of its own object only."
  },
  {
   "property": "C100",
   "status": "proved",
   "theorems": [
    "Props.Resumable.C100_ended",
    "Props.Resumable.C100_running",
    "Props.Resumable.C100_stop"
   ],
   "note": "For bodies and call graphs as in C96."
  },
  {
   "property": "C101",
   "status": "partial",
   "theorems": [
    "Props.Resumable.C101_return",
    "Props.Resumable.C101_end_counterexample"
   ],
   "note": "Refuted for RF_END: the result is not initialised."
  },
  {
   "property": "C102",
   "status": "partial",
   "theorems": [
    "Props.Storage.C102_heap",
    "Props.Storage.C102_heap_refuses_partial",
    "Props.Storage.C102_heap_counterexample",
    "Props.Storage.C102_file",
    "Props.Storage.C102_file_refuses_partial",
    "Props.Storage.C102_file_init",
    "Props.Storage.C102_file_counterexample"
   ],
   "note": "Proved for all requests within the device; requests beyond its end are refused if address + size is below 2^32. Refuted otherwise: the sum wraps around, the access is outside of the memory or makes the file longer."
  },
  {
   "property": "C103",
   "status": "partial",
   "theorems": [
    "Props.Storage.C103_mirror_partial",
    "Props.Storage.C103_both",
    "Props.Storage.C103_failure_counterexample",
    "Props.Storage.C103_size_counterexample"
   ],
   "note": "Equal contents proved for requests that both devices accept. Refuted: the result is resultA && resultA, a failure of the second device is not reported; the size of the mirror is not checked."
  },
  {
   "property": "C104",
   "status": "partial",
   "theorems": [
    "Props.Storage.C104_flash_partial",
    "Props.Storage.C104_program_partial",
    "Props.Storage.C104_erase_partial",
    "Props.Storage.C104_initialize",
    "Props.Storage.C104_refuses_partial",
    "Props.Storage.C104_whole_counterexample",
    "Props.Storage.C104_whole_write_counterexample",
    "Props.Storage.C104_unaligned_counterexample",
    "Props.Storage.C104_wrap_counterexample"
   ],
   "note": "Proved for aligned requests of less than the whole chip, against a model of the chip from its data sheet. Refuted: erasing or writing the whole chip is ignored by the chip as there is no write enable; addresses that are not aligned wrap within the page; address + size wraps at 2^32."
  },
  {
   "property": "C105",
   "status": "partial",
   "theorems": [
    "Props.Storage.C105_stack_partial",
    "Props.Storage.C105_unaligned",
    "Props.Storage.C105_initialize",
    "Props.Storage.C105_refuses_partial",
    "Props.Storage.C105_whole_die_counterexample"
   ],
   "note": "Proved for aligned requests that do not cover a whole die; refuted for those, as C104."
  },
  {
   "property": "C106",
   "status": "partial",
   "theorems": [
    "Props.Storage.C106_is_busy_partial",
    "Props.Storage.C106_counterexample",
    "Props.Storage.C106_wrap_counterexample"
   ],
   "note": "Proved if no call of selectDie is suspended; refuted otherwise: the argument --currentDie of RF_CALL is evaluated at every resumption."
  },
  {
   "property": "C107",
   "status": "partial",
   "theorems": [
    "Props.Spi.C107_byte",
    "Props.Spi.C107_swap",
    "Props.Spi.C107_device",
    "Props.Spi.C107_buffers",
    "Props.Spi.C107_mode",
    "Props.Spi.C107_reinitialise_counterexample"
   ],
   "note": "Transfers and changes of mode and order proved. Refuted for initialize with an inverted clock: it pulls SCK low, which the device takes for an edge."
  },
  {
   "property": "C108",
   "status": "partial",
   "theorems": [
    "Props.I2c.C108_write_read",
    "Props.I2c.C108_write",
    "Props.I2c.C108_read",
    "Props.I2c.C108_general_call_counterexample",
    "Props.I2c.C108_stretch_counterexample"
   ],
   "note": "Proved for all devices that stretch the clock by at most 499 quarters of a period. Refuted: longer stretching aborts the transfer; a general call that is not acknowledged is reported as data not being acknowledged."
  },
  {
   "property": "C109",
   "status": "partial",
   "theorems": [
    "Props.I2c.C109_over",
    "Props.I2c.C109_returns",
    "Props.I2c.C109_occupied",
    "Props.I2c.C109_stop_counterexample",
    "Props.I2c.C109_lines_counterexample",
    "Props.I2c.C109_busy_counterexample"
   ],
   "note": "Proved but for: a failing STOP leaves an error in the master but none in the transaction; SDA stays pulled when SCL is stuck; start with a busy transaction returns false and sets the state of the transaction to an error."
  },
  {
   "property": "C110",
   "status": "partial",
   "theorems": [
    "Props.I2c.C110_configure",
    "Props.I2c.C110_attach",
    "Props.I2c.C110_again_write",
    "Props.I2c.C110_again_read",
    "Props.I2c.C110_again_counterexample",
    "Props.I2c.C110_null_counterexample"
   ],
   "note": "Refuted: an I2cWriteReadTransaction started again only reads; an I2cReadTransaction with a null buffer and a size makes the master dereference it."
  },
  {
   "property": "C111",
   "status": "partial",
   "theorems": [
    "Props.Spi.C111_spi_partial",
    "Props.Spi.C111_spi_counterexample",
    "Props.I2c.C111_i2c_partial",
    "Props.I2c.C111_i2c_counterexample"
   ],
   "note": "Proved from 7630 Bd (SPI) and 3815 Bd (I2C) on; refuted below: the delay does not fit into 16 bits."
  },
  {
   "property": "C112",
   "status": "partial",
   "theorems": [
    "Props.Spi.C112_lock_partial",
    "Props.Spi.C112_configured",
    "Props.Spi.C112_handler_calls",
    "Props.Spi.C112_overflow_counterexample"
   ],
   "note": "Proved for up to 255 nested calls of acquire; refuted for 256."
  },
  {
   "property": "C113",
   "status": "partial",
   "theorems": [
    "Props.I2c.C113_sending_partial",
    "Props.I2c.C113_written_counterexample",
    "Props.I2c.C113_pulled_counterexample"
   ],
   "note": "Proved for devices that were sending, if the SDA pin is released. Refuted for devices that were being written to, and if the SDA pin is low."
  },
  {
   "property": "C114",
   "status": "partial",
   "theorems": [
    "Props.I2c.C114_bytes_partial",
    "Props.I2c.C114_conditions_counterexample"
   ],
   "note": "Proved for the bytes and acknowledge bits, for every behaviour of the pins. Refuted for STOP and repeated START: SCL is released at once, or after a quarter."
  },
  {
   "property": "C115",
   "status": "proved",
   "theorems": [
    "Props.Geometry.C115_order"
   ],
   "note": ""
  },
  {
   "property": "C116",
   "status": "partial",
   "theorems": [
    "Props.Geometry.C116_ccw",
    "Props.Geometry.C116_equal_counterexample",
    "Props.Geometry.C116_overflow_counterexample"
   ],
   "note": "Proved for different a and b. Refuted for a = b, and for larger coordinates (undefined overflow)."
  },
  {
   "property": "C117",
   "status": "partial",
   "theorems": [
    "Props.Geometry.C117_intersects",
    "Props.Geometry.C117_sound",
    "Props.Geometry.C117_points_partial",
    "Props.Geometry.C117_point_counterexample",
    "Props.Geometry.C117_float_counterexample",
    "Props.Geometry.C117_parallel_counterexample"
   ],
   "note": "intersects: proved for segments with different ends, refuted for segments of one point. getIntersections: proved for coordinates up to 1447 and segments that are not parallel; refuted for larger ones (rounding of float) and for segments on the same line."
  },
  {
   "property": "C118",
   "status": "partial",
   "theorems": [
    "Props.Geometry.C118_polygons",
    "Props.Geometry.C118_segment",
    "Props.Geometry.C118_inside",
    "Props.Geometry.C118_twice_counterexample",
    "Props.Geometry.C118_point_counterexample"
   ],
   "note": "Proved for polygons without repeated vertices. Refuted for isInside with a vertex given twice in a row, and for polygons of one or no point."
  },
  {
   "property": "C119",
   "status": "partial",
   "theorems": [
    "Props.Geometry.C119_crosses",
    "Props.Geometry.C119_total",
    "Props.Geometry.C119_meets_partial",
    "Props.Geometry.C119_polygon",
    "Props.Geometry.C119_polygon_none",
    "Props.Geometry.C119_ccw",
    "Props.Geometry.C119_touch_counterexample",
    "Props.Geometry.C119_polygon_counterexample",
    "Props.Geometry.C119_overflow_counterexample"
   ],
   "note": "Whenever there is a result it is exactly whether the ray crosses the inside of the segment from one side to the other; defined for coordinates up to 90. Refuted for touching at an end of a segment, where a ray passes through a polygon unnoticed, and for overflow."
  },
  {
   "property": "C120",
   "status": "partial",
   "theorems": [
    "Props.Geometry.C120_lines",
    "Props.Geometry.C120_line_circle",
    "Props.Geometry.C120_total",
    "Props.Geometry.C120_circles_partial",
    "Props.Geometry.C120_same",
    "Props.Geometry.C120_overflow_counterexample",
    "Props.Geometry.C120_zero_counterexample",
    "Props.Geometry.C120_inside_counterexample"
   ],
   "note": "Lines: proved. Line and circle: proved whenever the computation does not overflow, which is excluded up to 63; refuted for larger numbers and for lines without direction. Circles: proved except for touching from the inside, where it is refuted: the point is appended twice."
  },
  {
   "property": "C121",
   "status": "partial",
   "theorems": [
    "Props.Geometry.C121_cross",
    "Props.Geometry.C121_dot",
    "Props.Geometry.C121_length_partial",
    "Props.Geometry.C121_length_counterexample",
    "Props.Geometry.C121_distance_partial",
    "Props.Geometry.C121_distance_counterexample",
    "Props.Geometry.C121_operators_partial",
    "Props.Geometry.C121_operators_counterexample"
   ],
   "note": "Cross product: proved. Dot product: proved unless all numbers are -32768, which is undefined. Length and distance: proved up to 32767, refuted above. Operators: proved if the product fits in 16 bits, otherwise refuted."
  },
  {
   "property": "C122",
   "status": "proved",
   "theorems": [
    "Props.Dispatcher.C122_accepted",
    "Props.Dispatcher.C122_refused",
    "Props.Dispatcher.C122_event",
    "Props.Dispatcher.C122_response",
    "Props.Dispatcher.C122_no_more",
    "Props.Dispatcher.C122_delivered"
   ],
   "note": ""
  },
  {
   "property": "C123",
   "status": "partial",
   "theorems": [
    "Props.Dispatcher.C123_at_most_once",
    "Props.Dispatcher.C123_genuine",
    "Props.Dispatcher.C123_swap_counterexample"
   ],
   "note": "At most once, and only with a timeout of or an answer to a call of this action: proved. Refuted for two calls of the same action of a component on the board: each callback gets the answer to the other call."
  },
  {
   "property": "C124",
   "status": "proved",
   "theorems": [
    "Props.Dispatcher.C124_tries",
    "Props.Dispatcher.C124_spacing"
   ],
   "note": ""
  },
  {
   "property": "C125",
   "status": "partial",
   "theorems": [
    "Props.Dispatcher.C125_timeline",
    "Props.Dispatcher.C125_gives_up",
    "Props.Dispatcher.C125_response_counterexample",
    "Props.Dispatcher.C125_broadcast_counterexample"
   ],
   "note": "Proved for calls which are not acknowledged. Refuted for the response timeout, which is never checked, and for calls to component 0."
  },
  {
   "property": "C126",
   "status": "partial",
   "theorems": [
    "Props.Dispatcher.C126_sent_partial",
    "Props.Dispatcher.C126_requests_partial",
    "Props.Dispatcher.C126_responses_stay",
    "Props.Dispatcher.C126_duplicate_counterexample",
    "Props.Dispatcher.C126_kind_counterexample",
    "Props.Dispatcher.C126_forgotten_counterexample"
   ],
   "note": "Proved if no packet that fits (same components and number, of any kind) arrives. Refuted otherwise: a duplicated acknowledge removes the next call before it is sent; the acknowledge of a call removes a response; the acknowledge of a response removes a call."
  },
  {
   "property": "C127",
   "status": "partial",
   "theorems": [
    "Props.Dispatcher.C127_delivered",
    "Props.Dispatcher.C127_order",
    "Props.Dispatcher.C127_counterexample"
   ],
   "note": "Proved if no packet claims to come from component 0; refuted otherwise."
  },
  {
   "property": "C128",
   "status": "proved",
   "theorems": [
    "Props.Dispatcher.C128_returns",
    "Props.Dispatcher.C128_runs",
    "Props.Dispatcher.C128_counterexample"
   ],
   "note": "The counterexample shows that the condition is needed."
  },
  {
   "property": "C129",
   "status": "proved",
   "theorems": [
    "Props.Dispatcher.C129_sent",
    "Props.Dispatcher.C129_delivered",
    "Props.Dispatcher.C129_boards",
    "Props.Dispatcher.C129_callbacks"
   ],
   "note": ""
  },
  {
   "property": "C130",
   "status": "partial",
   "theorems": [
    "Props.Matrix.C130_arithmetic",
    "Props.Matrix.C130_product",
    "Props.Matrix.C130_transpose",
    "Props.Matrix.C130_constants",
    "Props.Matrix.C130_equal",
    "Props.Matrix.C130_size_counterexample"
   ],
   "note": "Proved for matrices with less than 256 elements. Refuted for more: the number of elements is an 8 bit number."
  },
  {
   "property": "C131",
   "status": "partial",
   "theorems": [
    "Props.Matrix.C131_subMatrix",
    "Props.Matrix.C131_outside",
    "Props.Matrix.C131_row",
    "Props.Matrix.C131_column",
    "Props.Matrix.C131_replace",
    "Props.Matrix.C131_removeRow",
    "Props.Matrix.C131_removeColumn",
    "Props.Matrix.C131_add_counterexample"
   ],
   "note": "Refuted for addRow and addColumn, which always read outside of the matrix."
  },
  {
   "property": "C132",
   "status": "proved",
   "theorems": [
    "Props.Matrix.C132_determinant"
   ],
   "note": ""
  },
  {
   "property": "C133",
   "status": "partial",
   "theorems": [
    "Props.Lu.C133_plain_partial",
    "Props.Lu.C133_pivot",
    "Props.Lu.C133_matrix",
    "Props.Lu.C133_plain_counterexample"
   ],
   "note": "Proved with pivoting for regular matrices, without for those whose leading minors are not zero. Refuted otherwise: false is never returned."
  },
  {
   "property": "C134",
   "status": "partial",
   "theorems": [
    "Props.Lu.C134_factors",
    "Props.Lu.C134_solve_partial",
    "Props.Lu.C134_counterexample"
   ],
   "note": "Proved for regular matrices. Refuted for others: true is returned without a solution."
  },
  {
   "property": "C135",
   "status": "partial",
   "theorems": [
    "Props.Quaternion.C135_arithmetic",
    "Props.Quaternion.C135_equal",
    "Props.Quaternion.C135_order",
    "Props.Quaternion.C135_quotient_partial",
    "Props.Quaternion.C135_inverse_partial",
    "Props.Quaternion.C135_unitInverse_partial",
    "Props.Quaternion.C135_length",
    "Props.Quaternion.C135_scaled",
    "Props.Quaternion.C135_rotation",
    "Props.Quaternion.C135_to3x3_partial",
    "Props.Quaternion.C135_to4x4",
    "Props.Quaternion.C135_alias_counterexample",
    "Props.Quaternion.C135_inverse_counterexample",
    "Props.Quaternion.C135_to3x3_counterexample"
   ],
   "note": "Refuted: inverse and unitInverse replace the quaternion by its conjugate; the matrix, multiplied by a column vector, turns it backwards; q /= q.w."
  },
  {
   "property": "C136",
   "status": "partial",
   "theorems": [
    "Props.Vector.C136_order",
    "Props.Vector.C136_order3",
    "Props.Vector.C136_products",
    "Props.Vector.C136_products3",
    "Props.Vector.C136_scale3_partial",
    "Props.Vector.C136_length",
    "Props.Vector.C136_alias_counterexample",
    "Props.Vector.C136_scaleAssign_counterexample",
    "Props.Vector.C136_neg_counterexample"
   ],
   "note": "Refuted: in dimensions other than two and three *= subtracts and unary minus changes its operand; v *= v.x."
  },
  {
   "property": "C137",
   "status": "proved",
   "theorems": [
    "Props.Uart.C137_order",
    "Props.Uart.C137_complete",
    "Props.Uart.C137_drains",
    "Props.Uart.C137_refused",
    "Props.Uart.C137_defined"
   ],
   "note": "The hardware: data register, shift register, interrupt enable; the handler can be delayed arbitrarily."
  },
  {
   "property": "C138",
   "status": "partial",
   "theorems": [
    "Props.Uart.C138_finished_partial",
    "Props.Uart.C138_unfinished",
    "Props.Uart.C138_finished_counterexample"
   ],
   "note": "Proved: at true the queue and the data register are empty. Refuted: the last byte is still in the shift register."
  },
  {
   "property": "C139",
   "status": "partial",
   "theorems": [
    "Props.Uart.C139_order_partial",
    "Props.Uart.C139_overtakes_counterexample",
    "Props.Uart.C139_lost_counterexample",
    "Props.Uart.C139_waits_counterexample"
   ],
   "note": "Proved when the queue is empty at the call. Refuted otherwise: bytes are overtaken or lost; it does not wait for the end of the transmission."
  },
  {
   "property": "C140",
   "status": "partial",
   "theorems": [
    "Props.Uart.C140_discard_partial",
    "Props.Uart.C140_empty_partial",
    "Props.Uart.C140_discard_counterexample",
    "Props.Uart.C140_hardware_counterexample"
   ],
   "note": "Proved without a receive queue and with an interrupt not shared. Refuted otherwise: a reception during the call makes it pop an empty queue; the hardware buffer is not emptied."
  },
  {
   "property": "C141",
   "status": "partial",
   "theorems": [
    "Props.Uart.C141_order",
    "Props.Uart.C141_exact_partial",
    "Props.Uart.C141_fetched",
    "Props.Uart.C141_eaten_counterexample",
    "Props.Uart.C141_unbuffered_counterexample",
    "Props.Uart.C141_length_counterexample"
   ],
   "note": "Order proved for all; completeness for devices with ICR. Refuted for others: the handler reads the data register once more."
  },
  {
   "property": "C142",
   "status": "proved",
   "theorems": [
    "Props.Uart.C142_transmitBufferSize",
    "Props.Uart.C142_room",
    "Props.Uart.C142_available"
   ],
   "note": ""
  },
  {
   "property": "C143",
   "status": "partial",
   "theorems": [
    "Props.CanFilter.C143_extended",
    "Props.CanFilter.C143_standard_partial",
    "Props.CanFilter.C143_list",
    "Props.CanFilter.C143_short_partial",
    "Props.CanFilter.C143_short_list_partial",
    "Props.CanFilter.C143_standard_counterexample",
    "Props.CanFilter.C143_short_counterexample"
   ],
   "note": "Refuted: filters for standard messages let extended ones pass; the short form mixes bits 19 to 21 of extended identifiers into others."
  },
  {
   "property": "C144",
   "status": "proved",
   "theorems": [
    "Props.CanFilter.C144_disable",
    "Props.CanFilter.C144_start"
   ],
   "note": ""
  },
  {
   "property": "C145",
   "status": "partial",
   "theorems": [
    "Props.BxcanTx.C145_defined",
    "Props.BxcanTx.C145_origin",
    "Props.BxcanTx.C145_order_partial",
    "Props.BxcanTx.C145_refused",
    "Props.BxcanTx.C145_overtakes_counterexample",
    "Props.BxcanTx.C145_lost_counterexample",
    "Props.BxcanTx.C145_ignored_counterexample",
    "Props.BxcanTx.C145_waits_counterexample",
    "Props.BxcanTx.C145_mixed_counterexample",
    "Props.BxcanTx.C145_twice_counterexample"
   ],
   "note": "Proved when no transmission ends during a call and no call is made before the handler has run. Refuted otherwise: messages are overtaken, lost, mixed, sent twice or wait."
  },
  {
   "property": "C146",
   "status": "proved",
   "theorems": [
    "Props.BxcanTx.C146_order",
    "Props.BxcanTx.C146_refused"
   ],
   "note": ""
  },
  {
   "property": "C147",
   "status": "proved",
   "theorems": [
    "Props.BxcanTx.C147_ready"
   ],
   "note": ""
  },
  {
   "property": "C148",
   "status": "partial",
   "theorems": [
    "Props.BxcanRx.C148_defined",
    "Props.BxcanRx.C148_order",
    "Props.BxcanRx.C148_exact",
    "Props.BxcanRx.C148_nothing",
    "Props.BxcanRx.C148_overrun_counterexample"
   ],
   "note": "Proved except that an overrun loses one message only: the handler removes another one unread."
  },
  {
   "property": "C149",
   "status": "partial",
   "theorems": [
    "Props.BxcanRx.C149_exact_partial",
    "Props.BxcanRx.C149_mixed_counterexample"
   ],
   "note": "Proved as long as there is no overrun. Refuted otherwise: identifier and data of different messages."
  },
  {
   "property": "C150",
   "status": "partial",
   "theorems": [
    "Props.BxcanRx.C150_available_partial",
    "Props.BxcanRx.C150_unbuffered_partial",
    "Props.BxcanRx.C150_overrun_counterexample"
   ],
   "note": "Proved with a queue, and without one as long as there is no overrun. Refuted otherwise."
  },
  {
   "property": "C151",
   "status": "partial",
   "theorems": [
    "Props.CanFrame.C151_send",
    "Props.CanFrame.C151_receive",
    "Props.CanFrame.C151_receive_partial",
    "Props.CanFrame.C151_roundtrip",
    "Props.CanFrame.C151_receive_counterexample",
    "Props.CanFrame.C151_send_counterexample"
   ],
   "note": "Sending proved for classic messages; receiving always gives identifier and kind, and everything for length codes up to 8 into an object without FD flags. Refuted for length codes above 8, reused objects and FD messages."
  },
  {
   "property": "C152",
   "status": "partial",
   "theorems": [
    "Props.CanFrame.C152_send",
    "Props.CanFrame.C152_send_masked",
    "Props.CanFrame.C152_receive",
    "Props.CanFrame.C152_content",
    "Props.CanFrame.C152_receive_partial",
    "Props.CanFrame.C152_receive_counterexample",
    "Props.CanFrame.C152_roundtrip_partial",
    "Props.CanFrame.C152_handler_partial",
    "Props.CanFrame.C152_handler_counterexample"
   ],
   "note": "Sending proved for all messages; receiving always gives identifier and kind, and everything for classic frames and longer FD frames without bit rate switching. Refuted: the FD flags, length codes above 8 of classic frames, reuse of the object in the handler."
  },
  {
   "property": "C153",
   "status": "partial",
   "theorems": [
    "Props.CanFrame.C153_send_partial",
    "Props.CanFrame.C153_send_counterexample",
    "Props.CanFrame.C153_content",
    "Props.CanFrame.C153_receive_partial",
    "Props.CanFrame.C153_receive_counterexample"
   ],
   "note": "Proved for standard data frames and classic messages; refuted for every extended or remote frame and every message of more than 8 bytes."
  },
  {
   "property": "C154",
   "status": "partial",
   "theorems": [
    "Props.CanFrame.C154_send_partial",
    "Props.CanFrame.C154_receive_partial",
    "Props.CanFrame.C154_receive_counterexample"
   ],
   "note": "Sending proved for classic messages; receiving for length codes up to 8 except for the length code itself, which is never set. Refuted otherwise."
  },
  {
   "property": "C155",
   "status": "partial",
   "theorems": [
    "Props.CanFrame.C155_send_partial",
    "Props.CanFrame.C155_receive_partial",
    "Props.CanFrame.C155_counterexample"
   ],
   "note": "Proved for classic messages and length codes up to 8; refuted otherwise."
  },
  {
   "property": "C156",
   "status": "partial",
   "theorems": [
    "Props.Mcp2515.C156_receive_account",
    "Props.Mcp2515.C156_receive_lost",
    "Props.Mcp2515.C156_receive_order_partial",
    "Props.Mcp2515.C156_receive_order_counterexample",
    "Props.Mcp2515.C156_receive_rollover_counterexample",
    "Props.Mcp2515.C156_send_account",
    "Props.Mcp2515.C156_send_refused",
    "Props.Mcp2515.C156_send_order_partial",
    "Props.Mcp2515.C156_send_order_counterexample"
   ],
   "note": "Proved: exactly once, refusal and losses only without free buffer, isReadyToSend. The order is refuted, and proved for one pending message at a time and for frames arriving in time."
  },
  {
   "property": "C157",
   "status": "partial",
   "theorems": [
    "Props.FdcanTx.C157_exact",
    "Props.FdcanTx.C157_nothing_else",
    "Props.FdcanTx.C157_complete",
    "Props.FdcanTx.C157_order_partial",
    "Props.FdcanTx.C157_order_counterexample",
    "Props.FdcanTx.C157_shared_counterexample"
   ],
   "note": "Exactly once, nothing else and completeness proved if the interrupt is not shared, refuted if it is. The order is proved for one pending message at a time and refuted otherwise, also for the same identifier."
  },
  {
   "property": "C158",
   "status": "partial",
   "theorems": [
    "Props.FdcanTx.C158_refused",
    "Props.FdcanTx.C158_ready",
    "Props.FdcanTx.C158_ready_counterexample"
   ],
   "note": "Refusal proved; isReadyToSend proved with a queue; without one its result is inverted."
  },
  {
   "property": "C159",
   "status": "partial",
   "theorems": [
    "Props.FdcanRx.C159_queue",
    "Props.FdcanRx.C159_order_partial",
    "Props.FdcanRx.C159_prefix_partial",
    "Props.FdcanRx.C159_overwrite_counterexample"
   ],
   "note": "The queue is proved always; order and content proved if no element is overwritten (always in locked mode). Refuted with overwriting, the default: a message with the header of one and the data of another."
  },
  {
   "property": "C160",
   "status": "partial",
   "theorems": [
    "Props.FdcanRx.C160_available",
    "Props.FdcanRx.C160_enabled",
    "Props.FdcanRx.C160_complete_partial",
    "Props.FdcanRx.C160_complete_counterexample"
   ],
   "note": "isMessageAvailable and the interrupt enable proved always; completeness proved unless a message arrives between the loops of the handler and its clearing the flags; refuted for that."
  },
  {
   "property": "C161",
   "status": "partial",
   "theorems": [
    "Props.SystemClock.C161_exact_partial",
    "Props.SystemClock.C161_elapsed_partial",
    "Props.SystemClock.C161_returns",
    "Props.SystemClock.C161_other_counterexample",
    "Props.SystemClock.C161_disabled_counterexample"
   ],
   "note": "Proved if the interrupt is handled within two steps of the caller and nobody else calls now during a call; refuted for a call from an interrupt and for disabled interrupts."
  },
  {
   "property": "C162",
   "status": "partial",
   "theorems": [
    "Props.SystemClock.C162_period",
    "Props.SystemClock.C162_micro_partial",
    "Props.SystemClock.C162_milli_partial",
    "Props.SystemClock.C162_right_partial",
    "Props.SystemClock.C162_elapsed_partial",
    "Props.SystemClock.C162_still_counterexample",
    "Props.SystemClock.C162_remainder_counterexample"
   ],
   "note": "The period is proved always; the rest for frequencies which divide 1000 and the clock, above 1 MHz of the SysTick. Refuted at exactly 1 MHz of the SysTick and for frequencies with a remainder."
  },
  {
   "property": "C163",
   "status": "partial",
   "theorems": [
    "Props.SystemClock.C163_interpolation",
    "Props.SystemClock.C163_elapsed_partial",
    "Props.SystemClock.C163_slow_counterexample"
   ],
   "note": "The interpolation is proved; the period is refuted for every frequency: one clock of the timer too long."
  },
  {
   "property": "C164",
   "status": "partial",
   "theorems": [
    "Props.CanTiming.C164_bxcan_partial",
    "Props.CanTiming.C164_fdcan",
    "Props.CanTiming.C164_fdcan_data",
    "Props.CanTiming.C164_sample",
    "Props.CanTiming.C164_best_partial",
    "Props.CanTiming.C164_truncated_counterexample"
   ],
   "note": "Proved for FDCAN and M_CAN, up to 0.003 percent for the floats; for the bxCAN proved for prescalers below 256 and refuted above. Closest proved up to 0.012 percent and for prescalers below the two largest."
  },
  {
   "property": "C165",
   "status": "partial",
   "theorems": [
    "Props.CanTiming.C165_partial",
    "Props.CanTiming.C165_20MHz_counterexample",
    "Props.CanTiming.C165_odd_counterexample",
    "Props.CanTiming.C165_segment_counterexample"
   ],
   "note": "Proved for even prescalers and 8 or 16 MHz or 1 Mbit/s; refuted for 20 MHz, for odd prescalers, and for the second phase segment."
  },
  {
   "property": "C166",
   "status": "partial",
   "theorems": [
    "Props.Delay.C166_early_partial",
    "Props.Delay.C166_late",
    "Props.Delay.C166_whole",
    "Props.Delay.C166_early_counterexample",
    "Props.Delay.C166_none_counterexample",
    "Props.Delay.C166_overflow_counterexample",
    "Props.Delay.C166_wrap_counterexample"
   ],
   "note": "Proved exactly for a whole number of MHz, otherwise up to a cycle and the rounding of the frequency; shorter delays, none at low frequencies and an overflow just below a power of two shown by example."
  },
  {
   "property": "C167",
   "status": "partial",
   "theorems": [
    "Props.Delay.C167_split",
    "Props.Delay.C167_ms",
    "Props.Delay.C167_exact",
    "Props.Delay.C167_other_partial",
    "Props.Delay.C167_counterexample"
   ],
   "note": "The split and the three units are proved; other units up to a millisecond, refuted for finer ones, negative durations and those that do not fit 32 bits."
  },
  {
   "property": "C168",
   "status": "partial",
   "theorems": [
    "Props.Delay.C168_ns_partial",
    "Props.Delay.C168_m0_partial",
    "Props.Delay.C168_early_counterexample",
    "Props.Delay.C168_range_counterexample",
    "Props.Delay.C168_slow_counterexample"
   ],
   "note": "The end of the loops is proved; the time up to the rounding of the nanoseconds of a pass, with the cycles of a pass as the tables say; refuted for exact times, beyond 2^31 ns and for slow clocks."
  },
  {
   "property": "C169",
   "status": "partial",
   "theorems": [
    "Props.Delay.C169_const",
    "Props.Delay.C169_ns_partial",
    "Props.Delay.C169_ns_counterexample",
    "Props.Delay.C169_slow",
    "Props.Delay.C169_short_counterexample",
    "Props.Delay.C169_hang_counterexample",
    "Props.Delay.C169_fast_partial"
   ],
   "note": "Proved for constants; for other numbers proved above 6 MHz for microseconds and milliseconds up to a cycle each; refuted for nanoseconds, up to 6 MHz, and below 1 MHz, where delay_us does not return."
  },
  {
   "property": "C170",
   "status": "partial",
   "theorems": [
    "Props.IoStream.C170_hex",
    "Props.IoStream.C170_bin",
    "Props.IoStream.C170_byte",
    "Props.IoStream.C170_pointer",
    "Props.IoStream.C170_mode",
    "Props.IoStream.C170_function_counterexample"
   ],
   "note": "Proved, but function pointers show the address of a parameter."
  },
  {
   "property": "C171",
   "status": "partial",
   "theorems": [
    "Props.IoStream.C171_unsigned_partial",
    "Props.IoStream.C171_signed_partial",
    "Props.IoStream.C171_buffers",
    "Props.IoStream.C171_least_counterexample",
    "Props.IoStream.C171_silent_counterexample"
   ],
   "note": "Proved for all but the least value of a type as wide as int or wider, and for the first 2^31 digits; refuted for these. The library that writes the digits is taken as published; it is not in the repository."
  },
  {
   "property": "C172",
   "status": "proved",
   "theorems": [
    "Props.IoStream.C172_block",
    "Props.IoStream.C172_block_only",
    "Props.IoStream.C172_discard",
    "Props.IoStream.C172_discard_sublist"
   ],
   "note": ""
  },
  {
   "property": "C173",
   "status": "partial",
   "theorems": [
    "Props.IoStream.C173_get",
    "Props.IoStream.C173_char",
    "Props.IoStream.C173_eof_counterexample"
   ],
   "note": "The byte 255 is taken for the end."
  },
  {
   "property": "C174",
   "status": "partial",
   "theorems": [
    "Props.FdcanFilter.C174_fates_partial",
    "Props.FdcanFilter.C174_hits",
    "Props.FdcanFilter.C174_stale_counterexample"
   ],
   "note": "Proved for programs that clear the filters first; initialize does not, and filters of a former program stay in force."
  },
  {
   "property": "C175",
   "status": "proved",
   "theorems": [
    "Props.FdcanFilter.C175_places",
    "Props.FdcanFilter.C175_apart"
   ],
   "note": ""
  },
  {
   "property": "C176",
   "status": "partial",
   "theorems": [
    "Props.Mcp2515Filter.C176_filters",
    "Props.Mcp2515Filter.C176_mode_counterexample",
    "Props.Mcp2515Filter.C176_macro_counterexample"
   ],
   "note": "Proved for the filters; refuted for the mode, and for arguments of the macros that are not numbers or names."
  },
  {
   "property": "C177",
   "status": "partial",
   "theorems": [
    "Props.Eeprom.C177_write_partial",
    "Props.Eeprom.C177_read_partial",
    "Props.Eeprom.C177_page_counterexample",
    "Props.Eeprom.C177_address_counterexample",
    "Props.Eeprom.C177_value_counterexample",
    "Props.Eeprom.C177_byte_counterexample"
   ],
   "note": "For writes within a page, reads within a device, addresses of devices without bit 2. Refuted for writes across pages, for devices with bit 2 in their address, for read(address, value) beyond 64 KiB and for writeByte with masters that work with interrupts."
  },
  {
   "property": "C178",
   "status": "partial",
   "theorems": [
    "Props.Eeprom.C178_address",
    "Props.Eeprom.C178_read",
    "Props.Eeprom.C178_write_partial"
   ],
   "note": "Writes within a page."
  },
  {
   "property": "C179",
   "status": "partial",
   "theorems": [
    "Props.Animation.C179_ramp_partial",
    "Props.Animation.C179_hold_partial",
    "Props.Animation.C179_flat_counterexample",
    "Props.Animation.C179_line_counterexample",
    "Props.Animation.C179_hold_counterexample",
    "Props.Animation.C179_avr_counterexample"
   ],
   "note": "For ramps with at most 2^f steps for each unit. Refuted for flat ramps (they overshoot and wrap), for the distance from the line, for holding values of 32 bits (and 16 on AVR), and for many steps on AVR."
  },
  {
   "property": "C180",
   "status": "partial",
   "theorems": [
    "Props.Animation.C180_animation",
    "Props.Animation.C180_handler",
    "Props.Animation.C180_long_counterexample",
    "Props.Animation.C180_rare_counterexample",
    "Props.Animation.C180_result_counterexample"
   ],
   "note": "Proved for times below 2^16 ms (8 bits). Refuted for longer ones, for 256 ms between updates, and for the result of the last update."
  },
  {
   "property": "C181",
   "status": "partial",
   "theorems": [
    "Props.Animation.C181_order_partial",
    "Props.Animation.C181_frame",
    "Props.Animation.C181_stop",
    "Props.Animation.C181_single_counterexample",
    "Props.Animation.C181_last_counterexample",
    "Props.Animation.C181_late_counterexample"
   ],
   "note": "Refuted for single frames that go back and forth, for isAnimating during the last frame, and for the time of a series of frames."
  },
  {
   "property": "C182",
   "status": "partial",
   "theorems": [
    "Props.Animation.C182_pulse",
    "Props.Animation.C182_fades_partial",
    "Props.Animation.C182_indicator_counterexample",
    "Props.Animation.C182_strobe_counterexample"
   ],
   "note": "Proved for Pulse and for the fade times of Indicator; the periods of Indicator and Strobe are refuted."
  },
  {
   "property": "C183",
   "status": "partial",
   "theorems": [
    "Props.InplaceAny.C183_lifetimes_partial",
    "Props.InplaceAny.C183_aligned_partial",
    "Props.InplaceAny.C183_own_counterexample",
    "Props.InplaceAny.C183_aligned_counterexample"
   ],
   "note": "Refuted for assigning to a container the value it holds, and for types that ask for more alignment than the scalars."
  },
  {
   "property": "C184",
   "status": "partial",
   "theorems": [
    "Props.InplaceAny.C184_values_partial",
    "Props.InplaceAny.C184_swap_counterexample"
   ],
   "note": "Refuted for swaps with an empty container, which leave an object behind."
  },
  {
   "property": "C185",
   "status": "proved",
   "theorems": [
    "Props.InplaceFunction.C185_function"
   ],
   "note": "Of function objects whose move constructor does not throw."
  },
  {
   "property": "C186",
   "status": "partial",
   "theorems": [
    "Props.AdcSampler.C186_readout_partial",
    "Props.AdcSampler.C186_endless_counterexample"
   ],
   "note": "Refuted for 255 (and 65535) samples: the readout never ends."
  },
  {
   "property": "C187",
   "status": "partial",
   "theorems": [
    "Props.AdcSampler.C187_refused_partial",
    "Props.AdcSampler.C187_refused_counterexample"
   ],
   "note": "Refuted for one sample for each channel, and before the first conversion is done."
  },
  {
   "property": "C188",
   "status": "partial",
   "theorems": [
    "Props.ViewStack.C188_views_partial",
    "Props.ViewStack.C188_replace_counterexample",
    "Props.ViewStack.C188_last_counterexample",
    "Props.ViewStack.C188_destroy_counterexample",
    "Props.ViewStack.C188_gui_counterexample"
   ],
   "note": "Refuted for views that push in their update, for the last view, for the destructor, and for buttons of GuiViewStack."
  },
  {
   "property": "C189",
   "status": "partial",
   "theorems": [
    "Props.ViewStack.C189_display_partial",
    "Props.ViewStack.C189_push_counterexample",
    "Props.ViewStack.C189_pop_counterexample"
   ],
   "note": "Refuted for views that push in their update, and after pop."
  },
  {
   "property": "C190",
   "status": "partial",
   "theorems": [
    "Props.Menu.C190_scroll_partial",
    "Props.Menu.C190_space_counterexample",
    "Props.Menu.C190_assign_counterexample"
   ],
   "note": "Refuted for more than 255 letters, and for operator =."
  },
  {
   "property": "C191",
   "status": "partial",
   "theorems": [
    "Props.Menu.C191_standard_partial",
    "Props.Menu.C191_choice_partial",
    "Props.Menu.C191_many_counterexample",
    "Props.Menu.C191_empty_counterexample",
    "Props.Menu.C191_ends_counterexample"
   ],
   "note": "Refuted for more than 255 entries, for none, and for UP and DOWN at the ends."
  },
  {
   "property": "C192",
   "status": "partial",
   "theorems": [
    "Props.Menu.C192_standard_partial",
    "Props.Menu.C192_choice_partial",
    "Props.Menu.C192_first_counterexample",
    "Props.Menu.C192_again_counterexample",
    "Props.Menu.C192_display_counterexample"
   ],
   "note": "Refuted for the first entry of a StandardMenu, for a second initialise, and for choices on displays of different widths."
  },
  {
   "property": "C193",
   "status": "proved",
   "theorems": [
    "Props.GpioExpander.C193_mcp23x17_pins",
    "Props.GpioExpander.C193_mcp23x17_heals",
    "Props.GpioExpander.C193_mcp23x17_init"
   ],
   "note": ""
  },
  {
   "property": "C194",
   "status": "partial",
   "theorems": [
    "Props.GpioExpander.C194_mcp23x17_isSet_partial",
    "Props.GpioExpander.C194_mcp23x17_levels_partial",
    "Props.GpioExpander.C194_mcp23x17_no_inputs_partial",
    "Props.GpioExpander.C194_latch_counterexample",
    "Props.GpioExpander.C194_toggle_counterexample"
   ],
   "note": "Refuted for pins that were outputs, became inputs and are outputs again."
  },
  {
   "property": "C195",
   "status": "partial",
   "theorems": [
    "Props.GpioExpander.C195_pca9535_partial",
    "Props.GpioExpander.C195_pca9535_heals_partial",
    "Props.GpioExpander.C195_setInput_counterexample",
    "Props.GpioExpander.C195_setOutput_counterexample",
    "Props.GpioExpander.C195_getDirection_counterexample"
   ],
   "note": "Refuted for the first calls after power-on; proved for pins whose direction and level were given."
  },
  {
   "property": "C196",
   "status": "partial",
   "theorems": [
    "Props.GpioExpander.C196_pca8574_partial",
    "Props.GpioExpander.C196_pca8574_without_writePort_partial",
    "Props.GpioExpander.C196_writePort_counterexample"
   ],
   "note": "Refuted for writePort with zeros for inputs."
  },
  {
   "property": "C197",
   "status": "proved",
   "theorems": [
    "Props.GpioExpander.C197_write",
    "Props.GpioExpander.C197_read",
    "Props.GpioExpander.C197_reversed8",
    "Props.GpioExpander.C197_reversed16",
    "Props.GpioExpander.C197_pca8574"
   ],
   "note": ""
  },
  {
   "property": "C198",
   "status": "partial",
   "theorems": [
    "Props.GpioExpander.C198_setOutput_partial",
    "Props.GpioExpander.C198_setOutput_counterexample",
    "Props.GpioExpander.C198_then_output_counterexample",
    "Props.GpioExpander.C198_pca9535_counterexample"
   ],
   "note": "Refuted for pins that are not outputs yet."
  },
  {
   "property": "C199",
   "status": "proved",
   "theorems": [
    "Props.GpioPins.C199_stm32_call",
    "Props.GpioPins.C199_stm32",
    "Props.GpioPins.C199_inverted",
    "Props.GpioPins.C199_getDirection"
   ],
   "note": ""
  },
  {
   "property": "C200",
   "status": "proved",
   "theorems": [
    "Props.GpioPins.C200_portGet",
    "Props.GpioPins.C200_stm32_portWrite",
    "Props.GpioPins.C200_avr_portWrite",
    "Props.GpioPins.C200_softGet",
    "Props.GpioPins.C200_stm32_softWrite",
    "Props.GpioPins.C200_avr_softWrite"
   ],
   "note": ""
  },
  {
   "property": "C201",
   "status": "proved",
   "theorems": [
    "Props.GpioPins.C201_f1_call",
    "Props.GpioPins.C201_setAlternateFunction"
   ],
   "note": ""
  },
  {
   "property": "C202",
   "status": "partial",
   "theorems": [
    "Props.GpioPins.C202_getDirection_partial",
    "Props.GpioPins.C202_right_partial",
    "Props.GpioPins.C202_getDirection_counterexample"
   ],
   "note": "Refuted: inputs are called outputs, and so are alternate functions with push-pull and 10 MHz; proved for all else."
  },
  {
   "property": "C203",
   "status": "partial",
   "theorems": [
    "Props.GpioPins.C203_openDrain_partial",
    "Props.GpioPins.C203_f1_counterexample"
   ],
   "note": "Refuted for setOutput() on the F1; proved for set and reset and for the other families."
  },
  {
   "property": "C204",
   "status": "proved",
   "theorems": [
    "Props.GpioPins.C204_avr_call",
    "Props.GpioPins.C204_avr",
    "Props.GpioPins.C204_getDirection"
   ],
   "note": ""
  },
  {
   "property": "C205",
   "status": "partial",
   "theorems": [
    "Props.GpioPins.C205_stm32_levels_partial",
    "Props.GpioPins.C205_avr_partial",
    "Props.GpioPins.C205_avr_counterexample",
    "Props.GpioPins.C205_stm32_counterexample"
   ],
   "note": "Refuted for levels on the AVR and for directions on the STM32; proved for levels on the STM32 and for interrupts that leave PORT alone."
  },
  {
   "property": "C206",
   "status": "partial",
   "theorems": [
    "Props.Stm32Timer.C206_cycles16_partial",
    "Props.Stm32Timer.C206_cycles32_partial",
    "Props.Stm32Timer.C206_setPeriod_partial",
    "Props.Stm32Timer.C206_prescaler",
    "Props.Stm32Timer.C206_long_counterexample",
    "Props.Stm32Timer.C206_divide_counterexample",
    "Props.Stm32Timer.C206_zero_counterexample",
    "Props.Stm32Timer.C206_one_counterexample"
   ],
   "note": "Refuted: 2^32 cycles and more are truncated, 65535*65535+1 up to there and less than one cycle divide by zero, one cycle blocks the timer; proved in between."
  },
  {
   "property": "C207",
   "status": "partial",
   "theorems": [
    "Props.Stm32Timer.C207_full_partial",
    "Props.Stm32Timer.C207_compare_partial",
    "Props.Stm32Timer.C207_gp_partial",
    "Props.Stm32Timer.C207_adv_partial",
    "Props.Stm32Timer.C207_mode_counterexample"
   ],
   "note": "Refuted: a combined or asymmetric mode leaves a bit behind; proved for all else, in particular for channels without such a mode before, and for all settings but the mode."
  },
  {
   "property": "C208",
   "status": "proved",
   "theorems": [
    "Props.Stm32Timer.C208_setInvertedPwm",
    "Props.Stm32Timer.C208_setNormalPwm",
    "Props.Stm32Timer.C208_forceInactive",
    "Props.Stm32Timer.C208_forceActive",
    "Props.Stm32Timer.C208_raw"
   ],
   "note": ""
  },
  {
   "property": "C209",
   "status": "proved",
   "theorems": [
    "Props.Stm32Timer.C209_input",
    "Props.Stm32Timer.C209_filter",
    "Props.Stm32Timer.C209_isInput"
   ],
   "note": ""
  },
  {
   "property": "C210",
   "status": "partial",
   "theorems": [
    "Props.Stm32Timer.C210_compare_partial",
    "Props.Stm32Timer.C210_channel5_counterexample"
   ],
   "note": "Refuted for the channels 5 and 6, proved for 1 to 4."
  },
  {
   "property": "C211",
   "status": "proved",
   "theorems": [
    "Props.Stm32Timer.C211_deadTime"
   ],
   "note": ""
  },
  {
   "property": "C212",
   "status": "partial",
   "theorems": [
    "Props.Stm32Timer.C212_idle_partial",
    "Props.Stm32Timer.C212_reset_counterexample",
    "Props.Stm32Timer.C212_others_counterexample"
   ],
   "note": "Refuted: idle states are not reset, and all else in CR2 is cleared; proved for CR2 = 0."
  },
  {
   "property": "C213",
   "status": "proved",
   "theorems": [
    "Props.Stm32Timer.C213_acknowledge"
   ],
   "note": ""
  },
  {
   "property": "C214",
   "status": "proved",
   "theorems": [
    "Props.Rtc.C214_set",
    "Props.Rtc.C214_get",
    "Props.Rtc.C214_roundtrip",
    "Props.Rtc.C214_fail"
   ],
   "note": ""
  },
  {
   "property": "C215",
   "status": "partial",
   "theorems": [
    "Props.Rtc.C215_running_partial",
    "Props.Rtc.C215_stopped_counterexample"
   ],
   "note": "Refuted: true is returned also when the oscillator has stopped, whenever the chip answers."
  },
  {
   "property": "C216",
   "status": "partial",
   "theorems": [
    "Props.Rtc.C216_write",
    "Props.Rtc.C216_initialize",
    "Props.Rtc.C216_writeProtect",
    "Props.Rtc.C216_enableOscillator_partial",
    "Props.Rtc.C216_seconds_counterexample"
   ],
   "note": "Refuted: enableOscillator sets the seconds to zero; all else is proved."
  },
  {
   "property": "C217",
   "status": "proved",
   "theorems": [
    "Props.Rtc.C217_readRtc"
   ],
   "note": ""
  },
  {
   "property": "C218",
   "status": "partial",
   "theorems": [
    "Props.Rtc.C218_read_partial",
    "Props.Rtc.C218_read_counterexample"
   ],
   "note": "Refuted: the register is read shifted by one bit, with the free line as lowest bit; that is proved for all contents."
  },
  {
   "property": "C219",
   "status": "partial",
   "theorems": [
    "Props.Rtc.C219_getters_partial",
    "Props.Rtc.C219_hours12",
    "Props.Rtc.C219_protected",
    "Props.Rtc.C219_year_counterexample"
   ],
   "note": "Refuted for the years from 10 on, proved for all else."
  },
  {
   "property": "C220",
   "status": "proved",
   "theorems": [
    "Props.I2cAvr.C220_writeRead",
    "Props.I2cAvr.C220_write",
    "Props.I2cAvr.C220_read"
   ],
   "note": ""
  },
  {
   "property": "C221",
   "status": "partial",
   "theorems": [
    "Props.I2cAvr.C221_any_partial",
    "Props.I2cAvr.C221_empty_counterexample",
    "Props.I2cAvr.C221_null_counterexample"
   ],
   "note": "Refuted for an empty buffer that follows another one and for something to read without a buffer or of length 0; proved for all else."
  },
  {
   "property": "C222",
   "status": "partial",
   "theorems": [
    "Props.I2cAvr.C222_alive",
    "Props.I2cAvr.C222_lost",
    "Props.I2cAvr.C222_occupied",
    "Props.I2cAvr.C222_reset_counterexample",
    "Props.I2cAvr.C222_reset_read_counterexample",
    "Props.I2cAvr.C222_busy_counterexample"
   ],
   "note": "Refuted for reset during a transaction (null pointer, or reading goes on behind the buffer) and for start with a busy object; proved for interrupts."
  },
  {
   "property": "C223",
   "status": "partial",
   "theorems": [
    "Props.I2cStm32.C223_writeRead_partial",
    "Props.I2cStm32.C223_write_partial",
    "Props.I2cStm32.C223_read_partial",
    "Props.I2cStm32.C223_write_late_counterexample",
    "Props.I2cStm32.C223_read_late_counterexample",
    "Props.I2cStm32.C223_general_call_counterexample"
   ],
   "note": "Refuted when the interrupt before the last byte to write or for the fourth last byte to read is served later than one byte, and for the kind of error of the address 0; proved for all else."
  },
  {
   "property": "C224",
   "status": "partial",
   "theorems": [
    "Props.I2cStm32.C224_any_partial",
    "Props.I2cStm32.C224_one_counterexample",
    "Props.I2cStm32.C224_empty_counterexample",
    "Props.I2cStm32.C224_restart_counterexample"
   ],
   "note": "Refuted for a buffer of no or one byte that follows another one and for restart after a read; proved for all else (as far as C223)."
  },
  {
   "property": "C225",
   "status": "partial",
   "theorems": [
    "Props.I2cStm32.C225_queue_partial",
    "Props.I2cStm32.C225_later",
    "Props.I2cStm32.C225_full",
    "Props.I2cStm32.C225_handler_counterexample"
   ],
   "note": "Refuted for the handlers; proved for the order, with several calls of start before the first interrupt."
  },
  {
   "property": "C226",
   "status": "partial",
   "theorems": [
    "Props.I2cStm32.C226_reset_partial",
    "Props.I2cStm32.C226_reset_counterexample",
    "Props.I2cStm32.C226_busy_counterexample"
   ],
   "note": "Refuted for interrupts after reset (null pointer) and for start with a busy object; proved for the objects."
  },
  {
   "property": "C227",
   "status": "partial",
   "theorems": [
    "Props.I2cStm32Ext.C227_writeRead_partial",
    "Props.I2cStm32Ext.C227_write_partial",
    "Props.I2cStm32Ext.C227_read_partial",
    "Props.I2cStm32Ext.C227_address_counterexample",
    "Props.I2cStm32Ext.C227_address_read_counterexample",
    "Props.I2cStm32Ext.C227_data_counterexample",
    "Props.I2cStm32Ext.C227_data_more_counterexample",
    "Props.I2cStm32Ext.C227_race_counterexample",
    "Props.I2cStm32Ext.C227_long_counterexample"
   ],
   "note": "Refuted (waits for ever) for an address that is not acknowledged before two or more bytes or before a restart, for data that is not acknowledged (or the wrong error), for more than 255 bytes to read, and for STOP while the interrupt for the last byte is being served; proved for all else."
  },
  {
   "property": "C228",
   "status": "partial",
   "theorems": [
    "Props.I2cStm32Ext.C228_any_partial",
    "Props.I2cStm32Ext.C228_empty_counterexample",
    "Props.I2cStm32Ext.C228_restart_counterexample",
    "Props.I2cStm32Ext.C228_starting_counterexample",
    "Props.I2cStm32Ext.C228_after_counterexample"
   ],
   "note": "Refuted for an empty buffer that follows another one, restart after a read, objects that change in starting(), and buffers that follow another one after a read that was not acknowledged; proved for all else (as far as C227)."
  },
  {
   "property": "C229",
   "status": "partial",
   "theorems": [
    "Props.I2cStm32Ext.C229_queue_partial",
    "Props.I2cStm32Ext.C229_full",
    "Props.I2cStm32Ext.C229_handler_counterexample",
    "Props.I2cStm32Ext.C229_wait_counterexample"
   ],
   "note": "Refuted for the handlers and after failures as in C227; proved for the order, with several calls of start before the first interrupt."
  },
  {
   "property": "C230",
   "status": "partial",
   "theorems": [
    "Props.I2cStm32Ext.C230_reset_partial",
    "Props.I2cStm32Ext.C230_reset_counterexample",
    "Props.I2cStm32Ext.C230_memory_counterexample",
    "Props.I2cStm32Ext.C230_null_counterexample",
    "Props.I2cStm32Ext.C230_busy_counterexample"
   ],
   "note": "Refuted for interrupts after reset (null pointer, memory), for null and for start with a busy object; proved for the objects."
  },
  {
   "property": "C231",
   "status": "partial",
   "theorems": [
    "Props.Flash.C231_getPage_partial",
    "Props.Flash.C231_getPage_counterexample",
    "Props.Flash.C231_getOffset_partial",
    "Props.Flash.C231_getOffset_counterexample",
    "Props.Flash.C231_getSize_partial",
    "Props.Flash.C231_getSize_counterexample"
   ],
   "note": "Refuted for getPage above 1152 KiB, getOffset of sectors 0 to 3 and from 13, getSize of sectors 4, 5, 12 to 16; proved for all the others."
  },
  {
   "property": "C232",
   "status": "partial",
   "theorems": [
    "Props.Flash.C232_pages_partial",
    "Props.Flash.C232_pages_counterexample"
   ],
   "note": "Refuted for more than 256 pages (STM32F103 of 768 KiB and 1 MiB); proved for every other size."
  },
  {
   "property": "C233",
   "status": "partial",
   "theorems": [
    "Props.Flash.C233_erase_partial",
    "Props.Flash.C233_at_partial",
    "Props.Flash.C233_bank_counterexample",
    "Props.Flash.C233_pnb_counterexample",
    "Props.Flash.C233_protect_counterexample"
   ],
   "note": "Refuted for sectors of the second bank of F4, pages of the second bank of G4, and errors of write protected pages of F1; proved for the first bank."
  },
  {
   "property": "C234",
   "status": "partial",
   "theorems": [
    "Props.Flash.C234_program_partial",
    "Props.Flash.C234_error_partial",
    "Props.Flash.C234_silent_counterexample",
    "Props.Flash.C234_stale_counterexample"
   ],
   "note": "Refuted: on F4, G0 and G4 the result is always 0; on F1 an old error is reported for ever. Proved: what is written, and that nothing is written after an error."
  },
  {
   "property": "C235",
   "status": "partial",
   "theorems": [
    "Props.Flash.C235_words_partial",
    "Props.Flash.C235_update_partial",
    "Props.Flash.C235_unlock",
    "Props.Flash.C235_locked_counterexample"
   ],
   "note": "Partial for the sectors and pages of C233; refuted for the result of erase while the memory is locked."
  },
  {
   "property": "C236",
   "status": "partial",
   "theorems": [
    "Props.HeapTable.C236_report_partial",
    "Props.HeapTable.C236_none",
    "Props.HeapTable.C236_clear",
    "Props.HeapTable.C236_beyond_counterexample",
    "Props.HeapTable.C236_adjacent_counterexample",
    "Props.HeapTable.C236_lost_counterexample",
    "Props.HeapTable.C236_full_counterexample",
    "Props.HeapTable.C236_stack_counterexample"
   ],
   "note": "Refuted for reports that do not fit into the first region together with the end marker; proved for those that do."
  },
  {
   "property": "C237",
   "status": "partial",
   "theorems": [
    "Props.HeapTable.C237_all",
    "Props.HeapTable.C237_report_partial",
    "Props.HeapTable.C237_offset_counterexample",
    "Props.HeapTable.C237_largest_counterexample",
    "Props.HeapTable.C237_filled_counterexample"
   ],
   "note": "Refuted with a report and more than one region, or a region filled by the report; proved without a report."
  },
  {
   "property": "C238",
   "status": "partial",
   "theorems": [
    "Props.HeapTable.C238_sound_partial",
    "Props.HeapTable.C238_largest_partial",
    "Props.HeapTable.C238_touching_counterexample",
    "Props.HeapTable.C238_null_counterexample",
    "Props.HeapTable.C238_traits_counterexample"
   ],
   "note": "Refuted: touching regions may be missed, address 0, any trait is enough. Proved that the result is heap, and the largest if no regions touch."
  },
  {
   "property": "C239",
   "status": "partial",
   "theorems": [
    "Props.HeapTlsf.C239_traits_partial",
    "Props.HeapTlsf.C239_defined_partial",
    "Props.HeapTlsf.C239_malloc",
    "Props.HeapTlsf.C239_null_counterexample"
   ],
   "note": "Refuted if nothing but core coupled or external memory is asked for: an unused pool with a null allocator is used. Proved otherwise."
  },
  {
   "property": "C240",
   "status": "partial",
   "theorems": [
    "Props.HeapTlsf.C240_free",
    "Props.HeapTlsf.C240_six_counterexample",
    "Props.HeapTlsf.C240_calloc_partial",
    "Props.HeapTlsf.C240_calloc_counterexample"
   ],
   "note": "free proved for every table of separate regions; refuted: regions after the sixth pool are lost, calloc allocates and clears n bytes only."
  },
  {
   "property": "C241",
   "status": "proved",
   "theorems": [
    "Props.AtomicLock.C241_restore",
    "Props.AtomicLock.C241_lock",
    "Props.AtomicLock.C241_unlock"
   ],
   "note": "For all programs, handlers and interleavings."
  },
  {
   "property": "C242",
   "status": "partial",
   "theorems": [
    "Props.AtomicLock.C242_priority_partial",
    "Props.AtomicLock.C242_zero_counterexample",
    "Props.AtomicLock.C242_range_counterexample",
    "Props.AtomicLock.C242_m0"
   ],
   "note": "Refuted for q = 0, which masks nothing, and for q beyond the priority bits; proved for all others."
  },
  {
   "property": "C243",
   "status": "proved",
   "theorems": [
    "Props.AtomicLock.C243_atomic"
   ],
   "note": "The log of all operations is a sequential history that ends in the memory."
  },
  {
   "property": "C244",
   "status": "partial",
   "theorems": [
    "Props.StaticGuard.C244_once_partial",
    "Props.StaticGuard.C244_recursive_partial",
    "Props.StaticGuard.C244_twice_counterexample",
    "Props.StaticGuard.C244_assert_counterexample"
   ],
   "note": "Refuted: an interrupt between load and exchange leads to a second construction. Proved if none comes between these two."
  },
  {
   "property": "C245",
   "status": "proved",
   "theorems": [
    "Props.StaticGuard.C245_decision",
    "Props.StaticGuard.C245_value",
    "Props.StaticGuard.C245_order"
   ],
   "note": "For all lists of handlers."
  },
  {
   "property": "C246",
   "status": "proved",
   "theorems": [
    "Props.Multicore.C246_exclusive"
   ],
   "note": "Invariant over both cores and all frames."
  },
  {
   "property": "C247",
   "status": "partial",
   "theorems": [
    "Props.Multicore.C247_guard_partial",
    "Props.Multicore.C247_nested_counterexample",
    "Props.Multicore.C247_constructor_counterexample",
    "Props.Multicore.C247_destructor_counterexample"
   ],
   "note": "Refuted for modm::atomic::Lock: nested, or with a handler that uses Lock and comes between claiming the spin lock and disabling interrupts. Proved for SystemSpinLockGuard that is not nested."
  },
  {
   "property": "C248",
   "status": "proved",
   "theorems": [
    "Props.Multicore.C248_exclusive",
    "Props.Multicore.C248_wake"
   ],
   "note": "Invariant over all interleavings."
  },
  {
   "property": "C249",
   "status": "partial",
   "theorems": [
    "Props.Multicore.C249_runCore1",
    "Props.Multicore.C249_outside_counterexample",
    "Props.Multicore.C249_core0_counterexample"
   ],
   "note": "Refuted: the top of the stack is passed for its bottom. Proved for runCore1 called with the bottom."
  },
  {
   "property": "C250",
   "status": "proved",
   "theorems": [
    "Props.LedDrivers.C250_set",
    "Props.LedDrivers.C250_get",
    "Props.LedDrivers.C250_all"
   ],
   "note": "Bit by bit in the order of transmission."
  },
  {
   "property": "C251",
   "status": "partial",
   "theorems": [
    "Props.LedDrivers.C251_set",
    "Props.LedDrivers.C251_get",
    "Props.LedDrivers.C251_all",
    "Props.LedDrivers.C251_large_counterexample"
   ],
   "note": "Proved for values of six bits; larger ones spoil the channel above (setChannel cuts them off)."
  },
  {
   "property": "C252",
   "status": "partial",
   "theorems": [
    "Props.LedDrivers.C252_clear",
    "Props.LedDrivers.C252_frame",
    "Props.LedDrivers.C252_color_partial",
    "Props.LedDrivers.C252_color_counterexample",
    "Props.LedDrivers.C252_get_partial",
    "Props.LedDrivers.C252_get_counterexample"
   ],
   "note": "Refuted: spread puts two bits of each half byte to the same place; white is sent as 0x77. Proved: protocol, other LEDs, colours with half bytes below 4."
  },
  {
   "property": "C253",
   "status": "proved",
   "theorems": [
    "Props.LedDrivers.C253_init",
    "Props.LedDrivers.C253_clocks",
    "Props.LedDrivers.C253_both",
    "Props.LedDrivers.C253_color",
    "Props.LedDrivers.C253_brightness",
    "Props.LedDrivers.C253_get"
   ],
   "note": "For all values."
  },
  {
   "property": "C254",
   "status": "proved",
   "theorems": [
    "Props.LedDrivers.C254_set",
    "Props.LedDrivers.C254_get",
    "Props.LedDrivers.C254_array",
    "Props.LedDrivers.C254_all",
    "Props.LedDrivers.C254_half"
   ],
   "note": "For all chains."
  },
  {
   "property": "C255",
   "status": "partial",
   "theorems": [
    "Props.TempSensors.C255_lm75",
    "Props.TempSensors.C255_tmp102",
    "Props.TempSensors.C255_tmp102_extended",
    "Props.TempSensors.C255_extended_counterexample",
    "Props.TempSensors.C255_stts22h",
    "Props.TempSensors.C255_max31855_thermocouple",
    "Props.TempSensors.C255_max31855_reference",
    "Props.TempSensors.C255_mcp990x",
    "Props.TempSensors.C255_tmp12x"
   ],
   "note": "Proved for all but the extended format of the TMP102, where the reading is always 1/128 °C too high (the mark of the format is taken for a part of the temperature)."
  },
  {
   "property": "C256",
   "status": "partial",
   "theorems": [
    "Props.TempSensors.C256_lm75",
    "Props.TempSensors.C256_tmp12x",
    "Props.TempSensors.C256_tmp102_partial",
    "Props.TempSensors.C256_tmp102_counterexample",
    "Props.TempSensors.C256_tmp102_minus25_counterexample",
    "Props.TempSensors.C256_mcp990x_partial",
    "Props.TempSensors.C256_mcp990x_counterexample"
   ],
   "note": "Refuted for the TMP102 below 0 °C (231 for −25 °C; never negative) and the MCP990x from 128 °C (int8_t)."
  },
  {
   "property": "C257",
   "status": "partial",
   "theorems": [
    "Props.TempSensors.C257_nearest_partial",
    "Props.TempSensors.C257_error",
    "Props.TempSensors.C257_counterexample",
    "Props.TempSensors.C257_missing_counterexample"
   ],
   "note": "Proved from 0 °C upwards; below, the half is added and the division cuts towards zero. A missing device reads as −0.05 °C."
  },
  {
   "property": "C258",
   "status": "proved",
   "theorems": [
    "Props.TempSensors.C258_lm75",
    "Props.TempSensors.C258_tmp102",
    "Props.TempSensors.C258_tmp102_extended",
    "Props.TempSensors.C258_range_counterexample"
   ],
   "note": "In the range of the format; beyond it the limit changes sign."
  },
  {
   "property": "C259",
   "status": "partial",
   "theorems": [
    "Props.TempSensors.C259_limit_counterexample",
    "Props.TempSensors.C259_example_counterexample",
    "Props.TempSensors.C259_factor_partial"
   ],
   "note": "Refuted for every resolution and every temperature but 0: the second shift should be by 7 − res and is by 4 + res."
  },
  {
   "property": "C260",
   "status": "partial",
   "theorems": [
    "Props.TempSensors.C260_rate_partial",
    "Props.TempSensors.C260_rate8_counterexample",
    "Props.TempSensors.C260_other",
    "Props.TempSensors.C260_period_counterexample"
   ],
   "note": "Refuted for 8 Hz (the chip is told 4 Hz); TMP175 and DS1631 are started 29 ms too early."
  },
  {
   "property": "C261",
   "status": "partial",
   "theorems": [
    "Props.TempSensors.C261_tmp175_partial",
    "Props.TempSensors.C261_tmp175_counterexample",
    "Props.TempSensors.C261_ds1631_partial",
    "Props.TempSensors.C261_oneshot_counterexample",
    "Props.TempSensors.C261_ds1631_counterexample",
    "Props.TempSensors.C261_address_counterexample"
   ],
   "note": "Refuted for 11 and 12 bits, for the one-shot mode of the DS1631 (never started) and for its default address."
  },
  {
   "property": "C262",
   "status": "partial",
   "theorems": [
    "Props.TempSensors.C262_resistance",
    "Props.TempSensors.C262_fast_partial",
    "Props.TempSensors.C262_fast_counterexample",
    "Props.TempSensors.C262_first_partial",
    "Props.TempSensors.C262_oneshot_counterexample",
    "Props.TempSensors.C262_second_counterexample"
   ],
   "note": "Refuted for sensors other than 100 Ω and from the end of the first reading on."
  },
  {
   "property": "C263",
   "status": "partial",
   "theorems": [
    "Props.Barometer.C263_datasheet_partial",
    "Props.Barometer.C263_overflow_counterexample",
    "Props.Barometer.C263_zero_counterexample"
   ],
   "note": "Proved from −154.72 °C upwards; refuted below for every calibration: signed overflow. Reached by the raw value 0 that the chip returns without a conversion."
  },
  {
   "property": "C264",
   "status": "partial",
   "theorems": [
    "Props.Barometer.C264_datasheet_partial",
    "Props.Barometer.C264_zero_counterexample"
   ],
   "note": "Proved from −187.24 °C to 483.40 °C; signed overflow beyond."
  },
  {
   "property": "C265",
   "status": "partial",
   "theorems": [
    "Props.Barometer.C265_ms5611",
    "Props.Barometer.C265_ms5837",
    "Props.Barometer.C265_absent_counterexample"
   ],
   "note": "Errors are detected; a missing device is not: zeros have the check 0."
  },
  {
   "property": "C266",
   "status": "partial",
   "theorems": [
    "Props.Barometer.C266_getters_partial",
    "Props.Barometer.C266_temperature",
    "Props.Barometer.C266_between_counterexample",
    "Props.Barometer.C266_bmp085_counterexample"
   ],
   "note": "Proved if nobody asks between the halves of a readout (temperature of MS5611 and MS5837 without that condition); refuted otherwise."
  },
  {
   "property": "C267",
   "status": "partial",
   "theorems": [
    "Props.Barometer.C267_temperature_partial",
    "Props.Barometer.C267_ac5_counterexample",
    "Props.Barometer.C267_zero_counterexample",
    "Props.Barometer.C267_pressure_partial",
    "Props.Barometer.C267_below_counterexample"
   ],
   "note": "Refuted for AC5 from 32768 on (converted to int16_t), without calibration (division by zero) and for raw pressures below B3 (overflow)."
  },
  {
   "property": "C268",
   "status": "partial",
   "theorems": [
    "Props.Barometer.C268_ams5915",
    "Props.Barometer.C268_hclax_partial",
    "Props.Barometer.C268_hclax_counterexample"
   ],
   "note": "Proved for AMS5915; HCLA wraps to 2.49 just below the offset."
  },
  {
   "property": "C269",
   "status": "partial",
   "theorems": [
    "Props.AdcDrivers.C269_crc",
    "Props.AdcDrivers.C269_burst",
    "Props.AdcDrivers.C269_zero_counterexample"
   ],
   "note": "Proved but for a bus that stays low, which passes."
  },
  {
   "property": "C270",
   "status": "proved",
   "theorems": [
    "Props.AdcDrivers.C270_frame",
    "Props.AdcDrivers.C270_device_counterexample",
    "Props.AdcDrivers.C270_reading"
   ],
   "note": "For addresses of the chain (0 … 31); a larger one reaches into the register number."
  },
  {
   "property": "C271",
   "status": "partial",
   "theorems": [
    "Props.AdcDrivers.C271_all",
    "Props.AdcDrivers.C271_error",
    "Props.AdcDrivers.C271_selftest",
    "Props.AdcDrivers.C271_channel_partial",
    "Props.AdcDrivers.C271_channel_counterexample",
    "Props.AdcDrivers.C271_zero_counterexample",
    "Props.AdcDrivers.C271_average_counterexample",
    "Props.AdcDrivers.C271_setup_counterexample"
   ],
   "note": "readAllChannels and performSelftest proved. Refuted: readChannel fails for every channel but the first; six cells of 0 V without a device; averaging unused; chainSetup always succeeds."
  },
  {
   "property": "C272",
   "status": "partial",
   "theorems": [
    "Props.AdcDrivers.C272_fields_partial",
    "Props.AdcDrivers.C272_scale",
    "Props.AdcDrivers.C272_start",
    "Props.AdcDrivers.C272_value",
    "Props.AdcDrivers.C272_table",
    "Props.AdcDrivers.C272_comparator_counterexample"
   ],
   "note": "Proved but for the comparator: it stays off after initialize whatever is called (wrong mask)."
  },
  {
   "property": "C273",
   "status": "proved",
   "theorems": [
    "Props.AdcDrivers.C273_ads7828",
    "Props.AdcDrivers.C273_ads7828_channels",
    "Props.AdcDrivers.C273_mcp3008",
    "Props.AdcDrivers.C273_hx711",
    "Props.AdcDrivers.C273_mcp4922"
   ],
   "note": ""
  },
  {
   "property": "C274",
   "status": "partial",
   "theorems": [
    "Props.AdcDrivers.C274_single",
    "Props.AdcDrivers.C274_sequence",
    "Props.AdcDrivers.C274_auto_counterexample",
    "Props.AdcDrivers.C274_lost_counterexample"
   ],
   "note": "Conversions and sequences proved; refuted: the automatic shutdown is forgotten, and stops a sequence."
  },
  {
   "property": "C275",
   "status": "partial",
   "theorems": [
    "Props.AvrHeap.C275_defined_partial",
    "Props.AvrHeap.C275_separate_partial",
    "Props.AvrHeap.C275_data_partial",
    "Props.AvrHeap.C275_first_partial",
    "Props.AvrHeap.C275_end_counterexample",
    "Props.AvrHeap.C275_marker_counterexample",
    "Props.AvrHeap.C275_largest_counterexample",
    "Props.AvrHeap.C275_again_counterexample"
   ],
   "note": "Proved for heaps of at most 127 + MAX_BLOCK_PARTS blocks with MAX_BLOCK_PARTS at most 126 and no negative byte behind the heap (the bounds cannot be widened); refuted without each of them. Memory freed can not always be had again."
  },
  {
   "property": "C276",
   "status": "proved",
   "theorems": [
    "Props.Startup.C276_hooks",
    "Props.Startup.C276_constructors",
    "Props.Startup.C276_main"
   ],
   "note": ""
  },
  {
   "property": "C277",
   "status": "partial",
   "theorems": [
    "Props.Startup.C277_pieces",
    "Props.Startup.C277_room_partial",
    "Props.Startup.C277_last_counterexample",
    "Props.Startup.C277_below_counterexample"
   ],
   "note": "Pieces proved; the last byte is never handed out, and nothing keeps the heap from shrinking below its start."
  },
  {
   "property": "C278",
   "status": "partial",
   "theorems": [
    "Props.Startup.C278_new",
    "Props.Startup.C278_nothrow_partial",
    "Props.Startup.C278_nothrow_counterexample",
    "Props.Startup.C278_empty_counterexample"
   ],
   "note": "new proved; the nothrow form calls no handler; an empty array fails on AVR."
  },
  {
   "property": "C279",
   "status": "partial",
   "theorems": [
    "Props.Tlsf.C279_defined_partial",
    "Props.Tlsf.C279_disjoint_partial",
    "Props.Tlsf.C279_data_partial",
    "Props.Tlsf.C279_outside_partial",
    "Props.Tlsf.C279_malloc_counterexample"
   ],
   "note": "Proved for sizes whose rounded-up list exists; refuted for sizes in the last list below the largest size, where the bitmaps are read out of range."
  },
  {
   "property": "C280",
   "status": "proved",
   "theorems": [
    "Props.Tlsf.C280_null",
    "Props.Tlsf.C280_recovers"
   ],
   "note": ""
  },
  {
   "property": "C281",
   "status": "partial",
   "theorems": [
    "Props.Tlsf.C281_realloc_partial",
    "Props.Tlsf.C281_realloc_counterexample"
   ],
   "note": "Proved below the largest size; refuted from the largest size on."
  },
  {
   "property": "C282",
   "status": "proved",
   "theorems": [
    "Props.CharDisplay.C282_init",
    "Props.CharDisplay.C282_byte"
   ],
   "note": ""
  },
  {
   "property": "C283",
   "status": "partial",
   "theorems": [
    "Props.CharDisplay.C283_text_partial",
    "Props.CharDisplay.C283_clear_counterexample",
    "Props.CharDisplay.C283_cursor_counterexample"
   ],
   "note": "Proved when setCursor follows every clear and positions are on the display; refuted for clear alone and for a line behind the last one."
  },
  {
   "property": "C284",
   "status": "partial",
   "theorems": [
    "Props.CharDisplay.C284_cgram_partial",
    "Props.CharDisplay.C284_character_counterexample",
    "Props.CharDisplay.C284_text_counterexample"
   ],
   "note": "Proved for characters below 8 and rows of at most 50 µs; refuted for character 8 and for text that follows."
  },
  {
   "property": "C285",
   "status": "partial",
   "theorems": [
    "Props.CharDisplay.C285_line_partial",
    "Props.CharDisplay.C285_newline_counterexample"
   ],
   "note": "Proved for displays of one line; refuted for two lines."
  },
  {
   "property": "C286",
   "status": "proved",
   "theorems": [
    "Props.SpiStm32.C286_transfer",
    "Props.SpiStm32.C286_prefix",
    "Props.SpiStm32.C286_returns"
   ],
   "note": ""
  },
  {
   "property": "C287",
   "status": "partial",
   "theorems": [
    "Props.SpiStm32.C287_transfer_partial",
    "Props.SpiStm32.C287_fifo_partial",
    "Props.SpiStm32.C287_plain_partial",
    "Props.SpiStm32.C287_live",
    "Props.SpiStm32.C287_last_counterexample",
    "Props.SpiStm32.C287_overrun_counterexample",
    "Props.SpiStm32.C287_dummy_counterexample",
    "Props.SpiStm32.C287_long_counterexample",
    "Props.SpiStm32.C287_zero_counterexample"
   ],
   "note": "Proved: bytes sent, frame, progress, and with FIFO and without overrun the answers, for 1 to 65535 bytes with buffers or a dummy byte that is zero; refuted: the last answer without FIFO, overrun, dummy byte, lengths 0 and above 65535."
  },
  {
   "property": "C288",
   "status": "partial",
   "theorems": [
    "Props.SpiStm32.C288_ends_partial",
    "Props.SpiStm32.C288_forever_counterexample",
    "Props.SpiStm32.C288_error_counterexample"
   ],
   "note": "Proved: the transfer ends; refuted: the clock of the DMA controller stays off, no later transfer returns."
  },
  {
   "property": "C289",
   "status": "proved",
   "theorems": [
    "Props.Dataflash.C289_store",
    "Props.Dataflash.C289_ends",
    "Props.Dataflash.C289_overlap"
   ],
   "note": ""
  },
  {
   "property": "C290",
   "status": "partial",
   "theorems": [
    "Props.Dataflash.C290_chip_partial",
    "Props.Dataflash.C290_page_counterexample"
   ],
   "note": "Proved for chipErase; pageErase and blockErase never change anything."
  },
  {
   "property": "C291",
   "status": "partial",
   "theorems": [
    "Props.Dataflash.C291_init_partial",
    "Props.Dataflash.C291_virgin_counterexample",
    "Props.Dataflash.C291_busy_counterexample"
   ],
   "note": "Proved for devices that have pages of 256 bytes; refuted for devices as delivered until they are switched off and on, and for good if they were busy."
  },
  {
   "property": "C292",
   "status": "partial",
   "theorems": [
    "Props.AvrUart.C292_order",
    "Props.AvrUart.C292_drains",
    "Props.AvrUart.C292_refused",
    "Props.AvrUart.C292_finished_partial",
    "Props.AvrUart.C292_finished_counterexample"
   ],
   "note": "All but isWriteFinished: it returns true while the last byte is still being sent (the last two after discardTransmitBuffer)."
  },
  {
   "property": "C293",
   "status": "partial",
   "theorems": [
    "Props.AvrUart.C293_read",
    "Props.AvrUart.C293_order",
    "Props.AvrUart.C293_lossless_partial",
    "Props.AvrUart.C293_frame",
    "Props.AvrUart.C293_overflow_counterexample"
   ],
   "note": "A byte that finds the queue full is lost without a flag; all other losses and frame errors are reported."
  },
  {
   "property": "C294",
   "status": "proved",
   "theorems": [
    "Props.Nrf24.C294_bits",
    "Props.Nrf24.C294_address",
    "Props.Nrf24.C294_speed",
    "Props.Nrf24.C294_fields",
    "Props.Nrf24.C294_pipe"
   ],
   "note": ""
  },
  {
   "property": "C295",
   "status": "partial",
   "theorems": [
    "Props.Nrf24.C295_send",
    "Props.Nrf24.C295_feedback_partial",
    "Props.Nrf24.C295_done",
    "Props.Nrf24.C295_broadcast_counterexample",
    "Props.Nrf24.C295_late_counterexample",
    "Props.Nrf24.C295_restart_counterexample"
   ],
   "note": "Proved for packets to one station while the timeout does not expire; refuted for packets to all, for an acknowledgement at the moment of the timeout, and after a reset of the processor only."
  },
  {
   "property": "C296",
   "status": "partial",
   "theorems": [
    "Props.Nrf24.C296_addresses",
    "Props.Nrf24.C296_taken",
    "Props.Nrf24.C296_packets_partial",
    "Props.Nrf24.C296_next_partial",
    "Props.Nrf24.C296_flush_counterexample",
    "Props.Nrf24.C296_restart_counterexample",
    "Props.Nrf24.C296_again_counterexample"
   ],
   "note": "Addresses proved for all executions, packets for executions without sending; refuted when a packet is sent before those received were fetched, after a reset of the processor only, and after a reset of the device only."
  },
  {
   "property": "C297",
   "status": "partial",
   "theorems": [
    "Props.Panel.C297_update",
    "Props.Panel.C297_pixels",
    "Props.Panel.C297_small_counterexample",
    "Props.Panel.C297_interrupted_counterexample"
   ],
   "note": "Proved for the height 64 and complete transfers. False for the height 32: the window has eight pages, so updates go by turns to pages 0-3 and 4-7. False after an interrupted transfer: all later pictures are moved."
  },
  {
   "property": "C298",
   "status": "proved",
   "theorems": [
    "Props.Panel.C298_update",
    "Props.Panel.C298_initialized"
   ],
   "note": ""
  },
  {
   "property": "C299",
   "status": "partial",
   "theorems": [
    "Props.Panel.C299_update_counterexample",
    "Props.Panel.C299_nokia_partial",
    "Props.Panel.C299_ks0108_partial",
    "Props.Panel.C299_ks0108_initialize",
    "Props.Panel.C299_st7565_partial"
   ],
   "note": "False: the loops read buffer[x][page] though the buffer is declared as buffer[Height / 8][Width], every update reads outside of it. Proved: the commands and the order of the bytes are right if the loop reads the byte of its column and page."
  },
  {
   "property": "C300",
   "status": "partial",
   "theorems": [
    "Props.Panel.C300_turned_partial",
    "Props.Panel.C300_widths_counterexample"
   ],
   "note": "Proved for the width 128. False for the DOGM132, where the last four columns are lost, and for the DOGS102, where the two views use different segments."
  },
  {
   "property": "C301",
   "status": "proved",
   "theorems": [
    "Props.Panel.C301_line"
   ],
   "note": ""
  },
  {
   "property": "C302",
   "status": "partial",
   "theorems": [
    "Props.Panel.C302_brightness",
    "Props.Panel.C302_initialize",
    "Props.Panel.C302_horizontal_partial",
    "Props.Panel.C302_vertical_partial",
    "Props.Panel.C302_matrix_counterexample"
   ],
   "note": "Registers and initialisation proved. update() of the matrices is false: the loops read the buffer with exchanged indices. Proved: the chain and the rows are right if the loop reads the right byte."
  },
  {
   "property": "C303",
   "status": "proved",
   "theorems": [
    "Props.Rtt.C303_transmit",
    "Props.Rtt.C303_refused",
    "Props.Rtt.C303_drain",
    "Props.Rtt.C303_finished"
   ],
   "note": ""
  },
  {
   "property": "C304",
   "status": "proved",
   "theorems": [
    "Props.Rtt.C304_receive",
    "Props.Rtt.C304_read"
   ],
   "note": ""
  },
  {
   "property": "C305",
   "status": "partial",
   "theorems": [
    "Props.Rtt.C305_write_block",
    "Props.Rtt.C305_read_block",
    "Props.Rtt.C305_size_partial",
    "Props.Rtt.C305_empty_counterexample",
    "Props.Rtt.C305_no_buffer_counterexample"
   ],
   "note": "Blocks proved. False: the number of bytes of an empty buffer is reported as its whole size; write() to a channel of size 0 divides by zero."
  },
  {
   "property": "C306",
   "status": "proved",
   "theorems": [
    "Props.Touch.C306_raw",
    "Props.Touch.C306_range",
    "Props.Touch.C306_touched"
   ],
   "note": ""
  },
  {
   "property": "C307",
   "status": "partial",
   "theorems": [
    "Props.Touch.C307_position_partial",
    "Props.Touch.C307_touch_partial",
    "Props.Touch.C307_defined",
    "Props.Touch.C307_negative_counterexample",
    "Props.Touch.C307_default_counterexample"
   ],
   "note": "Proved if the product fits into 32 bits and the result is not negative. False: negative results give the maximum instead of 0; with the default factor raw values from 2148 on overflow."
  },
  {
   "property": "C308",
   "status": "proved",
   "theorems": [
    "Props.Touch.C308_read_data",
    "Props.Touch.C308_stable",
    "Props.Touch.C308_closest",
    "Props.Touch.C308_robust",
    "Props.Touch.C308_read"
   ],
   "note": ""
  },
  {
   "property": "C309",
   "status": "proved",
   "theorems": [
    "Props.Touch.C309_touches",
    "Props.Touch.C309_none"
   ],
   "note": ""
  },
  {
   "property": "C310",
   "status": "partial",
   "theorems": [
    "Props.BusDevices.C310_channel_partial",
    "Props.BusDevices.C310_refused",
    "Props.BusDevices.C310_retry_counterexample",
    "Props.BusDevices.C310_read_counterexample"
   ],
   "note": "Proved if the multiplexer starts in the state the driver assumes and all its transactions are acknowledged. False after a selection that was not acknowledged (the retry is started on the old channels) and after readCommandRegister, which returns the old contents of its buffer."
  },
  {
   "property": "C311",
   "status": "partial",
   "theorems": [
    "Props.BusDevices.C311_pwm_partial",
    "Props.BusDevices.C311_results",
    "Props.BusDevices.C311_zero_counterexample"
   ],
   "note": "Proved for all values but multiples of 4096: for 0 the counts for on and off are the same, which the data sheet excludes."
  },
  {
   "property": "C312",
   "status": "partial",
   "theorems": [
    "Props.BusDevices.C312_command",
    "Props.BusDevices.C312_angle",
    "Props.BusDevices.C312_degrees_partial",
    "Props.BusDevices.C312_degrees_counterexample",
    "Props.BusDevices.C312_error_counterexample"
   ],
   "note": "Commands and raw angle proved. False: degrees are divided by 16383 (360 degrees for the last step), and the error flag is not looked at."
  },
  {
   "property": "C313",
   "status": "proved",
   "theorems": [
    "Props.BusDevices.C313_outputs"
   ],
   "note": ""
  },
  {
   "property": "C314",
   "status": "partial",
   "theorems": [
    "Props.Gui.C314_topmost_partial",
    "Props.Gui.C314_edge_counterexample",
    "Props.Gui.C314_group_counterexample"
   ],
   "note": "Proved outside of the first row and column of widgets and if in each group at most one widget covers the point. False in the first row and column, which do not react, and for children of groups that overlap, where the one below gets the event."
  },
  {
   "property": "C315",
   "status": "partial",
   "theorems": [
    "Props.Gui.C315_press_partial",
    "Props.Gui.C315_leave_counterexample"
   ],
   "note": "Proved for a release on the same widget. False for a release elsewhere: the widget stays active."
  },
  {
   "property": "C316",
   "status": "proved",
   "theorems": [
    "Props.Gui.C316_positions",
    "Props.Gui.C316_start",
    "Props.Gui.C316_fits"
   ],
   "note": ""
  },
  {
   "property": "C317",
   "status": "partial",
   "theorems": [
    "Props.Gui.C317_display_partial",
    "Props.Gui.C317_group_counterexample",
    "Props.Gui.C317_kids_counterexample",
    "Props.Gui.C317_move_counterexample"
   ],
   "note": "Proved for views of plain widgets with any overlaps, and groups without overlaps. False for groups that lie on a widget (they are not drawn again), for children of groups that overlap, and for widgets that are moved after pack."
  },
  {
   "property": "C318",
   "status": "partial",
   "theorems": [
    "Props.Gui.C318_float_partial",
    "Props.Gui.C318_click",
    "Props.Gui.C318_sign_counterexample",
    "Props.Gui.C318_setState_counterexample"
   ],
   "note": "Proved for values that are not between -1 and 0, and for clicks. False: -0.5 is shown as 0.500, and setState of a check box does not lead to a redraw."
  },
  {
   "property": "C319",
   "status": "proved",
   "theorems": [
    "Props.Gui.C319_inverse",
    "Props.Gui.C319_cycle"
   ],
   "note": ""
  },
  {
   "property": "C320",
   "status": "partial",
   "theorems": [
    "Props.Gui.C320_palette_partial",
    "Props.Gui.C320_group_counterexample"
   ],
   "note": "Proved for views without groups. False for groups: WidgetGroup::setColorPalette calls itself without end."
  },
  {
   "property": "C321",
   "status": "proved",
   "theorems": [
    "Props.I2cTiming.C321_timings",
    "Props.I2cTiming.C321_best"
   ],
   "note": ""
  },
  {
   "property": "C322",
   "status": "partial",
   "theorems": [
    "Props.I2cTiming.C322_hold_partial",
    "Props.I2cTiming.C322_filter_counterexample",
    "Props.I2cTiming.C322_valid_counterexample",
    "Props.I2cTiming.C322_rise_counterexample"
   ],
   "note": "Proved with the analog filter and if the maximum can be met at all. False without the filter, whose delay is subtracted all the same, if the maximum is negative (it is replaced by 0), and for the driver, which passes rise and fall times of 0."
  },
  {
   "property": "C323",
   "status": "proved",
   "theorems": [
    "Props.I2cTiming.C323_register"
   ],
   "note": ""
  },
  {
   "property": "C324",
   "status": "partial",
   "theorems": [
    "Props.Location.C324_normalize_partial",
    "Props.Location.C324_endless_counterexample"
   ],
   "note": "Proved in exact arithmetic. False for floats: from 2^28 on the loop never ends."
  },
  {
   "property": "C325",
   "status": "partial",
   "theorems": [
    "Props.Location.C325_reverse_partial",
    "Props.Location.C325_equivalent_counterexample"
   ],
   "note": "Proved for angles in the range other than zero. False for zero (-Pi instead of Pi) and for angles outside of the range, which stay outside."
  },
  {
   "property": "C326",
   "status": "proved",
   "theorems": [
    "Props.Location.C326_moves"
   ],
   "note": ""
  },
  {
   "property": "C327",
   "status": "partial",
   "theorems": [
    "Props.Location.C327_compare_partial",
    "Props.Location.C327_neither_counterexample"
   ],
   "note": "Proved unless the orientations differ by exactly the epsilon, where neither operator holds; Pi and -Pi are not equal."
  },
  {
   "property": "C328",
   "status": "partial",
   "theorems": [
    "Props.CycleCounter.C328_up_partial",
    "Props.CycleCounter.C328_short_counterexample"
   ],
   "note": "Proved for times of at least the overhead; shorter ones wrap around."
  },
  {
   "property": "C329",
   "status": "partial",
   "theorems": [
    "Props.CycleCounter.C329_down_partial",
    "Props.CycleCounter.C329_underflow_counterexample"
   ],
   "note": "Proved without an underflow; with an underflow the result is one cycle less (LOAD is added instead of LOAD + 1)."
  },
  {
   "property": "C330",
   "status": "partial",
   "theorems": [
    "Props.CycleCounter.C330_units_partial",
    "Props.CycleCounter.C330_nanoseconds_counterexample"
   ],
   "note": "Proved if the result is below 2^32, which is always so for milliseconds and microseconds with usual clocks. False for nanoseconds from 4.3 seconds on."
  },
  {
   "property": "C331",
   "status": "proved",
   "theorems": [
    "Props.ThreadSemaphore.C331_counter"
   ],
   "note": ""
  },
  {
   "property": "C332",
   "status": "partial",
   "theorems": [
    "Props.ThreadSemaphore.C332_awake_partial",
    "Props.ThreadSemaphore.C332_lost_counterexample"
   ],
   "note": "Proved for executions in which no wait ends by its timeout. False otherwise: a notified thread that resumes at its deadline returns false and the notification is lost for the others."
  },
  {
   "property": "C333",
   "status": "partial",
   "theorems": [
    "Props.ThreadSemaphore.C333_timeout_partial",
    "Props.ThreadSemaphore.C333_restart_counterexample"
   ],
   "note": "Proved: false only after the timeout, and a return if not woken for the length of the timeout. False: the timeout starts again after each wake-up, and the default is 2^32 - 1 ms, not endless."
  },
  {
   "property": "C334",
   "status": "partial",
   "theorems": [
    "Props.Exti.C334_source_partial",
    "Props.Exti.C334_eight_counterexample"
   ],
   "note": "Proved for SYSCFG and AFIO (four bits for each line). False for G0, L5 and U5, whose EXTICR has eight bits for each line."
  },
  {
   "property": "C335",
   "status": "partial",
   "theorems": [
    "Props.Exti.C335_irq_partial",
    "Props.Exti.C335_lost_counterexample"
   ],
   "note": "Proved but for edges on the line whose handler is running: these are lost, since the pending bit is cleared after the handler."
  },
  {
   "property": "C336",
   "status": "partial",
   "theorems": [
    "Props.Exti.C336_connect_partial",
    "Props.Exti.C336_early_counterexample"
   ],
   "note": "Proved for devices with four bits for each line and no edge while connecting. False with an edge of the old pin after the acknowledgement (the new handler is called), and on G0, L5 and U5."
  },
  {
   "property": "C337",
   "status": "partial",
   "theorems": [
    "Props.Dma.C337_interrupt_partial",
    "Props.Dma.C337_lost_counterexample"
   ],
   "note": "Proved but for events of the same channel between reading and clearing: all its flags are cleared, so a completion while the handler for the first half runs is lost."
  },
  {
   "property": "C338",
   "status": "partial",
   "theorems": [
    "Props.Dma.C338_error_partial",
    "Props.Dma.C338_controller_counterexample"
   ],
   "note": "The handler is called and the channel stops, but the unqualified disable() switches off the clock of the whole controller: all other channels stop too."
  },
  {
   "property": "C339",
   "status": "proved",
   "theorems": [
    "Props.Dma.C339_flags"
   ],
   "note": ""
  },
  {
   "property": "C340",
   "status": "proved",
   "theorems": [
    "Props.RpInt.C340_not_lost"
   ],
   "note": ""
  },
  {
   "property": "C341",
   "status": "partial",
   "theorems": [
    "Props.RpInt.C341_calls_partial",
    "Props.RpInt.C341_upper_counterexample"
   ],
   "note": "Proved for pins 0 to 23. NUM_BANK0_GPIOS / 8 is rounded down, so pins 24 to 29 are never handled nor acknowledged."
  },
  {
   "property": "C342",
   "status": "proved",
   "theorems": [
    "Props.RpInt.C342_connect"
   ],
   "note": ""
  },
  {
   "property": "C343",
   "status": "proved",
   "theorems": [
    "Props.SCurve.C343_limits"
   ],
   "note": ""
  },
  {
   "property": "C344",
   "status": "proved",
   "theorems": [
    "Props.SCurve.C344_ramps"
   ],
   "note": ""
  },
  {
   "property": "C345",
   "status": "partial",
   "theorems": [
    "Props.SCurve.C345_target_partial",
    "Props.SCurve.C345_constructor_counterexample"
   ],
   "note": "Proved for setParameter() and setSpeedTarget(). The constructor does not compute the distance: updates read a member that was never written."
  },
  {
   "property": "C346",
   "status": "partial",
   "theorems": [
    "Props.Ixm42.C346_parse",
    "Props.Ixm42.C346_loop_partial",
    "Props.Ixm42.C346_end_counterexample"
   ],
   "note": "Proved for data that ends with a whole packet. A packet that is cut off at the end of the buffer is parsed behind the end."
  },
  {
   "property": "C347",
   "status": "partial",
   "theorems": [
    "Props.Ixm42.C347_values_partial",
    "Props.Ixm42.C347_gyro_counterexample"
   ],
   "note": "Proved but for the rotation of packets with 20 bits, which is right only if the extension is zero: its four bits overlap with a value shifted by three."
  },
  {
   "property": "C348",
   "status": "partial",
   "theorems": [
    "Props.Ixm42.C348_temperature_partial",
    "Props.Ixm42.C348_byte_counterexample"
   ],
   "note": "Proved for 16 bits. One byte is copied into the lower half of two: negative temperatures are wrong, and the upper half is left from earlier packets."
  },
  {
   "property": "C349",
   "status": "partial",
   "theorems": [
    "Props.Drv832x.C349_commit_partial",
    "Props.Drv832x.C349_lost_counterexample"
   ],
   "note": "Proved if no accessor is called during commit(). Otherwise the bit of a register already passed is cleared at the end and the change is never written."
  },
  {
   "property": "C350",
   "status": "proved",
   "theorems": [
    "Props.Drv832x.C350_transfers"
   ],
   "note": ""
  },
  {
   "property": "C351",
   "status": "partial",
   "theorems": [
    "Props.Ft245.C351_read_partial",
    "Props.Ft245.C351_zero_counterexample"
   ],
   "note": "Proved for lengths from 1 on. With length zero bytes are written behind the buffer."
  },
  {
   "property": "C352",
   "status": "proved",
   "theorems": [
    "Props.Ft245.C352_write"
   ],
   "note": ""
  },
  {
   "property": "C353",
   "status": "partial",
   "theorems": [
    "Props.Spartan3.C353_configure_partial",
    "Props.Spartan3.C353_small_counterexample"
   ],
   "note": "Proved for XC3S200 and XC3S400. The size of XC3S50 is 53908 instead of 54908, so its configuration always fails."
  },
  {
   "property": "C354",
   "status": "partial",
   "theorems": [
    "Props.DynamicPostman.C354_events_partial",
    "Props.DynamicPostman.C354_short_counterexample"
   ],
   "note": "Proved if the payload has at least the size of the parameter. The size is not checked: a shorter payload is read past its end."
  },
  {
   "property": "C355",
   "status": "partial",
   "theorems": [
    "Props.DynamicPostman.C355_requests_partial",
    "Props.DynamicPostman.C355_zero_counterexample"
   ],
   "note": "Proved for components other than 0 and payloads of at least the size of the parameter. Component 0 is available but its requests are events."
  },
  {
   "property": "C356",
   "status": "partial",
   "theorems": [
    "Props.GpioSampler.C356_samples_partial",
    "Props.GpioSampler.C356_last_partial",
    "Props.GpioSampler.C356_lost_counterexample"
   ],
   "note": "Proved if the pin does not change while the handler runs. A change between reading the pin and acknowledging the flag is lost."
  },
  {
   "property": "C357",
   "status": "proved",
   "theorems": [
    "Props.GpioSampler.C357_diff"
   ],
   "note": ""
  },
  {
   "property": "C358",
   "status": "proved",
   "theorems": [
    "Props.SpiRam.C358_write"
   ],
   "note": ""
  },
  {
   "property": "C359",
   "status": "proved",
   "theorems": [
    "Props.SpiRam.C359_read"
   ],
   "note": ""
  },
  {
   "property": "C360",
   "status": "proved",
   "theorems": [
    "Props.Itm.C360_order"
   ],
   "note": ""
  },
  {
   "property": "C361",
   "status": "partial",
   "theorems": [
    "Props.Itm.C361_flush_partial",
    "Props.Itm.C361_flush_counterexample"
   ],
   "note": "Proved that at most four bytes are missing. Only the queue is looked at, not the word being assembled, so up to four bytes are not put out."
  },
  {
   "property": "C362",
   "status": "partial",
   "theorems": [
    "Props.Is31fl3733.C362_registers_partial",
    "Props.Is31fl3733.C362_reset_counterexample"
   ],
   "note": "Proved for chips that keep the page at a reset. If the chip selects page 0 then, the driver writes to the wrong page after reset()."
  },
  {
   "property": "C363",
   "status": "partial",
   "theorems": [
    "Props.Is31fl3733.C363_leds_partial"
   ],
   "note": "Proved for chips that keep the page at a reset; see C362."
  },
  {
   "property": "C364",
   "status": "proved",
   "theorems": [
    "Props.Lp503x.C364_leds"
   ],
   "note": ""
  },
  {
   "property": "C365",
   "status": "proved",
   "theorems": [
    "Props.Lp503x.C365_config"
   ],
   "note": ""
  },
  {
   "property": "C366",
   "status": "partial",
   "theorems": [
    "Props.Lis3dsh.C366_control_partial",
    "Props.Lis3dsh.C366_failed_counterexample"
   ],
   "note": "Proved for registers whose last write succeeded. A failed call changes the copy in the driver but not the register."
  },
  {
   "property": "C367",
   "status": "partial",
   "theorems": [
    "Props.Lis3dsh.C367_acceleration_partial",
    "Props.Lis3dsh.C367_failed_counterexample",
    "Props.Lis3dsh.C367_increment_counterexample"
   ],
   "note": "Proved if the last write of control register 5 succeeded and ADD_INC is set. The scale is changed before the transaction; updateControl(Control6_t) clears ADD_INC by default, then STATUS is taken for accelerations."
  },
  {
   "property": "C368",
   "status": "proved",
   "theorems": [
    "Props.Ltc2984.C368_temperature"
   ],
   "note": ""
  },
  {
   "property": "C369",
   "status": "proved",
   "theorems": [
    "Props.Ltc2984.C369_registers",
    "Props.Ltc2984.C369_absent"
   ],
   "note": ""
  },
  {
   "property": "C370",
   "status": "partial",
   "theorems": [
    "Props.Ltc2984.C370_configure_partial",
    "Props.Ltc2984.C370_configure_counterexample"
   ],
   "note": "Proved for 50 Hz and Celsius only. The configuration is put where writeData() puts the instruction, so that 2 is stored whatever is given. Besides, configure() does not compile when used, as a byte is passed for a pointer."
  },
  {
   "property": "C371",
   "status": "proved",
   "theorems": [
    "Props.Spartan6.C371_bytes"
   ],
   "note": ""
  },
  {
   "property": "C372",
   "status": "partial",
   "theorems": [
    "Props.Spartan6.C372_result_partial",
    "Props.Spartan6.C372_error_counterexample"
   ],
   "note": "Proved with INIT_B looked at in the pages before that in which DONE goes high. An error does not end the page, and DONE later in the same page replaces it, so that configure() returns true."
  },
  {
   "property": "C373",
   "status": "partial",
   "theorems": [
    "Props.Cat24aa.C373_memory_partial",
    "Props.Cat24aa.C373_page_counterexample"
   ],
   "note": "Proved for writes within a page of 16 bytes. The driver does not split writes at the ends of pages: the bytes beyond go to the beginning of the page, and write() returns true."
  },
  {
   "property": "C374",
   "status": "proved",
   "theorems": [
    "Props.Mcp23s08.C374_port",
    "Props.Mcp23s08.C374_interrupt"
   ],
   "note": ""
  },
  {
   "property": "C375",
   "status": "partial",
   "theorems": [
    "Props.Tcs3414.C375_others_partial",
    "Props.Tcs3414.C375_value_counterexample"
   ],
   "note": "Proved that no other register is changed and that the result is that of the bus. The value is never sent, as only two of the three bytes of the buffer are written: the sensor is not even switched on, though initialize() returns true."
  },
  {
   "property": "C376",
   "status": "partial",
   "theorems": [
    "Props.Tcs3414.C376_colors_partial",
    "Props.Tcs3414.C376_beyond_counterexample"
   ],
   "note": "The colours are proved to be right. readColor() reads as many bytes as the data have, but to their second byte, so that the byte after the data is overwritten."
  },
  {
   "property": "C377",
   "status": "proved",
   "theorems": [
    "Props.Tcs3472.C377_registers",
    "Props.Tcs3472.C377_colors"
   ],
   "note": ""
  },
  {
   "property": "C378",
   "status": "partial",
   "theorems": [
    "Props.Tcs3472.C378_modes_partial",
    "Props.Tcs3472.C378_wait_counterexample"
   ],
   "note": "Proved but for waiting. Enable_InterruptMode_Waittime has INTERRUPT_ENABLE twice instead of WAIT_ENABLE, so that it is the same as Enable_InterruptMode."
  },
  {
   "property": "C379",
   "status": "proved",
   "theorems": [
    "Props.Hmc6343.C379_values",
    "Props.Hmc6343.C379_mode"
   ],
   "note": ""
  },
  {
   "property": "C380",
   "status": "proved",
   "theorems": [
    "Props.Hmc6343.C380_written",
    "Props.Hmc6343.C380_read"
   ],
   "note": ""
  }
 ]
}
