S("C01", "proved", "Props.C01_queue_is_bounded_fifo",
  "All N <= 65535, all histories, all initial buffer contents; also shows no access leaves the buffer.")
S("C02", "proved", "Props.C02_queue_interleaving_safe Props.C02_queue_takes_prefix_of_pushes Props.C02_queue_no_loss Props.C02_queue_push_succeeds Props.C02_queue_no_slot_conflict",
  "Sequentially consistent accesses in source order; index accesses atomic; compiler reordering of buffer accesses is not modelled.")
S("C03", "proved", "Props.C03_deque_refines_list", "All N in 1..65535 (index types modelled at their minimum width).")
S("C04", "proved", "Props.C04_deque_indexing")
S("C05", "partial", "Props.C05_deque_iteration_partial Props.C05_deque_iterator_decrement_partial Props.C05_deque_empty_iteration_counterexample Props.C05_deque_decrement_end_counterexample",
  "Proved for non-empty deques. False for the empty deque (iteration visits one stale slot, for every N) and for decrementing end(); both refuted by theorem.")
S("C46", "proved", "Props.C46_bounded_queue_is_fifo Props.C46_bounded_stack_is_lifo")
S("C10", "proved", "Props.C10_timeout_expiry Props.C11_timeout_history")
S("C11", "proved", "Props.C11_timeout_history Props.C11_timeout_fires_at_most_once Props.C11_timeout_silent_after_stop")
S("C12", "partial", "Props.C12_remaining_exact Props.C12_remaining_partial Props.C12_remaining_wrap_counterexample",
  "Exact value proved for all inputs; equals t0+I-t only when the counter does not wrap between arming and query, refuted otherwise.")
S("C13", "partial", "Props.C13_periodic_partial Props.C13_periodic_not_due Props.C13_periodic_phase Props.C13_periodic_count_counterexample",
  "Phase part proved for all poll histories; the returned count is one too small when polled exactly on the second or a later multiple (refuted by example, exact count proved).")
S("C14", "partial", "Props.C14_interval_partial Props.C14_interval_counterexample",
  "Proved for units not coarser than the tick; false for coarser units because the assertion checks the unconverted count.")
S("C18", "proved", "Props.C18_bitReverse8 Props.C18_bitReverse16 Props.C18_bitReverse32", "Portable C++ branches; inline assembly not modelled.")
S("C19", "proved", "Props.C19_bitCount8 Props.C19_bitCount16 Props.C19_bitCount32 Props.C19_leftmostBit")
S("C20", "proved", "Props.C20_swap8 Props.C20_swap16 Props.C20_swap32 Props.C20_swap_involutive Props.C20_bigEndian_memory", "Portable C++ branches, little-endian host.")
S("C21", "partial", "Props.C21_crc8_detects_low_bits_partial Props.C21_crc8_misses_bit7_counterexample Props.C21_crc8_not_ccitt_counterexample",
  "False of the portable branch (the shift happens before the top-bit test, so bit 7 is lost). Proved instead: a one-byte change is detected exactly when it touches a bit other than bit 7.")
S("C22", "proved", "Props.C22_crc16_is_remainder Props.C22_crc16_value Props.C22_generator Props.C22_crc16_remainder_determines Props.C22_crc16_detects_two_bytes Props.C22_crc16_linear",
  "Remainder stated with Mathlib polynomials over ZMod 2; portable branch.")
S("C23", "proved", "Props.C23_crc32_is_remainder Props.C23_crc32_value Props.C23_generator Props.C23_crc32_detects_four_bytes Props.C23_crc32_residue")
S("C24", "partial", "Props.C24_add_clamps_partial Props.C24_sub_clamps_partial Props.C24_inc_dec Props.C24_min_operand_counterexample",
  "Proved for all types and operands except the most negative value of a signed right operand of 32 or more bits, whose negation is undefined behaviour in the code.")
S("C25", "partial", "Props.C25_mul_unsigned Props.C25_mul_signed_partial Props.C25_mul_counterexamples Props.C25_mul_underflow_wrong",
  "Proved for unsigned types and for signed results within [-max, max] or above with non-negative factor; products below the minimum give +max, refuted for all types.")
S("C47", "partial", "Props.C47_convert_clamps Props.C47_fitsAny_holds_both Props.C47_fitsAny_compiles",
  "Proved for every pair for which the code compiles; with uint64_t in the pair fits_any does not compile at all (also proved).")
S("C48", "partial", "Props.C48_neg_unsigned Props.C48_neg_signed_partial Props.C48_neg_min_wrong",
  "False at the minimum of every signed type (refuted); proved for all other values.")
S("C26", "proved", "Props.C26_median_filter Props.C26_median_unique Props.C26_append_keeps_value",
  "All linear orders (0-1 principle plus the complete Boolean table of each network).")
S("C27", "proved", "Props.C27_moving_average Props.C27_moving_average_recovers Props.C27_reset", "Integer types; the floating-point branch is not modelled.")
S("C28", "proved", "Props.C28_fir Props.C28_fir_int", "Generic in the arithmetic of T.")
S("C29", "partial", "Props.C29_limits Props.C29_value_partial Props.C29_int16_never_negative Props.C29_documented_example Props.C29_error_sum_wraps_counterexample",
  "Limits proved for every run. The value claim is proved for int32_t or scale 1 and refuted for int16_t with a scale above one, where the output is never negative.")
S("C30", "partial", "Props.C30_ramp_partial Props.C30_ramp_unsigned Props.C30_ramp_counterexample Props.C30_reset_stale",
  "Proved for unsigned types and when the distance to the target is representable; false for signed types otherwise.")
S("C31", "proved", "Props.C31_hysteresis Props.C31_glitch_immunity Props.C31_response Props.C31_counter_in_range Props.C31_init_reset Props.C31_reset_immunity")
S("C32", "partial", "Props.C32_range_partial Props.C32_range_step_one Props.C32_range_empty Props.C32_range_wraps_forever Props.C32_range_wrong_values",
  "Proved when the sequence reaches stop exactly or does not wrap; refuted near the type limits, where it loops forever or yields wrong values.")
S("C33", "proved", "Props.C33_from_range Props.C33_from_function Props.C33_from_linear Props.C33_from_linear_wraps Props.C33_from_power",
  "Positive frequencies up to 2^50, every rounding of double that is monotone, exact on integers up to 2^53 and has relative error at most 2^-53. from_power is optimal for the exact (unrounded) frequency.")
S("C34", "partial", "Props.C34_counter_partial Props.C34_skipped_prescaler_counterexample Props.C34_overflow_counterexample",
  "Optimal among prescalers that can reach the ratio, exact arithmetic, products below 2^32; refuted otherwise.")
S("C35", "partial", "Props.C35_clamp Props.C35_linear_partial Props.C35_exact_at_points_partial Props.C35_unsigned_output_counterexample Props.C35_signed_input_counterexample Props.C35_unsigned_input_counterexample Props.C35_product_overflow_counterexample",
  "Clamping proved for all tables. The value claim is proved for tables whose differences and products fit the types the code uses, and refuted by one witness for each way to leave them (signed casts of unsigned outputs, signed input distances, 32-bit unsigned inputs, product overflow).")
S("C49", "proved", "Props.C49_lagrange_polynomial Props.C49_lagrange_at_points", "Exact field arithmetic; floating-point rounding is not modelled.")
S("C36", "proved", "Props.Sab.C36_sends_frame Props.Sab.C36_receives_every_frame Props.Sab.C36_round_trip")
S("C37", "proved", "Props.Sab.C37_memory_safe Props.Sab.C37_resynchronises Props.Sab.C37_bound_tight")
S("C38", "partial", "Props.Sab.C38_new_message_is_frame_partial Props.Sab.C38_intact_without_sync_partial Props.Sab.C38_overwritten_counterexample Props.Sab.C38_bad_frame_replaces_counterexample",
  "Holds at the moment the message becomes available and until the next sync byte; refuted afterwards, also within a single update() call.")
S("C39", "proved", "Props.Sab.C39_single_byte_error")
S("C50", "proved", "Props.Sab.C50_slave_answers Props.Sab.C50_always_answers Props.Sab.C50_response_frames", "A callback is modelled by the responses it sends.")
S("C51", "proved", "Props.Sab.C51_query_round_trip")
S("C52", "partial", "Props.Sab.C52_completion_partial Props.Sab.C52_stale_answer_counterexample",
  "The master checks neither address nor command of the answer: refuted. Proved: success needs an acknowledge of the expected length, timeout needs no message.")
S("C40", "partial", "Props.Sab2.C40_sends_frame Props.Sab2.C40_round_trip Props.Sab2.C40_round_trip_initial Props.Sab2.size_fits Props.Sab2.C40_size_wraps_counterexample",
  "Proved from every receiver state for every N below 252 or between 255 and 65531; for N = 252..254 the size type wraps and the longest payloads are lost (refuted). Payloads above 255 bytes assume uint_fast8_t wider than 8 bits.")
S("C41", "partial", "Props.Sab2.C41_memory_safe Props.Sab2.C41_pending_untouched Props.Sab2.C41_overlong_partial Props.Sab2.C41_overlong_reported_counterexample",
  "Memory safety proved for every stream. Over-long frames are refuted for every buffer size: the length is reset but the checksum is not.")
S("C53", "partial", "Props.Sab2.C53_corrupted_content_partial Props.Sab2.C53_boundary_counterexample",
  "Proved for altered content bytes; refuted when the altered byte becomes a boundary byte.")
S("C54", "partial", "Props.Sab2.C54_reported_is_frame_partial Props.Sab2.unstuff_stuff", "Proved except for over-long frames, where it is false (see C41).")
S("C42", "partial", "Props.Rpr.C42_sends_frame Props.Rpr.C42_node_to_node_partial Props.Rpr.C42_received_partial Props.Rpr.C42_bad_checksum Props.Rpr.C42_payload_counterexample",
  "Source, command and type are right for every message that fits; the delivered payload always carries the two checksum bytes at its end (refuted for every message).")
S("C43", "partial", "Props.Rpr.C43_memory_safe_partial Props.Rpr.C43_length_wraps_counterexample",
  "Proved for streams with at most 255 content bytes between delimiters; refuted for every buffer size by a longer frame addressed to the node.")
S("C44", "partial", "Props.Rpr.C44_single_message_partial Props.Rpr.C44_second_lost_counterexample Props.Rpr.C44_direct_send_drops_counterexample",
  "A single queued message is written once; with two queued messages the second is dropped unsent (writeMessage and update both pop).")
S("C55", "proved", "Props.Rpr.C55_forwards")
S("C56", "proved", "Props.Rpr.C56_broadcast_ring Props.Rpr.C56_unicast_ring", "Nodes deliver the payload with the checksum bytes appended, see C42.")
S("C45", "partial", "Props.Lawicel.C45_round_trip Props.Lawicel.C45_writes Props.Lawicel.C45_parses Props.Lawicel.C45_parser_safe Props.Lawicel.C45_rejects_partial Props.Lawicel.C45_any_letter_counterexample Props.Lawicel.C45_long_message_rejected",
  "Round trip and safety proved for all messages and strings. Rejection is proved for strings starting with one of the four letters and refuted for all others, which are read as standard data frames.")
S("C57", "proved", "Props.Can.C57_set_length Props.Can.C57_set_dlc Props.Can.C57_from_number Props.Can.C57_dlc_out_of_range", "A data length code above 15 is outside the precondition and reads outside the table.")
S("C58", "proved", "Props.Can.C58_base_decides Props.Can.C58_order Props.Can.C58_eq Props.Can.C58_tie")

S("C06", "proved", "Props.LinkedList.C06_linkedList_refines_sequence Props.LinkedList.C06_remove_returns_successor",
  "Proved over an explicit heap with adversarial node addresses (freed addresses may come back) and arbitrary contents of fresh memory; undefined behaviour is a failing step. Allocation is assumed to succeed. insert puts the new element behind the given position, at the end for end().")
S("C07", "proved", "Props.DoublyLinkedList.C07_doublyLinkedList_refines_sequence Props.DoublyLinkedList.C07_erase_returns_successor",
  "Same heap model, both pointer chains; erase of an element of the list. Allocation is assumed to succeed.")
S("C08", "partial", "Props.DynamicArray.C08_runs_partial Props.DynamicArray.C08_contents_partial Props.DynamicArray.C08_no_leak_partial Props.DynamicArray.C08_find_partial Props.DynamicArray.C08_reserve_partial Props.DynamicArray.C08_append_own_element_counterexample Props.DynamicArray.C08_append_own_element_room_partial Props.DynamicArray.C08_self_assignment_counterexample Props.DynamicArray.C08_reserve_overflow_counterexample",
  "Proved over cells with explicit lifetimes for every history without the three refuted operations: assigning a non-empty array to itself, appending a reference to an own element while full, and reserving so much that the capacity arithmetic overflows. Allocation is assumed to succeed.")
S("C09", "partial", "Props.SmartPointer.C09_runs_partial Props.SmartPointer.C09_freed_with_last_handle_partial Props.SmartPointer.C09_counter_wraps_counterexample Props.SmartPointer.C09_self_assignment_counterexample",
  "Proved while no buffer has more than 256 handles and no sole handle is assigned to itself; both exceptions are refuted (8-bit counter, release before acquire).")
S("C15", "partial", "Props.Scheduler.C15_runs_due_tasks_in_order_partial Props.Scheduler.C15_order_is_fixed Props.Scheduler.C15_priority_zero_counterexample Props.Scheduler.C15_priority_zero_never_runs Props.Scheduler.C15_overrun_hangs_counterexample",
  "Proved for positive priorities and tasks that end before the next tick (a period of 0 counts 65536 ticks). Refuted: a task of priority 0 never runs and makes a later tick loop forever; a task that becomes due twice while waiting makes a tick loop forever.")
S("C59", "partial", "Props.Scheduler.C59_nothing_higher_partial Props.Scheduler.C59_lower_preempts_counterexample",
  "Refuted: the end of a preempting task resets the current priority to 0. Proved: a tick starts nothing when no higher task waits or becomes due.")
S("C16", "partial", "Props.PtSemaphore.C16_never_over_grants Props.PtSemaphore.C16_fails_only_when_empty_partial Props.PtSemaphore.C16_release_wraps_counterexample",
  "Never over-granting holds for every history. Acquire fails only when empty while at most 65535 permits are outstanding; beyond that it is refuted (16-bit counter).")
S("C17", "proved", "Props.Fiber.C17_agrees_with_queue Props.Fiber.C17_runs Props.Fiber.C17_round_robin",
  "Refinement of a FIFO queue for every history. Context switching itself (assembler) is not modelled; one core.")

S("C60", "partial", "Props.BlockAllocator.C60_defined Props.BlockAllocator.C60_separate Props.BlockAllocator.C60_keeps_data Props.BlockAllocator.C60_aligned Props.BlockAllocator.C60_huge_request_counterexample Props.BlockAllocator.C60_large_heap_counterexample",
  "Proved for T = uint16_t, at most 32767 blocks and requests that do not come close to SIZE_MAX; both limits are refuted beyond (arithmetic wraps).")
S("C61", "partial", "Props.BlockAllocator.C61_fails_only_without_gap Props.BlockAllocator.C61_all_freed Props.BlockAllocator.C61_available",
  "Same limits as C60.")
S("C62", "proved", "Props.XpccCan.C62_round_trip Props.XpccCan.C62_range Props.XpccCan.C62_filters")
S("C63", "proved", "Props.XpccCan.C63_any_order Props.XpccCan.C63_short", "Other fragments with the same header and counter, of another size or as leftovers of an earlier packet, are excluded by hypotheses (see C64).")
S("C64", "partial", "Props.XpccCan.C64_memory_safe_partial Props.XpccCan.C64_memory_safe_counterexample",
  "Proved while fragments with the same header and counter announce the same size; refuted otherwise: two frames write 39 bytes behind a buffer of 9 bytes.")
S("C65", "partial", "Props.XpccCan.C65_lossless_partial Props.XpccCan.C65_in_order_partial Props.XpccCan.C65_drains_partial Props.XpccCan.C65_overtakes_counterexample Props.XpccCan.C65_long_packet_counterexample Props.XpccCan.C65_two_connectors_counterexample",
  "Exactly-once and unchanged delivery is proved for packets of up to 48 bytes and one connector per program; order only if no short packet is sent directly while others wait. All three limits are refuted beyond.")
S("C66", "partial", "Props.Amnb.C66_small_round_trip Props.Amnb.C66_large_round_trip_partial Props.Amnb.C66_long_payload_lost_counterexample",
  "Proved up to 28 bytes for any previous state, and for 29 to 255 bytes if no stale pointer is left; refuted from 256 bytes on: dataLength returns uint8_t, so only the length modulo 256 is sent.")
S("C67", "partial", "Props.Amnb.C67_header_partial Props.Amnb.C67_header_bit7_counterexample Props.Amnb.C67_data_detected",
  "Data proved. Header proved for changes outside of bit 7 and the length bits; refuted for bit 7 of any header byte but the checksum (the defect of crc8_ccitt, C21).")
S("C68", "partial", "Props.Amnb.C68_safe_partial Props.Amnb.C68_small_safe_partial Props.Amnb.C68_stale_pointer_counterexample Props.Amnb.C68_unwanted_counterexample Props.Amnb.C68_wild_free_counterexample",
  "Refuted: payload of a small message is later used as pointer of a large one (write and free), and the checksum of an unwanted large message is read through null. Proved for lines that announce only large wanted messages and payloads of up to 4 bytes, and for lines without large messages.")
S("C69", "proved", "Props.Amnb.C69_dispatch")
S("C70", "proved", "Props.Encoder.C70_counts_exactly Props.Encoder.C70_ideal_conserves Props.Encoder.C70_init")
S("C71", "partial", "Props.Encoder.C71_reaches_setpoint Props.Encoder.C71_forward_partial Props.Encoder.C71_backward_counterexample",
  "Position and forward movement proved; refuted backwards: signal A is driven the wrong way round, so a decoder counts forwards.")
S("C72", "partial", "Props.Encoder.C72_delta_partial Props.Encoder.C72_delta32_counterexample",
  "Proved for delta types of up to 16 bits; refuted for int32_t, which the template allows.")
S("C73", "proved", "Props.Encoder.C73_even_parity")
S("C74", "proved", "Props.Date.C74_toDate Props.Date.C74_date_unique Props.Date.C74_toUnixTimestamp Props.Date.C74_round_trip Props.Date.C74_beyond_range_counterexample",
  "Outside of the documented range: 2100 is taken for a leap year and dates from 2039 on overflow an int.")
S("C75", "partial", "Props.Date.C75_dayOfTheYear_partial Props.Date.C75_dayOfTheYear_counterexample",
  "Proved for the first 256 days of a year; refuted for the others: the field is a uint8_t.")
S("C76", "proved", "Props.Register.C76_change Props.Register.C76_ask Props.Register.C76_ask_bit Props.Register.C76_all_enum_of_two_bits_counterexample",
  "The overload of all for an enum value asks for any of its bits; the same thing for the documented single bits.")
S("C77", "partial", "Props.Register.C77_value_get Props.Register.C77_value_set Props.Register.C77_value_independent Props.Register.C77_value_reset Props.Register.C77_configuration_partial Props.Register.C77_configuration_counterexample",
  "Values proved. Configurations proved for enum values within the mask; refuted for others: set does not mask them.")
S("C78", "partial", "Props.Color.C78_components Props.Color.C78_round_trip Props.Color.C78_loss Props.Color.C78_add Props.Color.C78_sub Props.Color.C78_widen_narrow Props.Color.C78_uint16_counterexample",
  "Proved for byte components; refuted for RgbT<uint16_t>: the low bytes are packed, and the blue component is not masked.")
S("C79", "partial", "Props.Color.C79_hsv Props.Color.C79_value Props.Color.C79_uint16_counterexample",
  "Proved for byte components; refuted for HsvT<uint16_t>, which the code marks as unfinished.")
S("C80", "proved", "Props.Button.C80_debounce Props.Button.C80_getState", "")
S("C81", "proved", "Props.Button.C81_events", "")
S("C82", "partial", "Props.Button.C82_repeat Props.Button.C82_reported_once Props.Button.C82_shared_counter_counterexample",
  "Timing from the moment any button of the mask is pressed and single reports proved; refuted for a timing per button: the counter is shared, so that a button pressed while another is held repeats at once and counts as a long press.")
S("C83", "proved", "Props.OneWire.C83_enumerate Props.OneWire.C83_order Props.OneWire.C83_found_is_present", "")
S("C84", "partial", "Props.OneWire.C84_family_partial Props.OneWire.C84_family_counterexample",
  "Proved: if there is a device of the family, all of them come first, in order. Refuted: other devices follow, and without a device of the family one of another family is returned.")
S("C85", "partial", "Props.OneWire.C85_skip_next_partial Props.OneWire.C85_families_partial Props.OneWire.C85_skip_counterexample",
  "Proved: the next family is found if there is one, and alternating searches and skips list the families. Refuted: skipping the last family returns its first device again if the search came there by itself (stale family discrepancy).")
S("C86", "partial", "Props.OneWire.C86_verify_partial Props.OneWire.C86_verified_is_present Props.OneWire.C86_verify_counterexample",
  "Proved if the buffer of the last search holds the ROM code; a verified device is always on the bus. Refuted otherwise: the given ROM code is never copied to the buffer that guides the search.")
S("C87", "proved", "Props.OneWire.C87_writeByte Props.OneWire.C87_readByte Props.OneWire.C87_round_trip Props.OneWire.C87_touchByte", "")
S("C88", "partial", "Props.Mono.C88_vertical_partial Props.Mono.C88_horizontal_partial Props.Mono.C88_cleared Props.Mono.C88_negative_counterexample Props.Display.C88_clear_point_counterexample",
  "Proved for coordinates that are not negative. Refuted: negative coordinates are not tested (write before the buffer, shift by a negative number); clearPixel(Point) calls setPixel.")
S("C89", "partial", "Props.Display.C89_line Props.Display.C89_line_counterexample",
  "Proved for all points from -32767 to 32766 with differences up to 32767; longer lines are refuted.")
S("C90", "partial", "Props.Display.C90_straight_lines Props.Display.C90_rectangle_partial Props.Display.C90_image Props.Display.C90_rectangle_counterexample",
  "Proved for sizes of at least one pixel; a rectangle without width is not empty.")
S("C91", "proved", "Props.Display.C91_circle", "")
S("C92", "partial", "Props.Mono.C92_horizontal_partial Props.Mono.C92_vertical_partial Props.Mono.C92_image_partial Props.Mono.C92_lines_counterexample Props.Mono.C92_image_counterexample",
  "Proved for lines that do not begin left of the display and end before row 128 (or 249 on displays of up to 128 rows), and images up to the bottom of the display. Refuted: the end of a vertical line is stored in an int8_t; an image across the bottom of the display overflows the buffer.")
S("C93", "partial", "Props.Display.C93_rectangle_partial Props.Display.C93_circle_partial Props.Display.C93_rectangle_counterexample Props.Display.C93_circle_counterexample",
  "Rectangles proved for a start on the display, refuted for a negative start. Circle: all points within radius - 1 are filled and none beyond the radius and half a pixel; refuted: the lowest row and pixels of the drawn circle are missing.")
S("C94", "partial", "Props.Display.C94_rounded_partial Props.Display.C94_rounded_counterexample",
  "Proved for a rectangle with one more column and row than asked for; refuted for the given size; with radius 0 both sizes are drawn.")
S("C95", "partial", "Props.Mono.C95_write_partial Props.Mono.C95_outside Props.Mono.C95_newline Props.Mono.C95_width_partial Props.Mono.C95_width_counterexample Props.Mono.C95_write_counterexample",
  "Proved for characters below 128 that are in the font. Refuted: getStringWidth counts a space after characters from 128 on, and reads outside of the font for characters that are not in it, such as a newline.")
S("C96", "partial", "Props.Resumable.C96_fiber_partial Props.Resumable.C96_idle_again_partial Props.Resumable.C96_blocking_partial Props.Resumable.C96_static_assert Props.Resumable.C96_argument_counterexample",
  "Refinement proved for bodies whose macros have distinct positions (the static_assert implies it), whose call arguments do not change while the call is suspended and whose call chains fit into the levels. Refuted: the arguments of RF_CALL are evaluated anew at every resumption, from the state of that moment. Missing: PT_SPAWN and PT_WAIT_THREAD, for and switch statements, local variables.")
S("C97", "partial", "Props.Resumable.C97_exclusive_partial Props.Resumable.C97_same_file Props.Resumable.C97_two_files_counterexample",
  "Proved when the state numbers of the two functions are disjoint, which holds for functions of one file within 255 macros. Refuted for functions of one object that are written in two files: the numbers coincide and the other function goes on in the middle of its body.")
S("C98", "partial", "Props.Resumable.C98_memory_safe_partial Props.Resumable.C98_too_deep Props.Resumable.C98_unchecked_counterexample Props.Resumable.C98_running_counterexample",
  "Proved with the option check_nesting_depth. Refuted without it, and for isResumableRunning() called from the innermost level, which reads behind the array.")
S("C99", "proved", "Props.Resumable.C99_stop_all Props.Resumable.C99_stop_one Props.Resumable.C99_queries Props.Resumable.C99_nested_stop Props.Resumable.C99_stop_idle Props.Resumable.C99_depth Props.Resumable.C99_single",
  "getResumableDepth for fewer than 128 active levels; stopping a nested object from outside makes it callable anew if it calls functions of its own object only.")
S("C100", "proved", "Props.Resumable.C100_ended Props.Resumable.C100_running Props.Resumable.C100_stop",
  "For bodies and call graphs as in C96.")
S("C101", "partial", "Props.Resumable.C101_return Props.Resumable.C101_end_counterexample",
  "Refuted for RF_END: the result is not initialised.")
S("C102", "partial", "Props.Storage.C102_heap Props.Storage.C102_heap_refuses_partial Props.Storage.C102_heap_counterexample Props.Storage.C102_file Props.Storage.C102_file_refuses_partial Props.Storage.C102_file_init Props.Storage.C102_file_counterexample",
  "Proved for all requests within the device; requests beyond its end are refused if address + size is below 2^32. Refuted otherwise: the sum wraps around, the access is outside of the memory or makes the file longer.")
S("C103", "partial", "Props.Storage.C103_mirror_partial Props.Storage.C103_both Props.Storage.C103_failure_counterexample Props.Storage.C103_size_counterexample",
  "Equal contents proved for requests that both devices accept. Refuted: the result is resultA && resultA, a failure of the second device is not reported; the size of the mirror is not checked.")
S("C104", "partial", "Props.Storage.C104_flash_partial Props.Storage.C104_program_partial Props.Storage.C104_erase_partial Props.Storage.C104_initialize Props.Storage.C104_refuses_partial Props.Storage.C104_whole_counterexample Props.Storage.C104_whole_write_counterexample Props.Storage.C104_unaligned_counterexample Props.Storage.C104_wrap_counterexample",
  "Proved for aligned requests of less than the whole chip, against a model of the chip from its data sheet. Refuted: erasing or writing the whole chip is ignored by the chip as there is no write enable; addresses that are not aligned wrap within the page; address + size wraps at 2^32.")
S("C105", "partial", "Props.Storage.C105_stack_partial Props.Storage.C105_unaligned Props.Storage.C105_initialize Props.Storage.C105_refuses_partial Props.Storage.C105_whole_die_counterexample",
  "Proved for aligned requests that do not cover a whole die; refuted for those, as C104.")
S("C106", "partial", "Props.Storage.C106_is_busy_partial Props.Storage.C106_counterexample Props.Storage.C106_wrap_counterexample",
  "Proved if no call of selectDie is suspended; refuted otherwise: the argument --currentDie of RF_CALL is evaluated at every resumption.")
S("C107", "partial", "Props.Spi.C107_byte Props.Spi.C107_swap Props.Spi.C107_device Props.Spi.C107_buffers Props.Spi.C107_mode Props.Spi.C107_reinitialise_counterexample",
  "Transfers and changes of mode and order proved. Refuted for initialize with an inverted clock: it pulls SCK low, which the device takes for an edge.")
S("C108", "partial", "Props.I2c.C108_write_read Props.I2c.C108_write Props.I2c.C108_read Props.I2c.C108_general_call_counterexample Props.I2c.C108_stretch_counterexample",
  "Proved for all devices that stretch the clock by at most 499 quarters of a period. Refuted: longer stretching aborts the transfer; a general call that is not acknowledged is reported as data not being acknowledged.")
S("C109", "partial", "Props.I2c.C109_over Props.I2c.C109_returns Props.I2c.C109_occupied Props.I2c.C109_stop_counterexample Props.I2c.C109_lines_counterexample Props.I2c.C109_busy_counterexample",
  "Proved but for: a failing STOP leaves an error in the master but none in the transaction; SDA stays pulled when SCL is stuck; start with a busy transaction returns false and sets the state of the transaction to an error.")
S("C110", "partial", "Props.I2c.C110_configure Props.I2c.C110_attach Props.I2c.C110_again_write Props.I2c.C110_again_read Props.I2c.C110_again_counterexample Props.I2c.C110_null_counterexample",
  "Refuted: an I2cWriteReadTransaction started again only reads; an I2cReadTransaction with a null buffer and a size makes the master dereference it.")
S("C111", "partial", "Props.Spi.C111_spi_partial Props.Spi.C111_spi_counterexample Props.I2c.C111_i2c_partial Props.I2c.C111_i2c_counterexample",
  "Proved from 7630 Bd (SPI) and 3815 Bd (I2C) on; refuted below: the delay does not fit into 16 bits.")
S("C112", "partial", "Props.Spi.C112_lock_partial Props.Spi.C112_configured Props.Spi.C112_handler_calls Props.Spi.C112_overflow_counterexample",
  "Proved for up to 255 nested calls of acquire; refuted for 256.")
S("C113", "partial", "Props.I2c.C113_sending_partial Props.I2c.C113_written_counterexample Props.I2c.C113_pulled_counterexample",
  "Proved for devices that were sending, if the SDA pin is released. Refuted for devices that were being written to, and if the SDA pin is low.")
S("C114", "partial", "Props.I2c.C114_bytes_partial Props.I2c.C114_conditions_counterexample",
  "Proved for the bytes and acknowledge bits, for every behaviour of the pins. Refuted for STOP and repeated START: SCL is released at once, or after a quarter.")
def _g(names): return " ".join("Props.Geometry."+n for n in names.split())
S("C115", "proved", _g("C115_order"), "")
S("C116", "partial", _g("C116_ccw C116_equal_counterexample C116_overflow_counterexample"),
  "Proved for different a and b. Refuted for a = b, and for larger coordinates (undefined overflow).")
S("C117", "partial", _g("C117_intersects C117_sound C117_points_partial C117_point_counterexample C117_float_counterexample C117_parallel_counterexample"),
  "intersects: proved for segments with different ends, refuted for segments of one point. getIntersections: proved for coordinates up to 1447 and segments that are not parallel; refuted for larger ones (rounding of float) and for segments on the same line.")
S("C118", "partial", _g("C118_polygons C118_segment C118_inside C118_twice_counterexample C118_point_counterexample"),
  "Proved for polygons without repeated vertices. Refuted for isInside with a vertex given twice in a row, and for polygons of one or no point.")
S("C119", "partial", _g("C119_crosses C119_total C119_meets_partial C119_polygon C119_polygon_none C119_ccw C119_touch_counterexample C119_polygon_counterexample C119_overflow_counterexample"),
  "Whenever there is a result it is exactly whether the ray crosses the inside of the segment from one side to the other; defined for coordinates up to 90. Refuted for touching at an end of a segment, where a ray passes through a polygon unnoticed, and for overflow.")
S("C120", "partial", _g("C120_lines C120_line_circle C120_total C120_circles_partial C120_same C120_overflow_counterexample C120_zero_counterexample C120_inside_counterexample"),
  "Lines: proved. Line and circle: proved whenever the computation does not overflow, which is excluded up to 63; refuted for larger numbers and for lines without direction. Circles: proved except for touching from the inside, where it is refuted: the point is appended twice.")
S("C121", "partial", _g("C121_cross C121_dot C121_length_partial C121_length_counterexample C121_distance_partial C121_distance_counterexample C121_operators_partial C121_operators_counterexample"),
  "Cross product: proved. Dot product: proved unless all numbers are -32768, which is undefined. Length and distance: proved up to 32767, refuted above. Operators: proved if the product fits in 16 bits, otherwise refuted.")
def _x(names): return " ".join("Props.Dispatcher."+n for n in names.split())
S("C122", "proved", _x("C122_accepted C122_refused C122_event C122_response C122_no_more C122_delivered"), "")
S("C123", "partial", _x("C123_at_most_once C123_genuine C123_swap_counterexample"),
  "At most once, and only with a timeout of or an answer to a call of this action: proved. Refuted for two calls of the same action of a component on the board: each callback gets the answer to the other call.")
S("C124", "proved", _x("C124_tries C124_spacing"), "")
S("C125", "partial", _x("C125_timeline C125_gives_up C125_response_counterexample C125_broadcast_counterexample"),
  "Proved for calls which are not acknowledged. Refuted for the response timeout, which is never checked, and for calls to component 0.")
S("C126", "partial", _x("C126_sent_partial C126_requests_partial C126_responses_stay C126_duplicate_counterexample C126_kind_counterexample C126_forgotten_counterexample"),
  "Proved if no packet that fits (same components and number, of any kind) arrives. Refuted otherwise: a duplicated acknowledge removes the next call before it is sent; the acknowledge of a call removes a response; the acknowledge of a response removes a call.")
S("C127", "partial", _x("C127_delivered C127_order C127_counterexample"),
  "Proved if no packet claims to come from component 0; refuted otherwise.")
S("C128", "proved", _x("C128_returns C128_runs C128_counterexample"), "The counterexample shows that the condition is needed.")
S("C129", "proved", _x("C129_sent C129_delivered C129_boards C129_callbacks"), "")
S("C130", "partial", "Props.Matrix.C130_arithmetic Props.Matrix.C130_product Props.Matrix.C130_transpose Props.Matrix.C130_constants Props.Matrix.C130_equal Props.Matrix.C130_size_counterexample",
  "Proved for matrices with less than 256 elements. Refuted for more: the number of elements is an 8 bit number.")
S("C131", "partial", "Props.Matrix.C131_subMatrix Props.Matrix.C131_outside Props.Matrix.C131_row Props.Matrix.C131_column Props.Matrix.C131_replace Props.Matrix.C131_removeRow Props.Matrix.C131_removeColumn Props.Matrix.C131_add_counterexample",
  "Refuted for addRow and addColumn, which always read outside of the matrix.")
S("C132", "proved", "Props.Matrix.C132_determinant",
  "")
S("C133", "partial", "Props.Lu.C133_plain_partial Props.Lu.C133_pivot Props.Lu.C133_matrix Props.Lu.C133_plain_counterexample",
  "Proved with pivoting for regular matrices, without for those whose leading minors are not zero. Refuted otherwise: false is never returned.")
S("C134", "partial", "Props.Lu.C134_factors Props.Lu.C134_solve_partial Props.Lu.C134_counterexample",
  "Proved for regular matrices. Refuted for others: true is returned without a solution.")
S("C135", "partial", "Props.Quaternion.C135_arithmetic Props.Quaternion.C135_equal Props.Quaternion.C135_order Props.Quaternion.C135_quotient_partial Props.Quaternion.C135_inverse_partial Props.Quaternion.C135_unitInverse_partial Props.Quaternion.C135_length Props.Quaternion.C135_scaled Props.Quaternion.C135_rotation Props.Quaternion.C135_to3x3_partial Props.Quaternion.C135_to4x4 Props.Quaternion.C135_alias_counterexample Props.Quaternion.C135_inverse_counterexample Props.Quaternion.C135_to3x3_counterexample",
  "Refuted: inverse and unitInverse replace the quaternion by its conjugate; the matrix, multiplied by a column vector, turns it backwards; q /= q.w.")
S("C136", "partial", "Props.Vector.C136_order Props.Vector.C136_order3 Props.Vector.C136_products Props.Vector.C136_products3 Props.Vector.C136_scale3_partial Props.Vector.C136_length Props.Vector.C136_alias_counterexample Props.Vector.C136_scaleAssign_counterexample Props.Vector.C136_neg_counterexample",
  "Refuted: in dimensions other than two and three *= subtracts and unary minus changes its operand; v *= v.x.")
S("C137", "proved", "Props.Uart.C137_order Props.Uart.C137_complete Props.Uart.C137_drains Props.Uart.C137_refused Props.Uart.C137_defined",
  "The hardware: data register, shift register, interrupt enable; the handler can be delayed arbitrarily.")
S("C138", "partial", "Props.Uart.C138_finished_partial Props.Uart.C138_unfinished Props.Uart.C138_finished_counterexample",
  "Proved: at true the queue and the data register are empty. Refuted: the last byte is still in the shift register.")
S("C139", "partial", "Props.Uart.C139_order_partial Props.Uart.C139_overtakes_counterexample Props.Uart.C139_lost_counterexample Props.Uart.C139_waits_counterexample",
  "Proved when the queue is empty at the call. Refuted otherwise: bytes are overtaken or lost; it does not wait for the end of the transmission.")
S("C140", "partial", "Props.Uart.C140_discard_partial Props.Uart.C140_empty_partial Props.Uart.C140_discard_counterexample Props.Uart.C140_hardware_counterexample",
  "Proved without a receive queue and with an interrupt not shared. Refuted otherwise: a reception during the call makes it pop an empty queue; the hardware buffer is not emptied.")
S("C141", "partial", "Props.Uart.C141_order Props.Uart.C141_exact_partial Props.Uart.C141_fetched Props.Uart.C141_eaten_counterexample Props.Uart.C141_unbuffered_counterexample Props.Uart.C141_length_counterexample",
  "Order proved for all; completeness for devices with ICR. Refuted for others: the handler reads the data register once more.")
S("C142", "proved", "Props.Uart.C142_transmitBufferSize Props.Uart.C142_room Props.Uart.C142_available", "")
S("C143", "partial", "Props.CanFilter.C143_extended Props.CanFilter.C143_standard_partial Props.CanFilter.C143_list Props.CanFilter.C143_short_partial Props.CanFilter.C143_short_list_partial Props.CanFilter.C143_standard_counterexample Props.CanFilter.C143_short_counterexample",
  "Refuted: filters for standard messages let extended ones pass; the short form mixes bits 19 to 21 of extended identifiers into others.")
S("C144", "proved", "Props.CanFilter.C144_disable Props.CanFilter.C144_start", "")
S("C145", "partial", "Props.BxcanTx.C145_defined Props.BxcanTx.C145_origin Props.BxcanTx.C145_order_partial Props.BxcanTx.C145_refused Props.BxcanTx.C145_overtakes_counterexample Props.BxcanTx.C145_lost_counterexample Props.BxcanTx.C145_ignored_counterexample Props.BxcanTx.C145_waits_counterexample Props.BxcanTx.C145_mixed_counterexample Props.BxcanTx.C145_twice_counterexample",
  "Proved when no transmission ends during a call and no call is made before the handler has run. Refuted otherwise: messages are overtaken, lost, mixed, sent twice or wait.")
S("C146", "proved", "Props.BxcanTx.C146_order Props.BxcanTx.C146_refused", "")
S("C147", "proved", "Props.BxcanTx.C147_ready", "")
S("C148", "partial", "Props.BxcanRx.C148_defined Props.BxcanRx.C148_order Props.BxcanRx.C148_exact Props.BxcanRx.C148_nothing Props.BxcanRx.C148_overrun_counterexample",
  "Proved except that an overrun loses one message only: the handler removes another one unread.")
S("C149", "partial", "Props.BxcanRx.C149_exact_partial Props.BxcanRx.C149_mixed_counterexample",
  "Proved as long as there is no overrun. Refuted otherwise: identifier and data of different messages.")
S("C150", "partial", "Props.BxcanRx.C150_available_partial Props.BxcanRx.C150_unbuffered_partial Props.BxcanRx.C150_overrun_counterexample",
  "Proved with a queue, and without one as long as there is no overrun. Refuted otherwise.")
S("C151", "partial", "Props.CanFrame.C151_send Props.CanFrame.C151_receive Props.CanFrame.C151_receive_partial Props.CanFrame.C151_roundtrip Props.CanFrame.C151_receive_counterexample Props.CanFrame.C151_send_counterexample",
  "Sending proved for classic messages; receiving always gives identifier and kind, and everything for length codes up to 8 into an object without FD flags. Refuted for length codes above 8, reused objects and FD messages.")
S("C152", "partial", "Props.CanFrame.C152_send Props.CanFrame.C152_send_masked Props.CanFrame.C152_receive Props.CanFrame.C152_content Props.CanFrame.C152_receive_partial Props.CanFrame.C152_receive_counterexample Props.CanFrame.C152_roundtrip_partial Props.CanFrame.C152_handler_partial Props.CanFrame.C152_handler_counterexample",
  "Sending proved for all messages; receiving always gives identifier and kind, and everything for classic frames and longer FD frames without bit rate switching. Refuted: the FD flags, length codes above 8 of classic frames, reuse of the object in the handler.")
S("C153", "partial", "Props.CanFrame.C153_send_partial Props.CanFrame.C153_send_counterexample Props.CanFrame.C153_content Props.CanFrame.C153_receive_partial Props.CanFrame.C153_receive_counterexample",
  "Proved for standard data frames and classic messages; refuted for every extended or remote frame and every message of more than 8 bytes.")
S("C154", "partial", "Props.CanFrame.C154_send_partial Props.CanFrame.C154_receive_partial Props.CanFrame.C154_receive_counterexample",
  "Sending proved for classic messages; receiving for length codes up to 8 except for the length code itself, which is never set. Refuted otherwise.")
S("C155", "partial", "Props.CanFrame.C155_send_partial Props.CanFrame.C155_receive_partial Props.CanFrame.C155_counterexample",
  "Proved for classic messages and length codes up to 8; refuted otherwise.")
S("C156", "partial", "Props.Mcp2515.C156_receive_account Props.Mcp2515.C156_receive_lost Props.Mcp2515.C156_receive_order_partial Props.Mcp2515.C156_receive_order_counterexample Props.Mcp2515.C156_receive_rollover_counterexample Props.Mcp2515.C156_send_account Props.Mcp2515.C156_send_refused Props.Mcp2515.C156_send_order_partial Props.Mcp2515.C156_send_order_counterexample",
  "Proved: exactly once, refusal and losses only without free buffer, isReadyToSend. The order is refuted, and proved for one pending message at a time and for frames arriving in time.")
S("C157", "partial", "Props.FdcanTx.C157_exact Props.FdcanTx.C157_nothing_else Props.FdcanTx.C157_complete Props.FdcanTx.C157_order_partial Props.FdcanTx.C157_order_counterexample Props.FdcanTx.C157_shared_counterexample",
  "Exactly once, nothing else and completeness proved if the interrupt is not shared, refuted if it is. The order is proved for one pending message at a time and refuted otherwise, also for the same identifier.")
S("C158", "partial", "Props.FdcanTx.C158_refused Props.FdcanTx.C158_ready Props.FdcanTx.C158_ready_counterexample",
  "Refusal proved; isReadyToSend proved with a queue; without one its result is inverted.")
S("C159", "partial", "Props.FdcanRx.C159_queue Props.FdcanRx.C159_order_partial Props.FdcanRx.C159_prefix_partial Props.FdcanRx.C159_overwrite_counterexample",
  "The queue is proved always; order and content proved if no element is overwritten (always in locked mode). Refuted with overwriting, the default: a message with the header of one and the data of another.")
S("C160", "partial", "Props.FdcanRx.C160_available Props.FdcanRx.C160_enabled Props.FdcanRx.C160_complete_partial Props.FdcanRx.C160_complete_counterexample",
  "isMessageAvailable and the interrupt enable proved always; completeness proved unless a message arrives between the loops of the handler and its clearing the flags; refuted for that.")
S("C161", "partial", "Props.SystemClock.C161_exact_partial Props.SystemClock.C161_elapsed_partial Props.SystemClock.C161_returns Props.SystemClock.C161_other_counterexample Props.SystemClock.C161_disabled_counterexample",
  "Proved if the interrupt is handled within two steps of the caller and nobody else calls now during a call; refuted for a call from an interrupt and for disabled interrupts.")
S("C162", "partial", "Props.SystemClock.C162_period Props.SystemClock.C162_micro_partial Props.SystemClock.C162_milli_partial Props.SystemClock.C162_right_partial Props.SystemClock.C162_elapsed_partial Props.SystemClock.C162_still_counterexample Props.SystemClock.C162_remainder_counterexample",
  "The period is proved always; the rest for frequencies which divide 1000 and the clock, above 1 MHz of the SysTick. Refuted at exactly 1 MHz of the SysTick and for frequencies with a remainder.")
S("C163", "partial", "Props.SystemClock.C163_interpolation Props.SystemClock.C163_elapsed_partial Props.SystemClock.C163_slow_counterexample",
  "The interpolation is proved; the period is refuted for every frequency: one clock of the timer too long.")
S("C164", "partial", "Props.CanTiming.C164_bxcan_partial Props.CanTiming.C164_fdcan Props.CanTiming.C164_fdcan_data Props.CanTiming.C164_sample Props.CanTiming.C164_best_partial Props.CanTiming.C164_truncated_counterexample",
  "Proved for FDCAN and M_CAN, up to 0.003 percent for the floats; for the bxCAN proved for prescalers below 256 and refuted above. Closest proved up to 0.012 percent and for prescalers below the two largest.")
S("C165", "partial", "Props.CanTiming.C165_partial Props.CanTiming.C165_20MHz_counterexample Props.CanTiming.C165_odd_counterexample Props.CanTiming.C165_segment_counterexample",
  "Proved for even prescalers and 8 or 16 MHz or 1 Mbit/s; refuted for 20 MHz, for odd prescalers, and for the second phase segment.")
S("C166", "partial", "Props.Delay.C166_early_partial Props.Delay.C166_late Props.Delay.C166_whole Props.Delay.C166_early_counterexample Props.Delay.C166_none_counterexample Props.Delay.C166_overflow_counterexample Props.Delay.C166_wrap_counterexample",
  "Proved exactly for a whole number of MHz, otherwise up to a cycle and the rounding of the frequency; shorter delays, none at low frequencies and an overflow just below a power of two shown by example.")
S("C167", "partial", "Props.Delay.C167_split Props.Delay.C167_ms Props.Delay.C167_exact Props.Delay.C167_other_partial Props.Delay.C167_counterexample",
  "The split and the three units are proved; other units up to a millisecond, refuted for finer ones, negative durations and those that do not fit 32 bits.")
S("C168", "partial", "Props.Delay.C168_ns_partial Props.Delay.C168_m0_partial Props.Delay.C168_early_counterexample Props.Delay.C168_range_counterexample Props.Delay.C168_slow_counterexample",
  "The end of the loops is proved; the time up to the rounding of the nanoseconds of a pass, with the cycles of a pass as the tables say; refuted for exact times, beyond 2^31 ns and for slow clocks.")
S("C169", "partial", "Props.Delay.C169_const Props.Delay.C169_ns_partial Props.Delay.C169_ns_counterexample Props.Delay.C169_slow Props.Delay.C169_short_counterexample Props.Delay.C169_hang_counterexample Props.Delay.C169_fast_partial",
  "Proved for constants; for other numbers proved above 6 MHz for microseconds and milliseconds up to a cycle each; refuted for nanoseconds, up to 6 MHz, and below 1 MHz, where delay_us does not return.")
S("C170", "partial", "Props.IoStream.C170_hex Props.IoStream.C170_bin Props.IoStream.C170_byte Props.IoStream.C170_pointer Props.IoStream.C170_mode Props.IoStream.C170_function_counterexample",
  "Proved, but function pointers show the address of a parameter.")
S("C171", "partial", "Props.IoStream.C171_unsigned_partial Props.IoStream.C171_signed_partial Props.IoStream.C171_buffers Props.IoStream.C171_least_counterexample Props.IoStream.C171_silent_counterexample",
  "Proved for all but the least value of a type as wide as int or wider, and for the first 2^31 digits; refuted for these. The library that writes the digits is taken as published; it is not in the repository.")
S("C172", "proved", "Props.IoStream.C172_block Props.IoStream.C172_block_only Props.IoStream.C172_discard Props.IoStream.C172_discard_sublist",
  "")
S("C173", "partial", "Props.IoStream.C173_get Props.IoStream.C173_char Props.IoStream.C173_eof_counterexample",
  "The byte 255 is taken for the end.")
S("C174", "partial", "Props.FdcanFilter.C174_fates_partial Props.FdcanFilter.C174_hits Props.FdcanFilter.C174_stale_counterexample",
  "Proved for programs that clear the filters first; initialize does not, and filters of a former program stay in force.")
S("C175", "proved", "Props.FdcanFilter.C175_places Props.FdcanFilter.C175_apart",
  "")
S("C176", "partial", "Props.Mcp2515Filter.C176_filters Props.Mcp2515Filter.C176_mode_counterexample Props.Mcp2515Filter.C176_macro_counterexample",
  "Proved for the filters; refuted for the mode, and for arguments of the macros that are not numbers or names.")
S("C177", "partial", "Props.Eeprom.C177_write_partial Props.Eeprom.C177_read_partial Props.Eeprom.C177_page_counterexample Props.Eeprom.C177_address_counterexample Props.Eeprom.C177_value_counterexample Props.Eeprom.C177_byte_counterexample",
  "For writes within a page, reads within a device, addresses of devices without bit 2. Refuted for writes across pages, for devices with bit 2 in their address, for read(address, value) beyond 64 KiB and for writeByte with masters that work with interrupts.")
S("C178", "partial", "Props.Eeprom.C178_address Props.Eeprom.C178_read Props.Eeprom.C178_write_partial",
  "Writes within a page.")
S("C179", "partial", "Props.Animation.C179_ramp_partial Props.Animation.C179_hold_partial Props.Animation.C179_flat_counterexample Props.Animation.C179_line_counterexample Props.Animation.C179_hold_counterexample Props.Animation.C179_avr_counterexample",
  "For ramps with at most 2^f steps for each unit. Refuted for flat ramps (they overshoot and wrap), for the distance from the line, for holding values of 32 bits (and 16 on AVR), and for many steps on AVR.")
S("C180", "partial", "Props.Animation.C180_animation Props.Animation.C180_handler Props.Animation.C180_long_counterexample Props.Animation.C180_rare_counterexample Props.Animation.C180_result_counterexample",
  "Proved for times below 2^16 ms (8 bits). Refuted for longer ones, for 256 ms between updates, and for the result of the last update.")
S("C181", "partial", "Props.Animation.C181_order_partial Props.Animation.C181_frame Props.Animation.C181_stop Props.Animation.C181_single_counterexample Props.Animation.C181_last_counterexample Props.Animation.C181_late_counterexample",
  "Refuted for single frames that go back and forth, for isAnimating during the last frame, and for the time of a series of frames.")
S("C182", "partial", "Props.Animation.C182_pulse Props.Animation.C182_fades_partial Props.Animation.C182_indicator_counterexample Props.Animation.C182_strobe_counterexample",
  "Proved for Pulse and for the fade times of Indicator; the periods of Indicator and Strobe are refuted.")
S("C183", "partial", "Props.InplaceAny.C183_lifetimes_partial Props.InplaceAny.C183_aligned_partial Props.InplaceAny.C183_own_counterexample Props.InplaceAny.C183_aligned_counterexample",
  "Refuted for assigning to a container the value it holds, and for types that ask for more alignment than the scalars.")
S("C184", "partial", "Props.InplaceAny.C184_values_partial Props.InplaceAny.C184_swap_counterexample",
  "Refuted for swaps with an empty container, which leave an object behind.")
S("C185", "proved", "Props.InplaceFunction.C185_function",
  "Of function objects whose move constructor does not throw.")
S("C186", "partial", "Props.AdcSampler.C186_readout_partial Props.AdcSampler.C186_endless_counterexample",
  "Refuted for 255 (and 65535) samples: the readout never ends.")
S("C187", "partial", "Props.AdcSampler.C187_refused_partial Props.AdcSampler.C187_refused_counterexample",
  "Refuted for one sample for each channel, and before the first conversion is done.")
S("C188", "partial", "Props.ViewStack.C188_views_partial Props.ViewStack.C188_replace_counterexample Props.ViewStack.C188_last_counterexample Props.ViewStack.C188_destroy_counterexample Props.ViewStack.C188_gui_counterexample",
  "Refuted for views that push in their update, for the last view, for the destructor, and for buttons of GuiViewStack.")
S("C189", "partial", "Props.ViewStack.C189_display_partial Props.ViewStack.C189_push_counterexample Props.ViewStack.C189_pop_counterexample",
  "Refuted for views that push in their update, and after pop.")
S("C190", "partial", "Props.Menu.C190_scroll_partial Props.Menu.C190_space_counterexample Props.Menu.C190_assign_counterexample",
  "Refuted for more than 255 letters, and for operator =.")
S("C191", "partial", "Props.Menu.C191_standard_partial Props.Menu.C191_choice_partial Props.Menu.C191_many_counterexample Props.Menu.C191_empty_counterexample Props.Menu.C191_ends_counterexample",
  "Refuted for more than 255 entries, for none, and for UP and DOWN at the ends.")
S("C192", "partial", "Props.Menu.C192_standard_partial Props.Menu.C192_choice_partial Props.Menu.C192_first_counterexample Props.Menu.C192_again_counterexample Props.Menu.C192_display_counterexample",
  "Refuted for the first entry of a StandardMenu, for a second initialise, and for choices on displays of different widths.")
S("C193", "proved", "Props.GpioExpander.C193_mcp23x17_pins Props.GpioExpander.C193_mcp23x17_heals Props.GpioExpander.C193_mcp23x17_init",
  "")
S("C194", "partial", "Props.GpioExpander.C194_mcp23x17_isSet_partial Props.GpioExpander.C194_mcp23x17_levels_partial Props.GpioExpander.C194_mcp23x17_no_inputs_partial Props.GpioExpander.C194_latch_counterexample Props.GpioExpander.C194_toggle_counterexample",
  "Refuted for pins that were outputs, became inputs and are outputs again.")
S("C195", "partial", "Props.GpioExpander.C195_pca9535_partial Props.GpioExpander.C195_pca9535_heals_partial Props.GpioExpander.C195_setInput_counterexample Props.GpioExpander.C195_setOutput_counterexample Props.GpioExpander.C195_getDirection_counterexample",
  "Refuted for the first calls after power-on; proved for pins whose direction and level were given.")
S("C196", "partial", "Props.GpioExpander.C196_pca8574_partial Props.GpioExpander.C196_pca8574_without_writePort_partial Props.GpioExpander.C196_writePort_counterexample",
  "Refuted for writePort with zeros for inputs.")
S("C197", "proved", "Props.GpioExpander.C197_write Props.GpioExpander.C197_read Props.GpioExpander.C197_reversed8 Props.GpioExpander.C197_reversed16 Props.GpioExpander.C197_pca8574",
  "")
S("C198", "partial", "Props.GpioExpander.C198_setOutput_partial Props.GpioExpander.C198_setOutput_counterexample Props.GpioExpander.C198_then_output_counterexample Props.GpioExpander.C198_pca9535_counterexample",
  "Refuted for pins that are not outputs yet.")
S("C199", "proved", "Props.GpioPins.C199_stm32_call Props.GpioPins.C199_stm32 Props.GpioPins.C199_inverted Props.GpioPins.C199_getDirection",
  "")
S("C200", "proved", "Props.GpioPins.C200_portGet Props.GpioPins.C200_stm32_portWrite Props.GpioPins.C200_avr_portWrite Props.GpioPins.C200_softGet Props.GpioPins.C200_stm32_softWrite Props.GpioPins.C200_avr_softWrite",
  "")
S("C201", "proved", "Props.GpioPins.C201_f1_call Props.GpioPins.C201_setAlternateFunction",
  "")
S("C202", "partial", "Props.GpioPins.C202_getDirection_partial Props.GpioPins.C202_right_partial Props.GpioPins.C202_getDirection_counterexample",
  "Refuted: inputs are called outputs, and so are alternate functions with push-pull and 10 MHz; proved for all else.")
S("C203", "partial", "Props.GpioPins.C203_openDrain_partial Props.GpioPins.C203_f1_counterexample",
  "Refuted for setOutput() on the F1; proved for set and reset and for the other families.")
S("C204", "proved", "Props.GpioPins.C204_avr_call Props.GpioPins.C204_avr Props.GpioPins.C204_getDirection",
  "")
S("C205", "partial", "Props.GpioPins.C205_stm32_levels_partial Props.GpioPins.C205_avr_partial Props.GpioPins.C205_avr_counterexample Props.GpioPins.C205_stm32_counterexample",
  "Refuted for levels on the AVR and for directions on the STM32; proved for levels on the STM32 and for interrupts that leave PORT alone.")
S("C206", "partial", "Props.Stm32Timer.C206_cycles16_partial Props.Stm32Timer.C206_cycles32_partial Props.Stm32Timer.C206_setPeriod_partial Props.Stm32Timer.C206_prescaler Props.Stm32Timer.C206_long_counterexample Props.Stm32Timer.C206_divide_counterexample Props.Stm32Timer.C206_zero_counterexample Props.Stm32Timer.C206_one_counterexample",
  "Refuted: 2^32 cycles and more are truncated, 65535*65535+1 up to there and less than one cycle divide by zero, one cycle blocks the timer; proved in between.")
S("C207", "partial", "Props.Stm32Timer.C207_full_partial Props.Stm32Timer.C207_compare_partial Props.Stm32Timer.C207_gp_partial Props.Stm32Timer.C207_adv_partial Props.Stm32Timer.C207_mode_counterexample",
  "Refuted: a combined or asymmetric mode leaves a bit behind; proved for all else, in particular for channels without such a mode before, and for all settings but the mode.")
S("C208", "proved", "Props.Stm32Timer.C208_setInvertedPwm Props.Stm32Timer.C208_setNormalPwm Props.Stm32Timer.C208_forceInactive Props.Stm32Timer.C208_forceActive Props.Stm32Timer.C208_raw",
  "")
S("C209", "proved", "Props.Stm32Timer.C209_input Props.Stm32Timer.C209_filter Props.Stm32Timer.C209_isInput",
  "")
S("C210", "partial", "Props.Stm32Timer.C210_compare_partial Props.Stm32Timer.C210_channel5_counterexample",
  "Refuted for the channels 5 and 6, proved for 1 to 4.")
S("C211", "proved", "Props.Stm32Timer.C211_deadTime",
  "")
S("C212", "partial", "Props.Stm32Timer.C212_idle_partial Props.Stm32Timer.C212_reset_counterexample Props.Stm32Timer.C212_others_counterexample",
  "Refuted: idle states are not reset, and all else in CR2 is cleared; proved for CR2 = 0.")
S("C213", "proved", "Props.Stm32Timer.C213_acknowledge",
  "")
S("C214", "proved", "Props.Rtc.C214_set Props.Rtc.C214_get Props.Rtc.C214_roundtrip Props.Rtc.C214_fail",
  "")
S("C215", "partial", "Props.Rtc.C215_running_partial Props.Rtc.C215_stopped_counterexample",
  "Refuted: true is returned also when the oscillator has stopped, whenever the chip answers.")
S("C216", "partial", "Props.Rtc.C216_write Props.Rtc.C216_initialize Props.Rtc.C216_writeProtect Props.Rtc.C216_enableOscillator_partial Props.Rtc.C216_seconds_counterexample",
  "Refuted: enableOscillator sets the seconds to zero; all else is proved.")
S("C217", "proved", "Props.Rtc.C217_readRtc",
  "")
S("C218", "partial", "Props.Rtc.C218_read_partial Props.Rtc.C218_read_counterexample",
  "Refuted: the register is read shifted by one bit, with the free line as lowest bit; that is proved for all contents.")
S("C219", "partial", "Props.Rtc.C219_getters_partial Props.Rtc.C219_hours12 Props.Rtc.C219_protected Props.Rtc.C219_year_counterexample",
  "Refuted for the years from 10 on, proved for all else.")
S("C220", "proved", "Props.I2cAvr.C220_writeRead Props.I2cAvr.C220_write Props.I2cAvr.C220_read",
  "")
S("C221", "partial", "Props.I2cAvr.C221_any_partial Props.I2cAvr.C221_empty_counterexample Props.I2cAvr.C221_null_counterexample",
  "Refuted for an empty buffer that follows another one and for something to read without a buffer or of length 0; proved for all else.")
S("C222", "partial", "Props.I2cAvr.C222_alive Props.I2cAvr.C222_lost Props.I2cAvr.C222_occupied Props.I2cAvr.C222_reset_counterexample Props.I2cAvr.C222_reset_read_counterexample Props.I2cAvr.C222_busy_counterexample",
  "Refuted for reset during a transaction (null pointer, or reading goes on behind the buffer) and for start with a busy object; proved for interrupts.")
S("C223", "partial", "Props.I2cStm32.C223_writeRead_partial Props.I2cStm32.C223_write_partial Props.I2cStm32.C223_read_partial Props.I2cStm32.C223_write_late_counterexample Props.I2cStm32.C223_read_late_counterexample Props.I2cStm32.C223_general_call_counterexample",
  "Refuted when the interrupt before the last byte to write or for the fourth last byte to read is served later than one byte, and for the kind of error of the address 0; proved for all else.")
S("C224", "partial", "Props.I2cStm32.C224_any_partial Props.I2cStm32.C224_one_counterexample Props.I2cStm32.C224_empty_counterexample Props.I2cStm32.C224_restart_counterexample",
  "Refuted for a buffer of no or one byte that follows another one and for restart after a read; proved for all else (as far as C223).")
S("C225", "partial", "Props.I2cStm32.C225_queue_partial Props.I2cStm32.C225_later Props.I2cStm32.C225_full Props.I2cStm32.C225_handler_counterexample",
  "Refuted for the handlers; proved for the order, with several calls of start before the first interrupt.")
S("C226", "partial", "Props.I2cStm32.C226_reset_partial Props.I2cStm32.C226_reset_counterexample Props.I2cStm32.C226_busy_counterexample",
  "Refuted for interrupts after reset (null pointer) and for start with a busy object; proved for the objects.")
S("C227", "partial", "Props.I2cStm32Ext.C227_writeRead_partial Props.I2cStm32Ext.C227_write_partial Props.I2cStm32Ext.C227_read_partial Props.I2cStm32Ext.C227_address_counterexample Props.I2cStm32Ext.C227_address_read_counterexample Props.I2cStm32Ext.C227_data_counterexample Props.I2cStm32Ext.C227_data_more_counterexample Props.I2cStm32Ext.C227_race_counterexample Props.I2cStm32Ext.C227_long_counterexample",
  "Refuted (waits for ever) for an address that is not acknowledged before two or more bytes or before a restart, for data that is not acknowledged (or the wrong error), for more than 255 bytes to read, and for STOP while the interrupt for the last byte is being served; proved for all else.")
S("C228", "partial", "Props.I2cStm32Ext.C228_any_partial Props.I2cStm32Ext.C228_empty_counterexample Props.I2cStm32Ext.C228_restart_counterexample Props.I2cStm32Ext.C228_starting_counterexample Props.I2cStm32Ext.C228_after_counterexample",
  "Refuted for an empty buffer that follows another one, restart after a read, objects that change in starting(), and buffers that follow another one after a read that was not acknowledged; proved for all else (as far as C227).")
S("C229", "partial", "Props.I2cStm32Ext.C229_queue_partial Props.I2cStm32Ext.C229_full Props.I2cStm32Ext.C229_handler_counterexample Props.I2cStm32Ext.C229_wait_counterexample",
  "Refuted for the handlers and after failures as in C227; proved for the order, with several calls of start before the first interrupt.")
S("C230", "partial", "Props.I2cStm32Ext.C230_reset_partial Props.I2cStm32Ext.C230_reset_counterexample Props.I2cStm32Ext.C230_memory_counterexample Props.I2cStm32Ext.C230_null_counterexample Props.I2cStm32Ext.C230_busy_counterexample",
  "Refuted for interrupts after reset (null pointer, memory), for null and for start with a busy object; proved for the objects.")
S("C231", "partial", "Props.Flash.C231_getPage_partial Props.Flash.C231_getPage_counterexample Props.Flash.C231_getOffset_partial Props.Flash.C231_getOffset_counterexample Props.Flash.C231_getSize_partial Props.Flash.C231_getSize_counterexample",
  "Refuted for getPage above 1152 KiB, getOffset of sectors 0 to 3 and from 13, getSize of sectors 4, 5, 12 to 16; proved for all the others.")
S("C232", "partial", "Props.Flash.C232_pages_partial Props.Flash.C232_pages_counterexample",
  "Refuted for more than 256 pages (STM32F103 of 768 KiB and 1 MiB); proved for every other size.")
S("C233", "partial", "Props.Flash.C233_erase_partial Props.Flash.C233_at_partial Props.Flash.C233_bank_counterexample Props.Flash.C233_pnb_counterexample Props.Flash.C233_protect_counterexample",
  "Refuted for sectors of the second bank of F4, pages of the second bank of G4, and errors of write protected pages of F1; proved for the first bank.")
S("C234", "partial", "Props.Flash.C234_program_partial Props.Flash.C234_error_partial Props.Flash.C234_silent_counterexample Props.Flash.C234_stale_counterexample",
  "Refuted: on F4, G0 and G4 the result is always 0; on F1 an old error is reported for ever. Proved: what is written, and that nothing is written after an error.")
S("C235", "partial", "Props.Flash.C235_words_partial Props.Flash.C235_update_partial Props.Flash.C235_unlock Props.Flash.C235_locked_counterexample",
  "Partial for the sectors and pages of C233; refuted for the result of erase while the memory is locked.")
S("C236", "partial", "Props.HeapTable.C236_report_partial Props.HeapTable.C236_none Props.HeapTable.C236_clear Props.HeapTable.C236_beyond_counterexample Props.HeapTable.C236_adjacent_counterexample Props.HeapTable.C236_lost_counterexample Props.HeapTable.C236_full_counterexample Props.HeapTable.C236_stack_counterexample",
  "Refuted for reports that do not fit into the first region together with the end marker; proved for those that do.")
S("C237", "partial", "Props.HeapTable.C237_all Props.HeapTable.C237_report_partial Props.HeapTable.C237_offset_counterexample Props.HeapTable.C237_largest_counterexample Props.HeapTable.C237_filled_counterexample",
  "Refuted with a report and more than one region, or a region filled by the report; proved without a report.")
S("C238", "partial", "Props.HeapTable.C238_sound_partial Props.HeapTable.C238_largest_partial Props.HeapTable.C238_touching_counterexample Props.HeapTable.C238_null_counterexample Props.HeapTable.C238_traits_counterexample",
  "Refuted: touching regions may be missed, address 0, any trait is enough. Proved that the result is heap, and the largest if no regions touch.")
S("C239", "partial", "Props.HeapTlsf.C239_traits_partial Props.HeapTlsf.C239_defined_partial Props.HeapTlsf.C239_malloc Props.HeapTlsf.C239_null_counterexample",
  "Refuted if nothing but core coupled or external memory is asked for: an unused pool with a null allocator is used. Proved otherwise.")
S("C240", "partial", "Props.HeapTlsf.C240_free Props.HeapTlsf.C240_six_counterexample Props.HeapTlsf.C240_calloc_partial Props.HeapTlsf.C240_calloc_counterexample",
  "free proved for every table of separate regions; refuted: regions after the sixth pool are lost, calloc allocates and clears n bytes only.")
S("C241", "proved", "Props.AtomicLock.C241_restore Props.AtomicLock.C241_lock Props.AtomicLock.C241_unlock",
  "For all programs, handlers and interleavings.")
S("C242", "partial", "Props.AtomicLock.C242_priority_partial Props.AtomicLock.C242_zero_counterexample Props.AtomicLock.C242_range_counterexample Props.AtomicLock.C242_m0",
  "Refuted for q = 0, which masks nothing, and for q beyond the priority bits; proved for all others.")
S("C243", "proved", "Props.AtomicLock.C243_atomic",
  "The log of all operations is a sequential history that ends in the memory.")
S("C244", "partial", "Props.StaticGuard.C244_once_partial Props.StaticGuard.C244_recursive_partial Props.StaticGuard.C244_twice_counterexample Props.StaticGuard.C244_assert_counterexample",
  "Refuted: an interrupt between load and exchange leads to a second construction. Proved if none comes between these two.")
S("C245", "proved", "Props.StaticGuard.C245_decision Props.StaticGuard.C245_value Props.StaticGuard.C245_order",
  "For all lists of handlers.")
S("C246", "proved", "Props.Multicore.C246_exclusive",
  "Invariant over both cores and all frames.")
S("C247", "partial", "Props.Multicore.C247_guard_partial Props.Multicore.C247_nested_counterexample Props.Multicore.C247_constructor_counterexample Props.Multicore.C247_destructor_counterexample",
  "Refuted for modm::atomic::Lock: nested, or with a handler that uses Lock and comes between claiming the spin lock and disabling interrupts. Proved for SystemSpinLockGuard that is not nested.")
S("C248", "proved", "Props.Multicore.C248_exclusive Props.Multicore.C248_wake",
  "Invariant over all interleavings.")
S("C249", "partial", "Props.Multicore.C249_runCore1 Props.Multicore.C249_outside_counterexample Props.Multicore.C249_core0_counterexample",
  "Refuted: the top of the stack is passed for its bottom. Proved for runCore1 called with the bottom.")
S("C250", "proved", "Props.LedDrivers.C250_set Props.LedDrivers.C250_get Props.LedDrivers.C250_all",
  "Bit by bit in the order of transmission.")
S("C251", "partial", "Props.LedDrivers.C251_set Props.LedDrivers.C251_get Props.LedDrivers.C251_all Props.LedDrivers.C251_large_counterexample",
  "Proved for values of six bits; larger ones spoil the channel above (setChannel cuts them off).")
S("C252", "partial", "Props.LedDrivers.C252_clear Props.LedDrivers.C252_frame Props.LedDrivers.C252_color_partial Props.LedDrivers.C252_color_counterexample Props.LedDrivers.C252_get_partial Props.LedDrivers.C252_get_counterexample",
  "Refuted: spread puts two bits of each half byte to the same place; white is sent as 0x77. Proved: protocol, other LEDs, colours with half bytes below 4.")
S("C253", "proved", "Props.LedDrivers.C253_init Props.LedDrivers.C253_clocks Props.LedDrivers.C253_both Props.LedDrivers.C253_color Props.LedDrivers.C253_brightness Props.LedDrivers.C253_get",
  "For all values.")
S("C254", "proved", "Props.LedDrivers.C254_set Props.LedDrivers.C254_get Props.LedDrivers.C254_array Props.LedDrivers.C254_all Props.LedDrivers.C254_half",
  "For all chains.")
S("C255", "partial", "Props.TempSensors.C255_lm75 Props.TempSensors.C255_tmp102 Props.TempSensors.C255_tmp102_extended Props.TempSensors.C255_extended_counterexample Props.TempSensors.C255_stts22h Props.TempSensors.C255_max31855_thermocouple Props.TempSensors.C255_max31855_reference Props.TempSensors.C255_mcp990x Props.TempSensors.C255_tmp12x",
  "Proved for all but the extended format of the TMP102, where the reading is always 1/128 °C too high (the mark of the format is taken for a part of the temperature).")
S("C256", "partial", "Props.TempSensors.C256_lm75 Props.TempSensors.C256_tmp12x Props.TempSensors.C256_tmp102_partial Props.TempSensors.C256_tmp102_counterexample Props.TempSensors.C256_tmp102_minus25_counterexample Props.TempSensors.C256_mcp990x_partial Props.TempSensors.C256_mcp990x_counterexample",
  "Refuted for the TMP102 below 0 °C (231 for −25 °C; never negative) and the MCP990x from 128 °C (int8_t).")
S("C257", "partial", "Props.TempSensors.C257_nearest_partial Props.TempSensors.C257_error Props.TempSensors.C257_counterexample Props.TempSensors.C257_missing_counterexample",
  "Proved from 0 °C upwards; below, the half is added and the division cuts towards zero. A missing device reads as −0.05 °C.")
S("C258", "proved", "Props.TempSensors.C258_lm75 Props.TempSensors.C258_tmp102 Props.TempSensors.C258_tmp102_extended Props.TempSensors.C258_range_counterexample",
  "In the range of the format; beyond it the limit changes sign.")
S("C259", "partial", "Props.TempSensors.C259_limit_counterexample Props.TempSensors.C259_example_counterexample Props.TempSensors.C259_factor_partial",
  "Refuted for every resolution and every temperature but 0: the second shift should be by 7 − res and is by 4 + res.")
S("C260", "partial", "Props.TempSensors.C260_rate_partial Props.TempSensors.C260_rate8_counterexample Props.TempSensors.C260_other Props.TempSensors.C260_period_counterexample",
  "Refuted for 8 Hz (the chip is told 4 Hz); TMP175 and DS1631 are started 29 ms too early.")
S("C261", "partial", "Props.TempSensors.C261_tmp175_partial Props.TempSensors.C261_tmp175_counterexample Props.TempSensors.C261_ds1631_partial Props.TempSensors.C261_oneshot_counterexample Props.TempSensors.C261_ds1631_counterexample Props.TempSensors.C261_address_counterexample",
  "Refuted for 11 and 12 bits, for the one-shot mode of the DS1631 (never started) and for its default address.")
S("C262", "partial", "Props.TempSensors.C262_resistance Props.TempSensors.C262_fast_partial Props.TempSensors.C262_fast_counterexample Props.TempSensors.C262_first_partial Props.TempSensors.C262_oneshot_counterexample Props.TempSensors.C262_second_counterexample",
  "Refuted for sensors other than 100 Ω and from the end of the first reading on.")
S("C263", "partial", "Props.Barometer.C263_datasheet_partial Props.Barometer.C263_overflow_counterexample Props.Barometer.C263_zero_counterexample",
  "Proved from −154.72 °C upwards; refuted below for every calibration: signed overflow. Reached by the raw value 0 that the chip returns without a conversion.")
S("C264", "partial", "Props.Barometer.C264_datasheet_partial Props.Barometer.C264_zero_counterexample",
  "Proved from −187.24 °C to 483.40 °C; signed overflow beyond.")
S("C265", "partial", "Props.Barometer.C265_ms5611 Props.Barometer.C265_ms5837 Props.Barometer.C265_absent_counterexample",
  "Errors are detected; a missing device is not: zeros have the check 0.")
S("C266", "partial", "Props.Barometer.C266_getters_partial Props.Barometer.C266_temperature Props.Barometer.C266_between_counterexample Props.Barometer.C266_bmp085_counterexample",
  "Proved if nobody asks between the halves of a readout (temperature of MS5611 and MS5837 without that condition); refuted otherwise.")
S("C267", "partial", "Props.Barometer.C267_temperature_partial Props.Barometer.C267_ac5_counterexample Props.Barometer.C267_zero_counterexample Props.Barometer.C267_pressure_partial Props.Barometer.C267_below_counterexample",
  "Refuted for AC5 from 32768 on (converted to int16_t), without calibration (division by zero) and for raw pressures below B3 (overflow).")
S("C268", "partial", "Props.Barometer.C268_ams5915 Props.Barometer.C268_hclax_partial Props.Barometer.C268_hclax_counterexample",
  "Proved for AMS5915; HCLA wraps to 2.49 just below the offset.")
S("C269", "partial", "Props.AdcDrivers.C269_crc Props.AdcDrivers.C269_burst Props.AdcDrivers.C269_zero_counterexample",
  "Proved but for a bus that stays low, which passes.")
S("C270", "proved", "Props.AdcDrivers.C270_frame Props.AdcDrivers.C270_device_counterexample Props.AdcDrivers.C270_reading",
  "For addresses of the chain (0 … 31); a larger one reaches into the register number.")
S("C271", "partial", "Props.AdcDrivers.C271_all Props.AdcDrivers.C271_error Props.AdcDrivers.C271_selftest Props.AdcDrivers.C271_channel_partial Props.AdcDrivers.C271_channel_counterexample Props.AdcDrivers.C271_zero_counterexample Props.AdcDrivers.C271_average_counterexample Props.AdcDrivers.C271_setup_counterexample",
  "readAllChannels and performSelftest proved. Refuted: readChannel fails for every channel but the first; six cells of 0 V without a device; averaging unused; chainSetup always succeeds.")
S("C272", "partial", "Props.AdcDrivers.C272_fields_partial Props.AdcDrivers.C272_scale Props.AdcDrivers.C272_start Props.AdcDrivers.C272_value Props.AdcDrivers.C272_table Props.AdcDrivers.C272_comparator_counterexample",
  "Proved but for the comparator: it stays off after initialize whatever is called (wrong mask).")
S("C273", "proved", "Props.AdcDrivers.C273_ads7828 Props.AdcDrivers.C273_ads7828_channels Props.AdcDrivers.C273_mcp3008 Props.AdcDrivers.C273_hx711 Props.AdcDrivers.C273_mcp4922",
  "")
S("C274", "partial", "Props.AdcDrivers.C274_single Props.AdcDrivers.C274_sequence Props.AdcDrivers.C274_auto_counterexample Props.AdcDrivers.C274_lost_counterexample",
  "Conversions and sequences proved; refuted: the automatic shutdown is forgotten, and stops a sequence.")
S("C275", "partial", "Props.AvrHeap.C275_defined_partial Props.AvrHeap.C275_separate_partial Props.AvrHeap.C275_data_partial Props.AvrHeap.C275_first_partial Props.AvrHeap.C275_end_counterexample Props.AvrHeap.C275_marker_counterexample Props.AvrHeap.C275_largest_counterexample Props.AvrHeap.C275_again_counterexample",
  "Proved for heaps of at most 127 + MAX_BLOCK_PARTS blocks with MAX_BLOCK_PARTS at most 126 and no negative byte behind the heap (the bounds cannot be widened); refuted without each of them. Memory freed can not always be had again.")
S("C276", "proved", "Props.Startup.C276_hooks Props.Startup.C276_constructors Props.Startup.C276_main",
  "")
S("C277", "partial", "Props.Startup.C277_pieces Props.Startup.C277_room_partial Props.Startup.C277_last_counterexample Props.Startup.C277_below_counterexample",
  "Pieces proved; the last byte is never handed out, and nothing keeps the heap from shrinking below its start.")
S("C278", "partial", "Props.Startup.C278_new Props.Startup.C278_nothrow_partial Props.Startup.C278_nothrow_counterexample Props.Startup.C278_empty_counterexample",
  "new proved; the nothrow form calls no handler; an empty array fails on AVR.")
S("C279", "partial", "Props.Tlsf.C279_defined_partial Props.Tlsf.C279_disjoint_partial Props.Tlsf.C279_data_partial Props.Tlsf.C279_outside_partial Props.Tlsf.C279_malloc_counterexample",
  "Proved for sizes whose rounded-up list exists; refuted for sizes in the last list below the largest size, where the bitmaps are read out of range.")
S("C280", "proved", "Props.Tlsf.C280_null Props.Tlsf.C280_recovers",
  "")
S("C281", "partial", "Props.Tlsf.C281_realloc_partial Props.Tlsf.C281_realloc_counterexample",
  "Proved below the largest size; refuted from the largest size on.")
S("C282", "proved", "Props.CharDisplay.C282_init Props.CharDisplay.C282_byte",
  "")
S("C283", "partial", "Props.CharDisplay.C283_text_partial Props.CharDisplay.C283_clear_counterexample Props.CharDisplay.C283_cursor_counterexample",
  "Proved when setCursor follows every clear and positions are on the display; refuted for clear alone and for a line behind the last one.")
S("C284", "partial", "Props.CharDisplay.C284_cgram_partial Props.CharDisplay.C284_character_counterexample Props.CharDisplay.C284_text_counterexample",
  "Proved for characters below 8 and rows of at most 50 µs; refuted for character 8 and for text that follows.")
S("C285", "partial", "Props.CharDisplay.C285_line_partial Props.CharDisplay.C285_newline_counterexample",
  "Proved for displays of one line; refuted for two lines.")
S("C286", "proved", "Props.SpiStm32.C286_transfer Props.SpiStm32.C286_prefix Props.SpiStm32.C286_returns",
  "")
S("C287", "partial", "Props.SpiStm32.C287_transfer_partial Props.SpiStm32.C287_fifo_partial Props.SpiStm32.C287_plain_partial Props.SpiStm32.C287_live Props.SpiStm32.C287_last_counterexample Props.SpiStm32.C287_overrun_counterexample Props.SpiStm32.C287_dummy_counterexample Props.SpiStm32.C287_long_counterexample Props.SpiStm32.C287_zero_counterexample",
  "Proved: bytes sent, frame, progress, and with FIFO and without overrun the answers, for 1 to 65535 bytes with buffers or a dummy byte that is zero; refuted: the last answer without FIFO, overrun, dummy byte, lengths 0 and above 65535.")
S("C288", "partial", "Props.SpiStm32.C288_ends_partial Props.SpiStm32.C288_forever_counterexample Props.SpiStm32.C288_error_counterexample",
  "Proved: the transfer ends; refuted: the clock of the DMA controller stays off, no later transfer returns.")
S("C289", "proved", "Props.Dataflash.C289_store Props.Dataflash.C289_ends Props.Dataflash.C289_overlap",
  "")
S("C290", "partial", "Props.Dataflash.C290_chip_partial Props.Dataflash.C290_page_counterexample",
  "Proved for chipErase; pageErase and blockErase never change anything.")
S("C291", "partial", "Props.Dataflash.C291_init_partial Props.Dataflash.C291_virgin_counterexample Props.Dataflash.C291_busy_counterexample",
  "Proved for devices that have pages of 256 bytes; refuted for devices as delivered until they are switched off and on, and for good if they were busy.")
S("C292", "partial", "Props.AvrUart.C292_order Props.AvrUart.C292_drains Props.AvrUart.C292_refused Props.AvrUart.C292_finished_partial Props.AvrUart.C292_finished_counterexample",
  "All but isWriteFinished: it returns true while the last byte is still being sent (the last two after discardTransmitBuffer).")
S("C293", "partial", "Props.AvrUart.C293_read Props.AvrUart.C293_order Props.AvrUart.C293_lossless_partial Props.AvrUart.C293_frame Props.AvrUart.C293_overflow_counterexample",
  "A byte that finds the queue full is lost without a flag; all other losses and frame errors are reported.")
S("C294", "proved", "Props.Nrf24.C294_bits Props.Nrf24.C294_address Props.Nrf24.C294_speed Props.Nrf24.C294_fields Props.Nrf24.C294_pipe",
  "")
S("C295", "partial", "Props.Nrf24.C295_send Props.Nrf24.C295_feedback_partial Props.Nrf24.C295_done Props.Nrf24.C295_broadcast_counterexample Props.Nrf24.C295_late_counterexample Props.Nrf24.C295_restart_counterexample",
  "Proved for packets to one station while the timeout does not expire; refuted for packets to all, for an acknowledgement at the moment of the timeout, and after a reset of the processor only.")
S("C296", "partial", "Props.Nrf24.C296_addresses Props.Nrf24.C296_taken Props.Nrf24.C296_packets_partial Props.Nrf24.C296_next_partial Props.Nrf24.C296_flush_counterexample Props.Nrf24.C296_restart_counterexample Props.Nrf24.C296_again_counterexample",
  "Addresses proved for all executions, packets for executions without sending; refuted when a packet is sent before those received were fetched, after a reset of the processor only, and after a reset of the device only.")
S("C297", "partial", "Props.Panel.C297_update Props.Panel.C297_pixels Props.Panel.C297_small_counterexample Props.Panel.C297_interrupted_counterexample",
  "Proved for the height 64 and complete transfers. False for the height 32: the window has eight pages, so updates go by turns to pages 0-3 and 4-7. False after an interrupted transfer: all later pictures are moved.")
S("C298", "proved", "Props.Panel.C298_update Props.Panel.C298_initialized",
  "")
S("C299", "partial", "Props.Panel.C299_update_counterexample Props.Panel.C299_nokia_partial Props.Panel.C299_ks0108_partial Props.Panel.C299_ks0108_initialize Props.Panel.C299_st7565_partial",
  "False: the loops read buffer[x][page] though the buffer is declared as buffer[Height / 8][Width], every update reads outside of it. Proved: the commands and the order of the bytes are right if the loop reads the byte of its column and page.")
S("C300", "partial", "Props.Panel.C300_turned_partial Props.Panel.C300_widths_counterexample",
  "Proved for the width 128. False for the DOGM132, where the last four columns are lost, and for the DOGS102, where the two views use different segments.")
S("C301", "proved", "Props.Panel.C301_line",
  "")
S("C302", "partial", "Props.Panel.C302_brightness Props.Panel.C302_initialize Props.Panel.C302_horizontal_partial Props.Panel.C302_vertical_partial Props.Panel.C302_matrix_counterexample",
  "Registers and initialisation proved. update() of the matrices is false: the loops read the buffer with exchanged indices. Proved: the chain and the rows are right if the loop reads the right byte.")
S("C303", "proved", "Props.Rtt.C303_transmit Props.Rtt.C303_refused Props.Rtt.C303_drain Props.Rtt.C303_finished",
  "")
S("C304", "proved", "Props.Rtt.C304_receive Props.Rtt.C304_read",
  "")
S("C305", "partial", "Props.Rtt.C305_write_block Props.Rtt.C305_read_block Props.Rtt.C305_size_partial Props.Rtt.C305_empty_counterexample Props.Rtt.C305_no_buffer_counterexample",
  "Blocks proved. False: the number of bytes of an empty buffer is reported as its whole size; write() to a channel of size 0 divides by zero.")
S("C306", "proved", "Props.Touch.C306_raw Props.Touch.C306_range Props.Touch.C306_touched",
  "")
S("C307", "partial", "Props.Touch.C307_position_partial Props.Touch.C307_touch_partial Props.Touch.C307_defined Props.Touch.C307_negative_counterexample Props.Touch.C307_default_counterexample",
  "Proved if the product fits into 32 bits and the result is not negative. False: negative results give the maximum instead of 0; with the default factor raw values from 2148 on overflow.")
S("C308", "proved", "Props.Touch.C308_read_data Props.Touch.C308_stable Props.Touch.C308_closest Props.Touch.C308_robust Props.Touch.C308_read",
  "")
S("C309", "proved", "Props.Touch.C309_touches Props.Touch.C309_none",
  "")
S("C310", "partial", "Props.BusDevices.C310_channel_partial Props.BusDevices.C310_refused Props.BusDevices.C310_retry_counterexample Props.BusDevices.C310_read_counterexample",
  "Proved if the multiplexer starts in the state the driver assumes and all its transactions are acknowledged. False after a selection that was not acknowledged (the retry is started on the old channels) and after readCommandRegister, which returns the old contents of its buffer.")
S("C311", "partial", "Props.BusDevices.C311_pwm_partial Props.BusDevices.C311_results Props.BusDevices.C311_zero_counterexample",
  "Proved for all values but multiples of 4096: for 0 the counts for on and off are the same, which the data sheet excludes.")
S("C312", "partial", "Props.BusDevices.C312_command Props.BusDevices.C312_angle Props.BusDevices.C312_degrees_partial Props.BusDevices.C312_degrees_counterexample Props.BusDevices.C312_error_counterexample",
  "Commands and raw angle proved. False: degrees are divided by 16383 (360 degrees for the last step), and the error flag is not looked at.")
S("C313", "proved", "Props.BusDevices.C313_outputs",
  "")
S("C314", "partial", "Props.Gui.C314_topmost_partial Props.Gui.C314_edge_counterexample Props.Gui.C314_group_counterexample",
  "Proved outside of the first row and column of widgets and if in each group at most one widget covers the point. False in the first row and column, which do not react, and for children of groups that overlap, where the one below gets the event.")
S("C315", "partial", "Props.Gui.C315_press_partial Props.Gui.C315_leave_counterexample",
  "Proved for a release on the same widget. False for a release elsewhere: the widget stays active.")
S("C316", "proved", "Props.Gui.C316_positions Props.Gui.C316_start Props.Gui.C316_fits",
  "")
S("C317", "partial", "Props.Gui.C317_display_partial Props.Gui.C317_group_counterexample Props.Gui.C317_kids_counterexample Props.Gui.C317_move_counterexample",
  "Proved for views of plain widgets with any overlaps, and groups without overlaps. False for groups that lie on a widget (they are not drawn again), for children of groups that overlap, and for widgets that are moved after pack.")
S("C318", "partial", "Props.Gui.C318_float_partial Props.Gui.C318_click Props.Gui.C318_sign_counterexample Props.Gui.C318_setState_counterexample",
  "Proved for values that are not between -1 and 0, and for clicks. False: -0.5 is shown as 0.500, and setState of a check box does not lead to a redraw.")
S("C319", "proved", "Props.Gui.C319_inverse Props.Gui.C319_cycle",
  "")
S("C320", "partial", "Props.Gui.C320_palette_partial Props.Gui.C320_group_counterexample",
  "Proved for views without groups. False for groups: WidgetGroup::setColorPalette calls itself without end.")
S("C321", "proved", "Props.I2cTiming.C321_timings Props.I2cTiming.C321_best",
  "")
S("C322", "partial", "Props.I2cTiming.C322_hold_partial Props.I2cTiming.C322_filter_counterexample Props.I2cTiming.C322_valid_counterexample Props.I2cTiming.C322_rise_counterexample",
  "Proved with the analog filter and if the maximum can be met at all. False without the filter, whose delay is subtracted all the same, if the maximum is negative (it is replaced by 0), and for the driver, which passes rise and fall times of 0.")
S("C323", "proved", "Props.I2cTiming.C323_register",
  "")
S("C324", "partial", "Props.Location.C324_normalize_partial Props.Location.C324_endless_counterexample",
  "Proved in exact arithmetic. False for floats: from 2^28 on the loop never ends.")
S("C325", "partial", "Props.Location.C325_reverse_partial Props.Location.C325_equivalent_counterexample",
  "Proved for angles in the range other than zero. False for zero (-Pi instead of Pi) and for angles outside of the range, which stay outside.")
S("C326", "proved", "Props.Location.C326_moves",
  "")
S("C327", "partial", "Props.Location.C327_compare_partial Props.Location.C327_neither_counterexample",
  "Proved unless the orientations differ by exactly the epsilon, where neither operator holds; Pi and -Pi are not equal.")
S("C328", "partial", "Props.CycleCounter.C328_up_partial Props.CycleCounter.C328_short_counterexample",
  "Proved for times of at least the overhead; shorter ones wrap around.")
S("C329", "partial", "Props.CycleCounter.C329_down_partial Props.CycleCounter.C329_underflow_counterexample",
  "Proved without an underflow; with an underflow the result is one cycle less (LOAD is added instead of LOAD + 1).")
S("C330", "partial", "Props.CycleCounter.C330_units_partial Props.CycleCounter.C330_nanoseconds_counterexample",
  "Proved if the result is below 2^32, which is always so for milliseconds and microseconds with usual clocks. False for nanoseconds from 4.3 seconds on.")
S("C331", "proved", "Props.ThreadSemaphore.C331_counter",
  "")
S("C332", "partial", "Props.ThreadSemaphore.C332_awake_partial Props.ThreadSemaphore.C332_lost_counterexample",
  "Proved for executions in which no wait ends by its timeout. False otherwise: a notified thread that resumes at its deadline returns false and the notification is lost for the others.")
S("C333", "partial", "Props.ThreadSemaphore.C333_timeout_partial Props.ThreadSemaphore.C333_restart_counterexample",
  "Proved: false only after the timeout, and a return if not woken for the length of the timeout. False: the timeout starts again after each wake-up, and the default is 2^32 - 1 ms, not endless.")
S("C334", "partial", "Props.Exti.C334_source_partial Props.Exti.C334_eight_counterexample",
  "Proved for SYSCFG and AFIO (four bits for each line). False for G0, L5 and U5, whose EXTICR has eight bits for each line.")
S("C335", "partial", "Props.Exti.C335_irq_partial Props.Exti.C335_lost_counterexample",
  "Proved but for edges on the line whose handler is running: these are lost, since the pending bit is cleared after the handler.")
S("C336", "partial", "Props.Exti.C336_connect_partial Props.Exti.C336_early_counterexample",
  "Proved for devices with four bits for each line and no edge while connecting. False with an edge of the old pin after the acknowledgement (the new handler is called), and on G0, L5 and U5.")
S("C337", "partial", "Props.Dma.C337_interrupt_partial Props.Dma.C337_lost_counterexample",
  "Proved but for events of the same channel between reading and clearing: all its flags are cleared, so a completion while the handler for the first half runs is lost.")
S("C338", "partial", "Props.Dma.C338_error_partial Props.Dma.C338_controller_counterexample",
  "The handler is called and the channel stops, but the unqualified disable() switches off the clock of the whole controller: all other channels stop too.")
S("C339", "proved", "Props.Dma.C339_flags",
  "")
S("C340", "proved", "Props.RpInt.C340_not_lost",
  "")
S("C341", "partial", "Props.RpInt.C341_calls_partial Props.RpInt.C341_upper_counterexample",
  "Proved for pins 0 to 23. NUM_BANK0_GPIOS / 8 is rounded down, so pins 24 to 29 are never handled nor acknowledged.")
S("C342", "proved", "Props.RpInt.C342_connect",
  "")
S("C343", "proved", "Props.SCurve.C343_limits",
  "")
S("C344", "proved", "Props.SCurve.C344_ramps",
  "")
S("C345", "partial", "Props.SCurve.C345_target_partial Props.SCurve.C345_constructor_counterexample",
  "Proved for setParameter() and setSpeedTarget(). The constructor does not compute the distance: updates read a member that was never written.")
S("C346", "partial", "Props.Ixm42.C346_parse Props.Ixm42.C346_loop_partial Props.Ixm42.C346_end_counterexample",
  "Proved for data that ends with a whole packet. A packet that is cut off at the end of the buffer is parsed behind the end.")
S("C347", "partial", "Props.Ixm42.C347_values_partial Props.Ixm42.C347_gyro_counterexample",
  "Proved but for the rotation of packets with 20 bits, which is right only if the extension is zero: its four bits overlap with a value shifted by three.")
S("C348", "partial", "Props.Ixm42.C348_temperature_partial Props.Ixm42.C348_byte_counterexample",
  "Proved for 16 bits. One byte is copied into the lower half of two: negative temperatures are wrong, and the upper half is left from earlier packets.")
S("C349", "partial", "Props.Drv832x.C349_commit_partial Props.Drv832x.C349_lost_counterexample",
  "Proved if no accessor is called during commit(). Otherwise the bit of a register already passed is cleared at the end and the change is never written.")
S("C350", "proved", "Props.Drv832x.C350_transfers",
  "")
S("C351", "partial", "Props.Ft245.C351_read_partial Props.Ft245.C351_zero_counterexample",
  "Proved for lengths from 1 on. With length zero bytes are written behind the buffer.")
S("C352", "proved", "Props.Ft245.C352_write",
  "")
S("C353", "partial", "Props.Spartan3.C353_configure_partial Props.Spartan3.C353_small_counterexample",
  "Proved for XC3S200 and XC3S400. The size of XC3S50 is 53908 instead of 54908, so its configuration always fails.")
S("C354", "partial", "Props.DynamicPostman.C354_events_partial Props.DynamicPostman.C354_short_counterexample",
  "Proved if the payload has at least the size of the parameter. The size is not checked: a shorter payload is read past its end.")
S("C355", "partial", "Props.DynamicPostman.C355_requests_partial Props.DynamicPostman.C355_zero_counterexample",
  "Proved for components other than 0 and payloads of at least the size of the parameter. Component 0 is available but its requests are events.")
S("C356", "partial", "Props.GpioSampler.C356_samples_partial Props.GpioSampler.C356_last_partial Props.GpioSampler.C356_lost_counterexample",
  "Proved if the pin does not change while the handler runs. A change between reading the pin and acknowledging the flag is lost.")
S("C357", "proved", "Props.GpioSampler.C357_diff",
  "")
S("C358", "proved", "Props.SpiRam.C358_write",
  "")
S("C359", "proved", "Props.SpiRam.C359_read",
  "")
S("C360", "proved", "Props.Itm.C360_order",
  "")
S("C361", "partial", "Props.Itm.C361_flush_partial Props.Itm.C361_flush_counterexample",
  "Proved that at most four bytes are missing. Only the queue is looked at, not the word being assembled, so up to four bytes are not put out.")
S("C362", "partial", "Props.Is31fl3733.C362_registers_partial Props.Is31fl3733.C362_reset_counterexample",
  "Proved for chips that keep the page at a reset. If the chip selects page 0 then, the driver writes to the wrong page after reset().")
S("C363", "partial", "Props.Is31fl3733.C363_leds_partial",
  "Proved for chips that keep the page at a reset; see C362.")
S("C364", "proved", "Props.Lp503x.C364_leds",
  "")
S("C365", "proved", "Props.Lp503x.C365_config",
  "")
S("C366", "partial", "Props.Lis3dsh.C366_control_partial Props.Lis3dsh.C366_failed_counterexample",
  "Proved for registers whose last write succeeded. A failed call changes the copy in the driver but not the register.")
S("C367", "partial", "Props.Lis3dsh.C367_acceleration_partial Props.Lis3dsh.C367_failed_counterexample Props.Lis3dsh.C367_increment_counterexample",
  "Proved if the last write of control register 5 succeeded and ADD_INC is set. The scale is changed before the transaction; updateControl(Control6_t) clears ADD_INC by default, then STATUS is taken for accelerations.")
S("C368", "proved", "Props.Ltc2984.C368_temperature",
  "")
S("C369", "proved", "Props.Ltc2984.C369_registers Props.Ltc2984.C369_absent",
  "")
S("C370", "partial", "Props.Ltc2984.C370_configure_partial Props.Ltc2984.C370_configure_counterexample",
  "Proved for 50 Hz and Celsius only. The configuration is put where writeData() puts the instruction, so that 2 is stored whatever is given. Besides, configure() does not compile when used, as a byte is passed for a pointer.")
S("C371", "proved", "Props.Spartan6.C371_bytes",
  "")
S("C372", "partial", "Props.Spartan6.C372_result_partial Props.Spartan6.C372_error_counterexample",
  "Proved with INIT_B looked at in the pages before that in which DONE goes high. An error does not end the page, and DONE later in the same page replaces it, so that configure() returns true.")
S("C373", "partial", "Props.Cat24aa.C373_memory_partial Props.Cat24aa.C373_page_counterexample",
  "Proved for writes within a page of 16 bytes. The driver does not split writes at the ends of pages: the bytes beyond go to the beginning of the page, and write() returns true.")
S("C374", "proved", "Props.Mcp23s08.C374_port Props.Mcp23s08.C374_interrupt",
  "")
S("C375", "partial", "Props.Tcs3414.C375_others_partial Props.Tcs3414.C375_value_counterexample",
  "Proved that no other register is changed and that the result is that of the bus. The value is never sent, as only two of the three bytes of the buffer are written: the sensor is not even switched on, though initialize() returns true.")
S("C376", "partial", "Props.Tcs3414.C376_colors_partial Props.Tcs3414.C376_beyond_counterexample",
  "The colours are proved to be right. readColor() reads as many bytes as the data have, but to their second byte, so that the byte after the data is overwritten.")
S("C377", "proved", "Props.Tcs3472.C377_registers Props.Tcs3472.C377_colors",
  "")
S("C378", "partial", "Props.Tcs3472.C378_modes_partial Props.Tcs3472.C378_wait_counterexample",
  "Proved but for waiting. Enable_InterruptMode_Waittime has INTERRUPT_ENABLE twice instead of WAIT_ENABLE, so that it is the same as Enable_InterruptMode.")
S("C379", "proved", "Props.Hmc6343.C379_values Props.Hmc6343.C379_mode",
  "")
S("C380", "proved", "Props.Hmc6343.C380_written Props.Hmc6343.C380_read",
  "")
