S("C01", "proved", "C01_typed_roundtrip C01_queue")
S("C02", "proved", "C02_little_endian C02_injective")
S("C03", "proved", "C03_read_defined_iff C03_isValid_never_false")
S("C04", "proved", "C04_short_string_roundtrip_iff C04_long_string_roundtrip_iff C04_written_bytes")
S("C05", "proved", "C05_network_byte_order C05_roundtrip", "Host byte order is little-endian, as stated.")
S("C06", "proved", "C06_layout C06_roundtrip_iff C06_oversized_rejected")
S("C07", "proved", "C07_total")
S("C08", "proved", "C08_layout C08_roundtrip C08_item_view C08_truncated C08_oversized_item_loses_data C08_too_many_items_lost")
S("C09", "proved", "C09_classification C09_no_count C09_never_throws_strict",
  "Inputs of fewer than two bytes also read out of bounds, but if the stray reads return bytes the decoder returns an empty packet (C09_no_count).")
S("C10", "proved", "C10_registerSession C10_unRegisterSession C10_sendRRData C10_listIdentity")
S("C11", "proved", "C11_layout C11_size C11_default_path_violated",
  "The default constructed path, outside the claim, declares 0 words but packs 4 (or 2) bytes.")
S("C12", "proved", "C12_roundtrip_iff C12_class_level_lost")
S("C13", "proved", "C13_classification C13_accepts C13_unknown")
S("C14", "proved", "C14_layout C14_decode C14_injective C14_wide_id_aliases",
  "Also proved for 8-bit mode when the identifiers fit 8 bits; C14_wide_id_aliases shows that restriction is needed.")
S("C15", "proved", "C15_total C15_accepts")
S("C16", "proved", "C16_encaps_exception_state C16_all_or_nothing_violated C16_response_exception_state C16_response_all_or_nothing_violated")
S("C17", "proved", "C17_independent C17_order_irrelevant")
S("C18", "proved", "C18_accumulate C18_last_write_wins_violated")
S("C19", "proved", "C19_forwardOpen C19_largeForwardOpen C19_forwardClose")
S("C20", "proved", "C20_accepts C20_classification")
S("C69", "proved", "C69_chain C69_chained_settings_lost")
S("C70", "proved", "C70_constants_agree C70_large_is_shifted C70_transport")
S("C21", "proved", "C21_receive C21_same_stream")
S("C22", "proved", "C22_in_step")
S("C23", "proved", "C23_only_success")
S("C24", "proved", "C24_receive_short C24_truncated_accepted")
S("C25", "proved", "C25_register C25_handle_enforced C25_registered_violated",
  "That requests carry the handle is part of C27_request, whose frame contains it.")
S("C26", "proved", "C26_send C26_reports_failure_violated C26_udp_send")
S("C27", "proved", "C27_request C27_history")
S("C28", "proved", "C28_returns C28_malformed")
S("C71", "proved", "C71_destructor C71_never_terminates_violated")
S("C72", "proved", "C72_late_reply")
S("C35", "proved", "C35_fixed_size C35_wrong_size_ignored C35_manager")
S("C36", "proved", "C36_decode C36_own_layout C36_both_mixed C36_own_layout_violated C36_short")
S("C37", "proved", "C37_C50_transmission C37_C50_manager C37_sends")
S("C38", "proved", "C38_never_faster C38_manager")
S("C39", "proved", "C39_starved C39_bounded_loss C39_manager")
S("C40", "proved", "C40_timeout C40_timeout_codes C40_multiplier_zero C40_overflow_violated C40_gap_violated C40_manager")
S("C50", "proved", "C37_C50_transmission C37_C50_manager")
S("C29", "proved", "C29_request C29_large_request C29_fits C29_carry_violated")
S("C30", "proved", "C30_serial C30_distinct C30_overflow")
S("C31", "proved", "C31_p2p C31_multicast C31_first")
S("C32", "proved", "C32_table C32_hasOpen")
S("C33", "proved", "C33_accepted C33_refused C33_destination C33_multiplier C33_collision_violated")
S("C41", "proved", "C41_only_handle C41_closed_iff_removed C41_silent_after_removal C41_at_most_once C41_closed_twice_violated",
  "At most once holds when every sendto transmits the whole datagram or fails with -1 and no send or close listener throws; C84_close_runs bounds the number of runs without these assumptions.")
S("C42", "proved", "C42_close C42_close_throws C42_expired C42_expired_iff C42_stale C42_removes_other_violated C42_aborts_violated")
S("C43", "proved", "C43_one_socket")
S("C44", "proved", "C44_partial_order C44_equivalent_iff C44_not_weak_order_violated C44_inconsistent_with_eq_violated")
S("C45", "proved", "C45_needs_socket")
S("C48", "proved", "C48_interval C48_all_waits")
S("C49", "proved", "C49_waits C49_quiet C49_late_violated")
S("C51", "proved", "C51_isolated C51_frame")
S("C34", "proved", "C34_routes C34_right_connection C34_misdelivered_violated")
S("C46", "proved", "C46_outcome C46_exception_state C46_ub C46_robust_violated")
S("C47", "proved", "C47_zeros C47_cut C47_invented C47_invented_violated")
S("C52", "proved", "C52_discovers C52_wellformed")
S("C53", "proved", "C53_only_would_block C53_error C53_rejected C53_short_violated C53_no_socket C53_short_send",
  "Read with C52_discovers, C53_only_would_block is an equivalence.  Without an out-of-bounds trap a short item is reported with whatever bytes lie behind it.")
S("C54", "proved", "C54_request C54_read C54_failed C54_short_violated")
S("C55", "proved", "C55_requests C55_reads C55_sound C55_shifted_violated")
S("C56", "proved", "C56_formula C56_inverse C56_inverse_back C56_monotone C56_monotone_back",
  "double is modelled by rationals with a rounding function; C105 has infinities and NaN.")
S("C57", "proved", "C57_overflow_violated")
S("C58", "proved", "C58_request C58_updates C58_refused C58_short_violated C58_no_router_violated C58_router")
S("C73", "proved", "C73_values C73_set_get C73_set")
S("C74", "proved", "C74_reads C74_short_violated")
S("C59", "proved", "C59_upload C59_chunks")
S("C60", "proved", "C60_content C60_two_last_violated",
  "For the first call of the handler exactly one of the packets is a last packet.")
S("C61", "proved", "C61_one_call C61_count C61_error_violated C61_after_completion_violated")
S("C62", "proved", "C62_create C62_begin C62_begin_other C62_transfer_other C62_empty_violated")
S("C75", "proved", "C75_malformed")
S("C63", "proved", "C63_listing C63_sound C63_throws C63_number C63_command")
S("C64", "proved", "C64_known C64_unknown C64_violated")
S("C65", "proved", "C65_read C65_failed C65_short_violated")
S("C66", "proved", "C66_layout C66_request C66_router C66_expand C66_roundtrip C66_eq C66_text C66_cut_violated")
S("C76", "proved", "C76_drive C76_twice")
S("C67", "proved", "C67_history C67_aborts C67_total C67_off C67_fatal_violated",
  "How values are formatted as text is not modelled.")
S("C68", "proved", "C68_outcome C68_connected C68_closes C68_destroy C68_calls C68_leak_violated C68_eintr_violated C68_fdset_violated")
S("C77", "proved", "C77_failed C77_made C77_life")
S("C78", "proved", "C78_isolated C78_table C78_ticked_once C78_all_ticked C78_removed C78_closed_removed C78_silent_after_removal C78_closed_once C78_transmission C78_never_faster C78_timeout C78_conservative C78_self_close C78_harmless C78_harmless_receiving C78_close_in_close_listener_violated C78_close_in_send_listener_violated C78_handle_in_close_listener_violated C78_reopen_in_close_listener_violated C78_new_connection_removed_violated C78_out_of_order_violated",
  "The listeners may throw after their calls. A send or close listener that closes its own connection is undefined whether or not it throws.")
S("C79", "proved", "C79_answer C79_grants C79_identity C79_parameter C79_update C79_faults C79_upload")
S("C80", "proved", "C80_path_eq C80_path_equivalence C80_path_text C80_endpoint_equivalence C80_endpoint_host C80_endpoint_address C80_endpoint_spelling_violated C80_endpoint_port_violated")
S("C81", "proved", "C81_silent_closed C81_loop_ends C81_fed_open C81_all_kept")
S("C82", "proved", "C82_open_at_target C82_agree C82_orphan_stays C82_failed_open C82_weak_pointers C82_orphan_violated C82_collision_violated C82_timeout_violated",
  "The target is a specification; requests or replies lost on the way are excluded.")

S("C83", "proved", "C83_history C83_bytes C83_replies C83_readable C83_life",
  "The system accepts every send in full; requests fit a frame (connection paths of less than about 65000 bytes).")

S("C84", "proved", "C84_exception C84_listener_ends_call C84_receive C84_nothing_sent C84_close_runs C84_starves C84_dead_again C84_closed_twice_violated C84_removal_lost_violated C84_revived_violated C84_starved_violated")

S("C85", "proved", "C85_descriptors C85_count C85_failed_open C85_nothing_left C85_destroyed C85_refines C85_sends C85_own C85_bind",
  "The system never returns a descriptor that is open; nothing else closes a descriptor of the library.")
S("C86", "proved", "C86_defined C86_other_operations C86_watched C86_posix C86_full_violated")
S("C87", "proved", "C87_refines C87_calls C87_descriptor C87_returns C87_when C87_bounded_violated C87_forever_violated",
  "SO_RCVTIMEO is modelled as the manual describes it.")
S("C88", "proved", "C88_refines C88_in_time C88_gives_up C88_bounded C88_within_timeout_violated C88_forever_violated",
  "SO_RCVTIMEO is modelled as the manual describes it; only waiting takes time. The user's expectation is refuted by the theorems named _violated.")
S("C89", "proved", "C89_in_time C89_own_reply_violated",
  "The user's expectation is refuted by C89_own_reply_violated, for every history of that form.")
S("C90", "proved", "C90_request_same C90_identity C90_parameter C90_update C90_file C90_file_begin C90_file_step C90_fault C90_faults C90_fault_object",
  "Reads after the end of a vector return some byte (Mem.Lenient); otherwise they are undefined behaviour (C03).")
S("C91", "proved", "C91_identity_silent C91_parameter_silent C91_update_silent C91_upload_silent C91_faults_silent C91_own_value_violated C91_upload_goes_on_violated",
  "The user's expectation is refuted by the theorems named _violated.")
S("C92", "proved", "C92_packet C92_item C92_item_violated C92_revision",
  "The bound on items is needed: C92_item_violated.")
S("C93", "proved", "C93_time C93_one_request C93_same C93_open_silent C93_close_silent C93_own_connection_violated",
  "The user's expectation is refuted by C93_own_connection_violated. Time spent in handleConnections is the subject of C48 and C49.")
S("C94", "proved", "C94_receives C94_time C94_loop C94_sends C94_starved_violated",
  "The user's expectation for every timeout is refuted by C94_starved_violated. The system's select is taken to be exact.")
S("C95", "proved", "C95_undefined_iff C95_asserts_iff C95_proper",
  "Stray reads of vectors count as undefined behaviour (Mem.strict). Listeners that call the manager are the subject of C78.")
S("C96", "proved", "C96_explicit C96_file C96_file_content C96_file_forever_violated C96_file_silent_violated C96_file_refused_violated C96_parameters_none C96_parameters C96_parameters_small_violated C96_parameters_class C96_parameters_sound",
  "Log output other than the lines about the answers, and the C++ runtime around main, are not modelled.")
S("C97", "proved", "C97_program C97_uncaught_violated C97_defined C97_request C97_sends",
  "The expectation that the program always closes what it opened is refuted by C97_uncaught_violated.")
S("C98", "proved", "C98_refines C98_others C98_numbers C98_distinct C98_destroy C98_silent C98_own_close C98_foreign C98_incarnation_violated C98_foreign_close_violated",
  "The user's expectations are refuted by the theorems named _violated. All managers are used by one thread.")
S("C99", "proved", "C99_parameter C99_limit C99_limit_kept C99_fresh C99_number_violated C99_identity",
  "The user's expectation about getParameter() is refuted by C99_number_violated. Limits of type float and double are in C105.")
S("C100", "proved", "C100_locked C100_order C100_requests C100_gives C100_handle C100_late C100_swapped_violated C100_torn_violated C100_late_violated C100_half_violated",
  "The expectation without a lock, or with timeouts, is refuted by the theorems named _violated. C100_locked is for schedules without timeouts, C100_late for those with timeouts between replies; each system call is atomic and send takes the whole packet.")
S("C101", "proved", "C101_order C101_one_opener C101_opens_violated",
  "That the order of opens does not matter is refuted by C101_opens_violated. Calls are atomic: calls that run at the same time are not covered. The replies and datagrams each call gets are part of the call.")
S("C102", "proved", "C102_code C102_stays C102_sync C102_uploads C102_again_violated",
  "The expectation about a second beginUpload is refuted by C102_again_violated. Handlers return and do not use the object; C106 has handlers that do.")
S("C103", "proved", "C103_fill C103_read C103_write C103_yaskawa C103_yaskawa_throws C103_short_violated C103_whole C103_identity C103_discovery C103_discovery_ends",
  "The expectation about short replies is refuted by C103_short_violated. Log lines are the values streamed, not their text. The main under #if 0 is not modelled.")
S("C104", "proved", "C104_nearest C104_tie C104_rounding C104_error C104_accuracy C104_limit C104_exact C104_range C104_off_by_one_violated C104_wide_violated",
  "The expectation about limits is refuted by C104_off_by_one_violated and C104_wide_violated. Exponents of the model are unbounded, which C104_range shows to make no difference. No contraction of operations and no extended precision (x87) is assumed.")

S("C105", "proved", "C105_double C105_float C105_get C105_set C105_real_bits C105_lreal_bits C105_real_same C105_lreal_same C105_real C105_lreal C105_special C105_set_lreal C105_set_real C105_monotone C105_sane C105_drive C105_divisor_zero_violated C105_multiplier_zero_violated C105_set_infinite_violated C105_lreal_overflow_violated",
  "The expectation is refuted by C105_divisor_zero_violated, C105_multiplier_zero_violated and C105_set_infinite_violated. The sign of zero and the payload of NaN are not kept; a double too large for float becomes infinite (IEEE 754; the C++ standard leaves it open).")
S("C106", "proved", "C106_transfer C106_begin C106_transfer_done C106_look C106_careful C106_careful_calls C106_restart C106_raise C106_begin_raise C106_drop C106_gone_violated C106_after_sync_violated C106_begin_again_violated C106_nested_violated",
  "The expectations are refuted by C106_after_sync_violated, C106_nested_violated, C106_begin_again_violated and C106_drop. Handlers do not catch exceptions of the calls they make. Destroying a std::function while it runs is taken as defined as long as nothing of it is used afterwards.")
S("C107", "proved", "C107_locked C107_distinct C107_one_thread C107_race_violated C107_same_numbers_violated C107_repeated_violated",
  "The expectation is refuted by the theorems named _violated. After a request the rest of a call uses no shared state. The initialisation of a static counter is atomic (C++11).")

S("C108", "proved", "C108_reads C108_none_lost C108_sender C108_stranger_violated C108_shared_port_violated",
  "The expectations are refuted by the theorems named _violated. To which socket of a port the system gives a datagram is arbitrary in the model. Errors of recvfrom are in C34, not here.")

S("C109", "proved", "C109_ids C109_request C109_additional C109_status_character C109_status_violated C109_close_violated C109_file C109_file_violated C109_refused C109_opened C109_opened_violated C109_closed C109_tick C109_recv C109_drop C109_console C109_sockets",
  "The expectations are refuted by the theorems named _violated. That a value of an enumeration over an 8-bit type is streamed as a character is the behaviour of the C++ library. The messages of file objects in their histories are C125.")

S("C110", "proved", "C110_hosts C110_dotted C110_round C110_name_violated C110_padded_violated",
  "The expectations are refuted by the theorems named _violated. inet_aton is not in the repository: the model follows the documented behaviour of the GNU C library and is part of the trusted base of this property alone. The Windows branch (inet_pton) is not modelled.")

S("C111", "proved", "C111_defined C111_kept C111_locked C111_in_turn C111_mixed_violated C111_race_violated C111_destroyed_violated",
  "The expectations are refuted by the theorems named _violated. That concurrent use of std::cout is no data race but may interleave characters is what the C++ standard says. An appender of the user is taken to be safe for concurrent calls.")

S("C112", "proved", "C112_order C112_reply C112_length_violated",
  "The expectation is refuted by the theorem named _violated. A call on an empty queue waits and the program goes no further. Failures of sendto are in C26; the reply by host and port uses the model of inet_aton of C110.")

S("C113", "proved", "C113_defined C113_self_violated C113_refines C113_latest C113_data C113_empty_violated",
  "The expectations are refuted by the theorems named _violated. Functions of the user that call the manager are in C78; moved or shared captures that survive the function are not in the model, which takes everything captured as destroyed with it.")

S("C114", "proved", "C114_objects C114_own C114_pointers C114_handler C114_destroy C114_destroyed_violated C114_deaf_violated C114_close_violated C114_twice_violated C114_assign C114_swap_violated",
  "The expectations are refuted by the theorems named _violated.")
S("C115", "proved", "C115_own C115_wire C115_destroy C115_stale_violated C115_vector_violated C115_next_violated C115_file_violated",
  "The expectations are refuted by the theorems named _violated. Assignment of sessions is C118.")

S("C116", "proved", "C116_as_arrived C116_number_ignored C116_filter C116_order_violated C116_filter_violated C116_replay_violated",
  "The expectations are refuted by the theorems named _violated. Datagrams of a target are in the layout that the scanner reads (C36); calls of handleConnections return normally and the connection stays open (C46 and C81 say when).")

S("C117", "proved", "C117_little C117_system C117_roundtrip C117_written C117_read C117_big_violated C117_bsd_violated C117_bsd_any_violated",
  "The expectations are refuted by the theorems named _violated. All other numbers are put in buffers by shifts of their values, which do not depend on the host; that is read off the code and not proved.")

S("C118", "proved", "C118_follows C118_same C118_leak_violated C118_reconnect_violated",
  "The expectations are refuted by the theorems named _violated. That the old connection leaks when one connects again is C118_leak_violated for the history that ends with the new session.")

S("C119", "proved", "C119_packet C119_reply C119_taken C119_io C119_transfer C119_discovery C119_upload_violated C119_discovery_violated",
  "The expectations are refuted by the theorems named _violated. Sizes are those of the data that the objects hold and hand over; what the allocator adds is not modelled.")

S("C120", "proved", "C120_plenty C120_request C120_in_step C120_router C120_begin C120_file C120_sync C120_create_plenty C120_file_plenty C120_retry C120_step_violated C120_header_violated C120_destroy_violated C120_destroy_file_violated C120_file_violated",
  "The expectations are refuted by the theorems named _violated. The log is taken to be off. Allocations with nothing but local effects between them are one place.")

S("C121", "proved", "C121_or_same C121_keeps C121_table C121_open C121_nothing C121_lost C121_unsent C121_isolated C121_numbers C121_forward C121_apart_violated C121_closed_twice_violated C121_orphan_violated",
  "The expectations are refuted by the theorems named _violated. The log is taken to be off; listeners do not call the manager. A failure inside of the message router or of a listener is an exception of it, as in C84 and C120.")

S("C122", "proved", "C122_devices C122_objects C122_update C122_faults C122_kept C122_retry C122_discover C122_yaskawa C122_once_violated C122_found_violated",
  "The expectations are refuted by the theorems named _violated. The log is taken to be off. Allocations with nothing but local effects between them are one place.")

S("C123", "proved", "C123_messages C123_plenty C123_hidden C123_prefix C123_survives C123_request C123_end_violated C123_first_violated C123_number_violated C123_request_violated",
  "The expectations are refuted by the theorems named _violated. That a stream which finds no memory sets its bad bit and does not throw, and that a string of up to 15 characters needs no memory, are the behaviour of the GNU C++ library.")

S("C124", "proved", "C124_levels C124_receive C124_discover C124_transparent C124_short_send C124_notes C124_tcp C124_lost_violated C124_hidden_violated",
  "The expectations are refuted by the theorems named _violated. Appenders do not throw here (C67 has those that do) and do not call the library.")

S("C125", "proved", "C125_same C125_states C125_balanced C125_failed C125_requests C125_failures C125_ignored C125_resync C125_packets C125_again_violated C125_loaded_violated C125_thrown_violated C125_status_violated",
  "The expectations are refuted by the theorems named _violated. The number of the file that the text of one exception has is not modelled.")

S("C126","proved","C126_open C126_has C126_levels C126_levels_violated C126_opened_violated C126_closed_violated C126_timedOut_violated C126_serial_violated",
"Holds for histories without repeated serial numbers in which no call throws after such a message; the `_violated` theorems show that each of these conditions is needed, with the manager's actual state beside what the reader takes it to be.")

S("C127","proved","C127_locked C127_whole C127_norace C127_bytes C127_race_violated C127_torn_violated C127_moved_violated",
"Holds under a lock of the program; the `_violated` theorems show what happens without. Any change of the size counts as a move of the bytes. C127_bytes takes reads and writes of bytes to be atomic, which C++ does not promise in a race.")

S("C128","proved","C128_handle C128_connect C128_destroy C128_no_socket C128_bound C128_interval C128_limit C128_limit_same C128_discover C128_discover_same C128_handle_same C128_served C128_message C128_no_message C128_timeout_violated C128_handle_violated C128_bound_violated C128_interval_violated C128_long_violated C128_stranger_violated C128_many_violated",
"Holds under the conditions in the statement; the `_violated` theorems show what happens without them. What Winsock does is taken from its documentation and is part of the trusted base. inet_pton is not modelled.")

S("C129","proved","C129_locked C129_norace C129_race_violated C129_dangling_violated C129_abort_violated C129_wrong_violated",
"Holds under a lock of the program; the `_violated` theorems show what happens without. The accesses of the table are single steps; sockets, received data and the contents of a connection are left out.")

S("C130","proved","C130_alive C130_exact C130_descriptors C130_same C130_killed_violated C130_unreported_violated C130_leak_violated",
"Holds where the system defines one of the macros; the `_violated` theorems show what happens otherwise. What the system does on a broken pipe is taken from its documentation. Failures of fcntl are in C68.")
