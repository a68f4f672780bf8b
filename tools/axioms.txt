'Verif.Props.C01_typed_roundtrip' depends on axioms: [propext, Classical.choice, Quot.sound]
'Verif.Props.C01_queue' depends on axioms: [propext, Classical.choice, Quot.sound]
'Verif.Props.C02_little_endian' depends on axioms: [propext]
'Verif.Props.C02_injective' depends on axioms: [propext, Classical.choice, Quot.sound]
'Verif.Props.C03_read_defined_iff' depends on axioms: [propext, Classical.choice, Quot.sound]
'Verif.Props.C03_isValid_never_false' depends on axioms: [propext, Classical.choice, Quot.sound]
'Verif.Props.C04_short_string_roundtrip_iff' depends on axioms: [propext, Quot.sound]
'Verif.Props.C04_long_string_roundtrip_iff' depends on axioms: [propext, Classical.choice, Quot.sound]
'Verif.Props.C04_written_bytes' depends on axioms: [propext]
'Verif.Props.C05_network_byte_order' depends on axioms: [propext, Classical.choice, Quot.sound]
'Verif.Props.C05_roundtrip' depends on axioms: [propext, Classical.choice, Quot.sound]
'Verif.Props.C06_layout' depends on axioms: [propext]
'Verif.Props.C06_roundtrip_iff' depends on axioms: [propext, Classical.choice, Quot.sound]
'Verif.Props.C06_oversized_rejected' depends on axioms: [propext, Classical.choice, Quot.sound]
'Verif.Props.C07_total' depends on axioms: [propext, Classical.choice, Quot.sound]
'Verif.Props.C08_layout' depends on axioms: [propext, Quot.sound]
'Verif.Props.C08_roundtrip' depends on axioms: [propext, Classical.choice, Quot.sound]
'Verif.Props.C08_item_view' does not depend on any axioms
'Verif.Props.C08_truncated' depends on axioms: [propext, Quot.sound]
'Verif.Props.C08_oversized_item_loses_data' depends on axioms: [propext]
'Verif.Props.C08_too_many_items_lost' depends on axioms: [propext, Classical.choice, Quot.sound]
'Verif.Props.C09_classification' depends on axioms: [propext, Classical.choice, Quot.sound]
'Verif.Props.C09_no_count' depends on axioms: [propext, Classical.choice, Quot.sound]
'Verif.Props.C09_never_throws_strict' depends on axioms: [propext, Classical.choice, Quot.sound]
'Verif.Props.C10_registerSession' depends on axioms: [propext]
'Verif.Props.C10_unRegisterSession' depends on axioms: [propext]
'Verif.Props.C10_sendRRData' depends on axioms: [propext, Quot.sound]
'Verif.Props.C10_listIdentity' depends on axioms: [propext]
'Verif.Props.C11_layout' depends on axioms: [propext, Quot.sound]
'Verif.Props.C11_size' depends on axioms: [propext, Quot.sound]
'Verif.Props.C11_default_path_violated' depends on axioms: [propext]
'Verif.Props.C12_roundtrip_iff' depends on axioms: [propext, Classical.choice, Quot.sound]
'Verif.Props.C12_class_level_lost' depends on axioms: [propext, Classical.choice, Quot.sound]
'Verif.Props.C13_classification' depends on axioms: [propext, Classical.choice, Quot.sound]
'Verif.Props.C13_accepts' depends on axioms: [propext, Classical.choice, Quot.sound]
'Verif.Props.C13_unknown' depends on axioms: [propext, Classical.choice, Quot.sound]
'Verif.Props.C14_layout' depends on axioms: [propext, Quot.sound]
'Verif.Props.C14_decode' depends on axioms: [propext, Quot.sound]
'Verif.Props.C14_injective' depends on axioms: [propext, Classical.choice, Quot.sound]
'Verif.Props.C14_wide_id_aliases' depends on axioms: [propext]
'Verif.Props.C15_total' depends on axioms: [propext, Classical.choice, Quot.sound]
'Verif.Props.C15_accepts' depends on axioms: [propext, Classical.choice, Quot.sound]
'Verif.Props.C16_encaps_exception_state' depends on axioms: [propext, Classical.choice, Quot.sound]
'Verif.Props.C16_all_or_nothing_violated' depends on axioms: [propext]
'Verif.Props.C16_response_exception_state' depends on axioms: [propext, Classical.choice, Quot.sound]
'Verif.Props.C16_response_all_or_nothing_violated' depends on axioms: [propext, Classical.choice, Quot.sound]
'Verif.Props.C17_independent' depends on axioms: [propext, Classical.choice, Quot.sound]
'Verif.Props.C17_order_irrelevant' depends on axioms: [propext, Quot.sound]
'Verif.Props.C18_accumulate' depends on axioms: [propext, Classical.choice, Quot.sound]
'Verif.Props.C18_last_write_wins_violated' depends on axioms: [propext, Quot.sound]
'Verif.Props.C19_forwardOpen' depends on axioms: [propext, Classical.choice, Quot.sound]
'Verif.Props.C19_largeForwardOpen' depends on axioms: [propext, Classical.choice, Quot.sound]
'Verif.Props.C19_forwardClose' depends on axioms: [propext, Classical.choice, Quot.sound]
'Verif.Props.C20_accepts' depends on axioms: [propext, Classical.choice, Quot.sound]
'Verif.Props.C20_classification' depends on axioms: [propext, Classical.choice, Quot.sound]
'Verif.Props.C21_receive' depends on axioms: [propext, Classical.choice, Quot.sound]
'Verif.Props.C21_same_stream' depends on axioms: [propext, Classical.choice, Quot.sound]
'Verif.Props.C22_in_step' depends on axioms: [propext, Classical.choice, Quot.sound]
'Verif.Props.C23_only_success' depends on axioms: [propext, Classical.choice, Quot.sound]
'Verif.Props.C24_receive_short' depends on axioms: [propext, Quot.sound]
'Verif.Props.C24_truncated_accepted' depends on axioms: [propext, Classical.choice, Quot.sound]
'Verif.Props.C25_register' depends on axioms: [propext, Classical.choice, Quot.sound]
'Verif.Props.C25_handle_enforced' depends on axioms: [propext, Classical.choice, Quot.sound]
'Verif.Props.C25_registered_violated' depends on axioms: [propext]
'Verif.Props.C26_send' depends on axioms: [propext, Classical.choice, Quot.sound]
'Verif.Props.C26_reports_failure_violated' depends on axioms: [propext]
'Verif.Props.C26_udp_send' depends on axioms: [propext, Classical.choice, Quot.sound]
'Verif.Props.C27_request' depends on axioms: [propext, Classical.choice, Quot.sound]
'Verif.Props.C27_history' depends on axioms: [propext, Classical.choice, Quot.sound]
'Verif.Props.C28_returns' depends on axioms: [propext, Classical.choice, Quot.sound]
'Verif.Props.C28_malformed' depends on axioms: [propext, Classical.choice, Quot.sound]
'Verif.Props.C29_request' depends on axioms: [propext, Classical.choice, Quot.sound]
'Verif.Props.C29_large_request' depends on axioms: [propext, Classical.choice, Quot.sound]
'Verif.Props.C29_fits' depends on axioms: [propext, Classical.choice, Quot.sound]
'Verif.Props.C29_carry_violated' does not depend on any axioms
'Verif.Props.C30_serial' depends on axioms: [propext, Classical.choice, Quot.sound]
'Verif.Props.C30_distinct' depends on axioms: [propext, Classical.choice, Quot.sound]
'Verif.Props.C30_overflow' depends on axioms: [propext, Classical.choice, Quot.sound]
'Verif.Props.C31_p2p' depends on axioms: [propext, Classical.choice, Quot.sound]
'Verif.Props.C31_multicast' depends on axioms: [propext, Classical.choice, Quot.sound]
'Verif.Props.C31_first' depends on axioms: [propext, Classical.choice, Quot.sound]
'Verif.Props.C32_table' depends on axioms: [propext, Classical.choice, Quot.sound]
'Verif.Props.C32_hasOpen' depends on axioms: [propext, Classical.choice, Quot.sound]
'Verif.Props.C33_accepted' depends on axioms: [propext, Classical.choice, Quot.sound]
'Verif.Props.C33_refused' depends on axioms: [propext, Classical.choice, Quot.sound]
'Verif.Props.C33_destination' depends on axioms: [propext, Classical.choice, Quot.sound]
'Verif.Props.C33_multiplier' depends on axioms: [propext, Quot.sound]
'Verif.Props.C33_collision_violated' depends on axioms: [propext, Classical.choice, Quot.sound]
'Verif.Props.C34_routes' depends on axioms: [propext, Classical.choice, Quot.sound]
'Verif.Props.C34_right_connection' depends on axioms: [propext, Classical.choice, Quot.sound]
'Verif.Props.C34_misdelivered_violated' depends on axioms: [propext, Classical.choice, Quot.sound]
'Verif.Props.C35_fixed_size' depends on axioms: [propext, Classical.choice, Quot.sound]
'Verif.Props.C35_wrong_size_ignored' depends on axioms: [propext, Classical.choice, Quot.sound]
'Verif.Props.C35_manager' depends on axioms: [propext, Classical.choice, Quot.sound]
'Verif.Props.C36_decode' depends on axioms: [propext, Classical.choice, Quot.sound]
'Verif.Props.C36_own_layout' depends on axioms: [propext, Classical.choice, Quot.sound]
'Verif.Props.C36_both_mixed' depends on axioms: [propext, Classical.choice, Quot.sound]
'Verif.Props.C36_own_layout_violated' depends on axioms: [propext, Quot.sound]
'Verif.Props.C36_short' depends on axioms: [propext, Classical.choice, Quot.sound]
'Verif.Props.C37_C50_transmission' depends on axioms: [propext, Classical.choice, Quot.sound]
'Verif.Props.C37_C50_manager' depends on axioms: [propext, Classical.choice, Quot.sound]
'Verif.Props.C37_sends' depends on axioms: [propext, Classical.choice, Quot.sound]
'Verif.Props.C38_never_faster' depends on axioms: [propext, Classical.choice, Quot.sound]
'Verif.Props.C38_manager' depends on axioms: [propext, Classical.choice, Quot.sound]
'Verif.Props.C39_starved' depends on axioms: [propext, Classical.choice, Quot.sound]
'Verif.Props.C39_bounded_loss' depends on axioms: [propext, Classical.choice, Quot.sound]
'Verif.Props.C39_manager' depends on axioms: [propext, Classical.choice, Quot.sound]
'Verif.Props.C40_timeout' depends on axioms: [propext, Classical.choice, Quot.sound]
'Verif.Props.C40_timeout_codes' depends on axioms: [propext, Classical.choice, Quot.sound]
'Verif.Props.C40_multiplier_zero' depends on axioms: [propext, Classical.choice, Quot.sound]
'Verif.Props.C40_overflow_violated' depends on axioms: [propext, Quot.sound]
'Verif.Props.C40_gap_violated' depends on axioms: [propext, Quot.sound]
'Verif.Props.C40_manager' depends on axioms: [propext, Classical.choice, Quot.sound]
'Verif.Props.C41_only_handle' depends on axioms: [propext, Classical.choice, Quot.sound]
'Verif.Props.C41_closed_iff_removed' depends on axioms: [propext, Classical.choice, Quot.sound]
'Verif.Props.C41_silent_after_removal' depends on axioms: [propext, Classical.choice, Quot.sound]
'Verif.Props.C41_at_most_once' depends on axioms: [propext, Classical.choice, Quot.sound]
'Verif.Props.C41_closed_twice_violated' depends on axioms: [propext, Classical.choice, Quot.sound]
'Verif.Props.C42_close' depends on axioms: [propext, Classical.choice, Quot.sound]
'Verif.Props.C42_close_throws' depends on axioms: [propext, Classical.choice, Quot.sound]
'Verif.Props.C42_expired' depends on axioms: [propext, Classical.choice, Quot.sound]
'Verif.Props.C42_expired_iff' depends on axioms: [propext, Classical.choice, Quot.sound]
'Verif.Props.C42_stale' depends on axioms: [propext, Classical.choice, Quot.sound]
'Verif.Props.C42_removes_other_violated' depends on axioms: [propext, Classical.choice, Quot.sound]
'Verif.Props.C42_aborts_violated' depends on axioms: [propext, Classical.choice, Quot.sound]
'Verif.Props.C43_one_socket' depends on axioms: [propext, Classical.choice, Quot.sound]
'Verif.Props.C44_partial_order' depends on axioms: [propext, Classical.choice, Quot.sound]
'Verif.Props.C44_equivalent_iff' depends on axioms: [propext, Classical.choice, Quot.sound]
'Verif.Props.C44_not_weak_order_violated' depends on axioms: [propext, Classical.choice, Quot.sound]
'Verif.Props.C44_inconsistent_with_eq_violated' depends on axioms: [propext, Classical.choice, Quot.sound]
'Verif.Props.C45_needs_socket' depends on axioms: [propext, Classical.choice, Quot.sound]
'Verif.Props.C46_outcome' depends on axioms: [propext, Classical.choice, Quot.sound]
'Verif.Props.C46_exception_state' depends on axioms: [propext, Classical.choice, Quot.sound]
'Verif.Props.C46_ub' depends on axioms: [propext, Classical.choice, Quot.sound]
'Verif.Props.C46_robust_violated' depends on axioms: [propext, Classical.choice, Quot.sound]
'Verif.Props.C47_zeros' depends on axioms: [propext, Quot.sound]
'Verif.Props.C47_cut' depends on axioms: [propext, Quot.sound]
'Verif.Props.C47_invented' depends on axioms: [propext, Classical.choice, Quot.sound]
'Verif.Props.C47_invented_violated' depends on axioms: [propext, Classical.choice, Quot.sound]
'Verif.Props.C48_interval' depends on axioms: [propext, Classical.choice, Quot.sound]
'Verif.Props.C48_all_waits' depends on axioms: [propext, Classical.choice, Quot.sound]
'Verif.Props.C49_waits' depends on axioms: [propext, Classical.choice, Quot.sound]
'Verif.Props.C49_quiet' depends on axioms: [propext, Classical.choice, Quot.sound]
'Verif.Props.C49_late_violated' depends on axioms: [propext, Classical.choice, Quot.sound]
'Verif.Props.C51_isolated' depends on axioms: [propext, Classical.choice, Quot.sound]
'Verif.Props.C51_frame' depends on axioms: [propext, Classical.choice, Quot.sound]
'Verif.Props.C52_discovers' depends on axioms: [propext, Classical.choice, Quot.sound]
'Verif.Props.C52_wellformed' depends on axioms: [propext, Quot.sound]
'Verif.Props.C53_only_would_block' depends on axioms: [propext, Classical.choice, Quot.sound]
'Verif.Props.C53_error' depends on axioms: [propext, Classical.choice, Quot.sound]
'Verif.Props.C53_rejected' depends on axioms: [propext, Classical.choice, Quot.sound]
'Verif.Props.C53_short_violated' depends on axioms: [propext, Classical.choice, Quot.sound]
'Verif.Props.C53_no_socket' depends on axioms: [propext, Quot.sound]
'Verif.Props.C53_short_send' depends on axioms: [propext, Quot.sound]
'Verif.Props.C54_request' depends on axioms: [propext]
'Verif.Props.C54_read' depends on axioms: [propext, Classical.choice, Quot.sound]
'Verif.Props.C54_failed' depends on axioms: [propext]
'Verif.Props.C54_short_violated' depends on axioms: [propext, Classical.choice, Quot.sound]
'Verif.Props.C55_requests' depends on axioms: [propext, Quot.sound]
'Verif.Props.C55_reads' depends on axioms: [propext, Classical.choice, Quot.sound]
'Verif.Props.C55_sound' depends on axioms: [propext, Classical.choice, Quot.sound]
'Verif.Props.C55_shifted_violated' depends on axioms: [propext, Quot.sound]
'Verif.Props.C56_formula' depends on axioms: [propext, Classical.choice, Quot.sound]
'Verif.Props.C56_inverse' depends on axioms: [propext, Classical.choice, Quot.sound]
'Verif.Props.C56_inverse_back' depends on axioms: [propext, Classical.choice, Quot.sound]
'Verif.Props.C56_monotone' depends on axioms: [propext, Classical.choice, Quot.sound]
'Verif.Props.C56_monotone_back' depends on axioms: [propext, Classical.choice, Quot.sound]
'Verif.Props.C57_overflow_violated' depends on axioms: [propext, Classical.choice, Quot.sound]
'Verif.Props.C58_request' depends on axioms: [propext, Quot.sound]
'Verif.Props.C58_updates' depends on axioms: [propext, Quot.sound]
'Verif.Props.C58_refused' depends on axioms: [propext, Quot.sound]
'Verif.Props.C58_short_violated' depends on axioms: [propext, Classical.choice, Quot.sound]
'Verif.Props.C58_no_router_violated' depends on axioms: [propext]
'Verif.Props.C58_router' depends on axioms: [propext, Quot.sound]
'Verif.Props.C59_upload' depends on axioms: [propext, Classical.choice, Quot.sound]
'Verif.Props.C59_chunks' depends on axioms: [propext, Quot.sound]
'Verif.Props.C60_content' depends on axioms: [propext, Classical.choice, Quot.sound]
'Verif.Props.C60_two_last_violated' depends on axioms: [propext]
'Verif.Props.C61_one_call' depends on axioms: [propext]
'Verif.Props.C61_count' depends on axioms: [propext, Quot.sound]
'Verif.Props.C61_error_violated' depends on axioms: [propext]
'Verif.Props.C61_after_completion_violated' depends on axioms: [propext]
'Verif.Props.C62_create' depends on axioms: [propext, Quot.sound]
'Verif.Props.C62_begin' depends on axioms: [propext, Classical.choice, Quot.sound]
'Verif.Props.C62_begin_other' depends on axioms: [propext]
'Verif.Props.C62_transfer_other' depends on axioms: [propext]
'Verif.Props.C62_empty_violated' depends on axioms: [propext]
'Verif.Props.C63_listing' depends on axioms: [propext, Classical.choice, Quot.sound]
'Verif.Props.C63_sound' depends on axioms: [propext, Classical.choice, Quot.sound]
'Verif.Props.C63_throws' depends on axioms: [propext, Classical.choice, Quot.sound]
'Verif.Props.C63_number' depends on axioms: [propext, Classical.choice, Quot.sound]
'Verif.Props.C63_command' does not depend on any axioms
'Verif.Props.C64_known' depends on axioms: [propext, Classical.choice, Quot.sound]
'Verif.Props.C64_unknown' depends on axioms: [propext, Classical.choice, Quot.sound]
'Verif.Props.C64_violated' depends on axioms: [propext, Classical.choice, Quot.sound]
'Verif.Props.C65_read' depends on axioms: [propext, Classical.choice, Quot.sound]
'Verif.Props.C65_failed' depends on axioms: [propext, Quot.sound]
'Verif.Props.C65_short_violated' depends on axioms: [propext, Classical.choice, Quot.sound]
'Verif.Props.C66_layout' depends on axioms: [propext, Quot.sound]
'Verif.Props.C66_request' depends on axioms: [propext, Quot.sound]
'Verif.Props.C66_router' depends on axioms: [propext, Quot.sound]
'Verif.Props.C66_expand' depends on axioms: [propext, Quot.sound]
'Verif.Props.C66_roundtrip' depends on axioms: [propext, Classical.choice, Quot.sound]
'Verif.Props.C66_eq' depends on axioms: [propext, Classical.choice, Quot.sound]
'Verif.Props.C66_text' depends on axioms: [propext, Quot.sound]
'Verif.Props.C66_cut_violated' depends on axioms: [propext]
'Verif.Props.C67_history' depends on axioms: [propext, Classical.choice, Quot.sound]
'Verif.Props.C67_aborts' depends on axioms: [propext, Classical.choice, Quot.sound]
'Verif.Props.C67_total' depends on axioms: [propext, Classical.choice, Quot.sound]
'Verif.Props.C67_off' depends on axioms: [propext, Classical.choice, Quot.sound]
'Verif.Props.C67_fatal_violated' depends on axioms: [propext]
'Verif.Props.C68_outcome' depends on axioms: [propext, Classical.choice, Quot.sound]
'Verif.Props.C68_connected' depends on axioms: [propext, Classical.choice, Quot.sound]
'Verif.Props.C68_closes' depends on axioms: [propext, Classical.choice, Quot.sound]
'Verif.Props.C68_destroy' depends on axioms: [propext, Classical.choice, Quot.sound]
'Verif.Props.C68_calls' depends on axioms: [propext, Classical.choice, Quot.sound]
'Verif.Props.C68_leak_violated' depends on axioms: [propext, Quot.sound]
'Verif.Props.C68_eintr_violated' depends on axioms: [propext, Classical.choice, Quot.sound]
'Verif.Props.C68_fdset_violated' depends on axioms: [propext, Quot.sound]
'Verif.Props.C69_chain' depends on axioms: [propext, Quot.sound]
'Verif.Props.C69_chained_settings_lost' depends on axioms: [propext, Quot.sound]
'Verif.Props.C70_constants_agree' depends on axioms: [propext, Quot.sound]
'Verif.Props.C70_large_is_shifted' depends on axioms: [propext, Quot.sound]
'Verif.Props.C70_transport' depends on axioms: [propext, Quot.sound]
'Verif.Props.C71_destructor' depends on axioms: [propext, Classical.choice, Quot.sound]
'Verif.Props.C71_never_terminates_violated' depends on axioms: [propext]
'Verif.Props.C72_late_reply' depends on axioms: [propext, Classical.choice, Quot.sound]
'Verif.Props.C73_values' depends on axioms: [propext, Classical.choice, Quot.sound]
'Verif.Props.C73_set_get' depends on axioms: [propext, Classical.choice, Quot.sound]
'Verif.Props.C73_set' depends on axioms: [propext, Classical.choice, Quot.sound]
'Verif.Props.C74_reads' depends on axioms: [propext, Classical.choice, Quot.sound]
'Verif.Props.C74_short_violated' depends on axioms: [propext, Classical.choice, Quot.sound]
'Verif.Props.C75_malformed' depends on axioms: [propext, Classical.choice, Quot.sound]
'Verif.Props.C76_drive' depends on axioms: [propext, Classical.choice, Quot.sound]
'Verif.Props.C76_twice' depends on axioms: [propext, Classical.choice, Quot.sound]
'Verif.Props.C77_failed' depends on axioms: [propext, Classical.choice, Quot.sound]
'Verif.Props.C77_made' depends on axioms: [propext, Classical.choice, Quot.sound]
'Verif.Props.C77_life' depends on axioms: [propext, Classical.choice, Quot.sound]
'Verif.Props.C78_isolated' depends on axioms: [propext, Classical.choice, Quot.sound]
'Verif.Props.C78_table' depends on axioms: [propext, Classical.choice, Quot.sound]
'Verif.Props.C78_ticked_once' depends on axioms: [propext, Classical.choice, Quot.sound]
'Verif.Props.C78_all_ticked' depends on axioms: [propext, Classical.choice, Quot.sound]
'Verif.Props.C78_removed' depends on axioms: [propext, Classical.choice, Quot.sound]
'Verif.Props.C78_closed_removed' depends on axioms: [propext, Classical.choice, Quot.sound]
'Verif.Props.C78_silent_after_removal' depends on axioms: [propext, Classical.choice, Quot.sound]
'Verif.Props.C78_closed_once' depends on axioms: [propext, Classical.choice, Quot.sound]
'Verif.Props.C78_transmission' depends on axioms: [propext, Classical.choice, Quot.sound]
'Verif.Props.C78_never_faster' depends on axioms: [propext, Classical.choice, Quot.sound]
'Verif.Props.C78_timeout' depends on axioms: [propext, Classical.choice, Quot.sound]
'Verif.Props.C78_conservative' depends on axioms: [propext, Classical.choice, Quot.sound]
'Verif.Props.C78_self_close' depends on axioms: [propext, Classical.choice, Quot.sound]
'Verif.Props.C78_harmless' depends on axioms: [propext, Classical.choice, Quot.sound]
'Verif.Props.C78_harmless_receiving' depends on axioms: [propext, Classical.choice, Quot.sound]
'Verif.Props.C78_close_in_close_listener_violated' depends on axioms: [propext, Classical.choice, Quot.sound]
'Verif.Props.C78_close_in_send_listener_violated' depends on axioms: [propext, Classical.choice, Quot.sound]
'Verif.Props.C78_handle_in_close_listener_violated' depends on axioms: [propext, Classical.choice, Quot.sound]
'Verif.Props.C78_reopen_in_close_listener_violated' depends on axioms: [propext, Classical.choice, Quot.sound]
'Verif.Props.C78_new_connection_removed_violated' depends on axioms: [propext, Classical.choice, Quot.sound]
'Verif.Props.C78_out_of_order_violated' depends on axioms: [propext, Classical.choice, Quot.sound]
'Verif.Props.C79_answer' depends on axioms: [propext, Classical.choice, Quot.sound]
'Verif.Props.C79_grants' depends on axioms: [propext, Classical.choice, Quot.sound]
'Verif.Props.C79_identity' depends on axioms: [propext, Classical.choice, Quot.sound]
'Verif.Props.C79_parameter' depends on axioms: [propext, Classical.choice, Quot.sound]
'Verif.Props.C79_update' depends on axioms: [propext, Classical.choice, Quot.sound]
'Verif.Props.C79_faults' depends on axioms: [propext, Classical.choice, Quot.sound]
'Verif.Props.C79_upload' depends on axioms: [propext, Classical.choice, Quot.sound]
'Verif.Props.C80_path_eq' depends on axioms: [propext, Classical.choice, Quot.sound]
'Verif.Props.C80_path_equivalence' depends on axioms: [propext]
'Verif.Props.C80_path_text' depends on axioms: [propext, Quot.sound]
'Verif.Props.C80_endpoint_equivalence' depends on axioms: [propext, Quot.sound]
'Verif.Props.C80_endpoint_host' depends on axioms: [propext, Quot.sound]
'Verif.Props.C80_endpoint_address' depends on axioms: [propext, Quot.sound]
'Verif.Props.C80_endpoint_spelling_violated' depends on axioms: [propext, Quot.sound]
'Verif.Props.C80_endpoint_port_violated' depends on axioms: [propext, Quot.sound]
'Verif.Props.C81_silent_closed' depends on axioms: [propext, Classical.choice, Quot.sound]
'Verif.Props.C81_loop_ends' depends on axioms: [propext, Classical.choice, Quot.sound]
'Verif.Props.C81_fed_open' depends on axioms: [propext, Classical.choice, Quot.sound]
'Verif.Props.C81_all_kept' depends on axioms: [propext, Classical.choice, Quot.sound]
'Verif.Props.C82_open_at_target' depends on axioms: [propext, Classical.choice, Quot.sound]
'Verif.Props.C82_agree' depends on axioms: [propext, Classical.choice, Quot.sound]
'Verif.Props.C82_orphan_stays' depends on axioms: [propext, Classical.choice, Quot.sound]
'Verif.Props.C82_failed_open' depends on axioms: [propext, Classical.choice, Quot.sound]
'Verif.Props.C82_weak_pointers' depends on axioms: [propext, Classical.choice, Quot.sound]
'Verif.Props.C82_orphan_violated' depends on axioms: [propext, Classical.choice, Quot.sound]
'Verif.Props.C82_collision_violated' depends on axioms: [propext, Classical.choice, Quot.sound]
'Verif.Props.C82_timeout_violated' depends on axioms: [propext, Classical.choice, Quot.sound]
'Verif.Props.C83_history' depends on axioms: [propext, Classical.choice, Quot.sound]
'Verif.Props.C83_bytes' depends on axioms: [propext, Classical.choice, Quot.sound]
'Verif.Props.C83_replies' depends on axioms: [propext, Classical.choice, Quot.sound]
'Verif.Props.C83_readable' depends on axioms: [propext, Quot.sound]
'Verif.Props.C83_life' depends on axioms: [propext, Classical.choice, Quot.sound]
'Verif.Props.C84_exception' depends on axioms: [propext, Classical.choice, Quot.sound]
'Verif.Props.C84_listener_ends_call' depends on axioms: [propext, Classical.choice, Quot.sound]
'Verif.Props.C84_receive' depends on axioms: [propext, Classical.choice, Quot.sound]
'Verif.Props.C84_nothing_sent' depends on axioms: [propext, Classical.choice, Quot.sound]
'Verif.Props.C84_close_runs' depends on axioms: [propext, Classical.choice, Quot.sound]
'Verif.Props.C84_starves' depends on axioms: [propext, Classical.choice, Quot.sound]
'Verif.Props.C84_dead_again' depends on axioms: [propext, Classical.choice, Quot.sound]
'Verif.Props.C84_closed_twice_violated' depends on axioms: [propext, Classical.choice, Quot.sound]
'Verif.Props.C84_removal_lost_violated' depends on axioms: [propext, Classical.choice, Quot.sound]
'Verif.Props.C84_revived_violated' depends on axioms: [propext, Classical.choice, Quot.sound]
'Verif.Props.C84_starved_violated' depends on axioms: [propext, Classical.choice, Quot.sound]
'Verif.Props.C85_descriptors' depends on axioms: [propext, Classical.choice, Quot.sound]
'Verif.Props.C85_count' depends on axioms: [propext, Classical.choice, Quot.sound]
'Verif.Props.C85_failed_open' depends on axioms: [propext, Classical.choice, Quot.sound]
'Verif.Props.C85_nothing_left' depends on axioms: [propext, Classical.choice, Quot.sound]
'Verif.Props.C85_destroyed' depends on axioms: [propext, Classical.choice, Quot.sound]
'Verif.Props.C85_refines' depends on axioms: [propext, Classical.choice, Quot.sound]
'Verif.Props.C85_sends' depends on axioms: [propext, Classical.choice, Quot.sound]
'Verif.Props.C85_own' depends on axioms: [propext, Classical.choice, Quot.sound]
'Verif.Props.C85_bind' depends on axioms: [propext, Classical.choice, Quot.sound]
'Verif.Props.C86_defined' depends on axioms: [propext, Classical.choice, Quot.sound]
'Verif.Props.C86_other_operations' depends on axioms: [propext, Classical.choice, Quot.sound]
'Verif.Props.C86_watched' depends on axioms: [propext, Classical.choice, Quot.sound]
'Verif.Props.C86_posix' depends on axioms: [propext, Classical.choice, Quot.sound]
'Verif.Props.C86_full_violated' depends on axioms: [propext, Classical.choice, Quot.sound]
'Verif.Props.C87_refines' depends on axioms: [propext, Quot.sound]
'Verif.Props.C87_calls' depends on axioms: [propext, Quot.sound]
'Verif.Props.C87_descriptor' depends on axioms: [propext, Quot.sound]
'Verif.Props.C87_returns' depends on axioms: [propext, Classical.choice, Quot.sound]
'Verif.Props.C87_when' depends on axioms: [propext, Classical.choice, Quot.sound]
'Verif.Props.C87_bounded_violated' depends on axioms: [propext, Classical.choice, Quot.sound]
'Verif.Props.C87_forever_violated' depends on axioms: [propext, Classical.choice, Quot.sound]
'Verif.Props.C88_refines' depends on axioms: [propext, Classical.choice, Quot.sound]
'Verif.Props.C88_in_time' depends on axioms: [propext, Classical.choice, Quot.sound]
'Verif.Props.C88_gives_up' depends on axioms: [propext, Classical.choice, Quot.sound]
'Verif.Props.C88_bounded' depends on axioms: [propext, Classical.choice, Quot.sound]
'Verif.Props.C88_within_timeout_violated' depends on axioms: [propext, Classical.choice, Quot.sound]
'Verif.Props.C88_forever_violated' depends on axioms: [propext, Classical.choice, Quot.sound]
'Verif.Props.C89_in_time' depends on axioms: [propext, Classical.choice, Quot.sound]
'Verif.Props.C89_own_reply_violated' depends on axioms: [propext, Classical.choice, Quot.sound]
'Verif.Props.C90_request_same' depends on axioms: [propext, Quot.sound]
'Verif.Props.C90_identity' depends on axioms: [propext, Classical.choice, Quot.sound]
'Verif.Props.C90_parameter' depends on axioms: [propext, Classical.choice, Quot.sound]
'Verif.Props.C90_update' depends on axioms: [propext, Classical.choice, Quot.sound]
'Verif.Props.C90_file' depends on axioms: [propext, Classical.choice, Quot.sound]
'Verif.Props.C90_file_begin' depends on axioms: [propext, Classical.choice, Quot.sound]
'Verif.Props.C90_file_step' depends on axioms: [propext, Classical.choice, Quot.sound]
'Verif.Props.C90_fault' depends on axioms: [propext, Classical.choice, Quot.sound]
'Verif.Props.C90_faults' depends on axioms: [propext, Classical.choice, Quot.sound]
'Verif.Props.C90_fault_object' depends on axioms: [propext, Classical.choice, Quot.sound]
'Verif.Props.C91_identity_silent' depends on axioms: [propext, Classical.choice, Quot.sound]
'Verif.Props.C91_parameter_silent' depends on axioms: [propext, Classical.choice, Quot.sound]
'Verif.Props.C91_update_silent' depends on axioms: [propext, Classical.choice, Quot.sound]
'Verif.Props.C91_upload_silent' depends on axioms: [propext, Classical.choice, Quot.sound]
'Verif.Props.C91_faults_silent' depends on axioms: [propext, Classical.choice, Quot.sound]
'Verif.Props.C91_own_value_violated' depends on axioms: [propext, Classical.choice, Quot.sound]
'Verif.Props.C91_upload_goes_on_violated' depends on axioms: [propext, Classical.choice, Quot.sound]
'Verif.Props.C92_packet' depends on axioms: [propext, Classical.choice, Quot.sound]
'Verif.Props.C92_item' depends on axioms: [propext, Classical.choice, Quot.sound]
'Verif.Props.C92_item_violated' depends on axioms: [propext]
'Verif.Props.C92_revision' depends on axioms: [propext, Classical.choice, Quot.sound]
'Verif.Props.C93_time' depends on axioms: [propext, Classical.choice, Quot.sound]
'Verif.Props.C93_one_request' depends on axioms: [propext, Classical.choice, Quot.sound]
'Verif.Props.C93_same' depends on axioms: [propext, Classical.choice, Quot.sound]
'Verif.Props.C93_open_silent' depends on axioms: [propext, Classical.choice, Quot.sound]
'Verif.Props.C93_close_silent' depends on axioms: [propext, Classical.choice, Quot.sound]
'Verif.Props.C93_own_connection_violated' depends on axioms: [propext, Classical.choice, Quot.sound]
'Verif.Props.C94_receives' depends on axioms: [propext, Classical.choice, Quot.sound]
'Verif.Props.C94_time' depends on axioms: [propext, Classical.choice, Quot.sound]
'Verif.Props.C94_loop' depends on axioms: [propext, Classical.choice, Quot.sound]
'Verif.Props.C94_sends' depends on axioms: [propext, Classical.choice, Quot.sound]
'Verif.Props.C94_starved_violated' depends on axioms: [propext, Classical.choice, Quot.sound]
'Verif.Props.C95_undefined_iff' depends on axioms: [propext, Classical.choice, Quot.sound]
'Verif.Props.C95_asserts_iff' depends on axioms: [propext, Classical.choice, Quot.sound]
'Verif.Props.C95_proper' depends on axioms: [propext, Classical.choice, Quot.sound]
'Verif.Props.C96_explicit' depends on axioms: [propext, Classical.choice, Quot.sound]
'Verif.Props.C96_file' depends on axioms: [propext, Classical.choice, Quot.sound]
'Verif.Props.C96_file_content' depends on axioms: [propext, Classical.choice, Quot.sound]
'Verif.Props.C96_file_forever_violated' depends on axioms: [propext, Classical.choice, Quot.sound]
'Verif.Props.C96_file_silent_violated' depends on axioms: [propext, Quot.sound]
'Verif.Props.C96_file_refused_violated' depends on axioms: [propext, Classical.choice, Quot.sound]
'Verif.Props.C96_parameters_none' depends on axioms: [propext, Classical.choice, Quot.sound]
'Verif.Props.C96_parameters' depends on axioms: [propext, Classical.choice, Quot.sound]
'Verif.Props.C96_parameters_small_violated' depends on axioms: [propext, Classical.choice, Quot.sound]
'Verif.Props.C96_parameters_class' depends on axioms: [propext, Classical.choice, Quot.sound]
'Verif.Props.C96_parameters_sound' depends on axioms: [propext, Classical.choice, Quot.sound]
'Verif.Props.C97_program' depends on axioms: [propext, Classical.choice, Quot.sound]
'Verif.Props.C97_uncaught_violated' depends on axioms: [propext, Classical.choice, Quot.sound]
'Verif.Props.C97_defined' depends on axioms: [propext, Classical.choice, Quot.sound]
'Verif.Props.C97_request' depends on axioms: [propext, Classical.choice, Quot.sound]
'Verif.Props.C97_sends' depends on axioms: [propext, Classical.choice, Quot.sound]
'Verif.Props.C98_refines' depends on axioms: [propext, Classical.choice, Quot.sound]
'Verif.Props.C98_others' depends on axioms: [propext, Classical.choice, Quot.sound]
'Verif.Props.C98_numbers' depends on axioms: [propext, Classical.choice, Quot.sound]
'Verif.Props.C98_distinct' depends on axioms: [propext, Classical.choice, Quot.sound]
'Verif.Props.C98_destroy' depends on axioms: [propext, Classical.choice, Quot.sound]
'Verif.Props.C98_silent' depends on axioms: [propext, Classical.choice, Quot.sound]
'Verif.Props.C98_own_close' depends on axioms: [propext, Classical.choice, Quot.sound]
'Verif.Props.C98_foreign' depends on axioms: [propext, Classical.choice, Quot.sound]
'Verif.Props.C98_incarnation_violated' depends on axioms: [propext, Classical.choice, Quot.sound]
'Verif.Props.C98_foreign_close_violated' depends on axioms: [propext, Classical.choice, Quot.sound]
'Verif.Props.C99_parameter' depends on axioms: [propext, Classical.choice, Quot.sound]
'Verif.Props.C99_limit' depends on axioms: [propext, Classical.choice, Quot.sound]
'Verif.Props.C99_limit_kept' depends on axioms: [propext, Classical.choice, Quot.sound]
'Verif.Props.C99_fresh' depends on axioms: [propext, Classical.choice, Quot.sound]
'Verif.Props.C99_number_violated' depends on axioms: [propext, Classical.choice, Quot.sound]
'Verif.Props.C99_identity' depends on axioms: [propext]
'Verif.Props.C100_locked' depends on axioms: [propext, Classical.choice, Quot.sound]
'Verif.Props.C100_order' depends on axioms: [propext, Classical.choice, Quot.sound]
'Verif.Props.C100_requests' depends on axioms: [propext]
'Verif.Props.C100_gives' depends on axioms: [propext, Classical.choice, Quot.sound]
'Verif.Props.C100_handle' depends on axioms: [propext, Classical.choice, Quot.sound]
'Verif.Props.C100_late' depends on axioms: [propext, Classical.choice, Quot.sound]
'Verif.Props.C100_swapped_violated' depends on axioms: [propext]
'Verif.Props.C100_torn_violated' depends on axioms: [propext]
'Verif.Props.C100_late_violated' depends on axioms: [propext, Quot.sound]
'Verif.Props.C100_half_violated' depends on axioms: [propext]
'Verif.Props.C101_order' depends on axioms: [propext, Classical.choice, Quot.sound]
'Verif.Props.C101_one_opener' depends on axioms: [propext, Classical.choice, Quot.sound]
'Verif.Props.C101_opens_violated' depends on axioms: [propext, Classical.choice, Quot.sound]
'Verif.Props.C102_code' depends on axioms: [propext]
'Verif.Props.C102_stays' depends on axioms: [propext, Classical.choice, Quot.sound]
'Verif.Props.C102_sync' depends on axioms: [propext, Quot.sound]
'Verif.Props.C102_uploads' depends on axioms: [propext, Classical.choice, Quot.sound]
'Verif.Props.C102_again_violated' depends on axioms: [propext]
'Verif.Props.C103_fill' depends on axioms: [propext, Quot.sound]
'Verif.Props.C103_read' depends on axioms: [propext, Classical.choice, Quot.sound]
'Verif.Props.C103_write' depends on axioms: [propext, Classical.choice, Quot.sound]
'Verif.Props.C103_yaskawa' depends on axioms: [propext, Classical.choice, Quot.sound]
'Verif.Props.C103_yaskawa_throws' depends on axioms: [propext, Classical.choice, Quot.sound]
'Verif.Props.C103_short_violated' depends on axioms: [propext, Classical.choice, Quot.sound]
'Verif.Props.C103_whole' depends on axioms: [propext, Classical.choice, Quot.sound]
'Verif.Props.C103_identity' depends on axioms: [propext, Classical.choice, Quot.sound]
'Verif.Props.C103_discovery' depends on axioms: [propext, Classical.choice, Quot.sound]
'Verif.Props.C103_discovery_ends' depends on axioms: [propext, Quot.sound]
'Verif.Props.C104_nearest' depends on axioms: [propext, Classical.choice, Quot.sound]
'Verif.Props.C104_tie' depends on axioms: [propext, Classical.choice, Quot.sound]
'Verif.Props.C104_rounding' depends on axioms: [propext, Classical.choice, Quot.sound]
'Verif.Props.C104_error' depends on axioms: [propext, Classical.choice, Quot.sound]
'Verif.Props.C104_accuracy' depends on axioms: [propext, Classical.choice, Quot.sound]
'Verif.Props.C104_limit' depends on axioms: [propext, Classical.choice, Quot.sound]
'Verif.Props.C104_exact' depends on axioms: [propext, Classical.choice, Quot.sound]
'Verif.Props.C104_range' depends on axioms: [propext, Classical.choice, Quot.sound]
'Verif.Props.C104_off_by_one_violated' depends on axioms: [propext, Classical.choice, Quot.sound]
'Verif.Props.C104_wide_violated' depends on axioms: [propext, Classical.choice, Quot.sound]
'Verif.Props.C105_double' depends on axioms: [propext, Classical.choice, Quot.sound]
'Verif.Props.C105_float' depends on axioms: [propext, Classical.choice, Quot.sound]
'Verif.Props.C105_get' depends on axioms: [propext, Classical.choice, Quot.sound]
'Verif.Props.C105_set' depends on axioms: [propext, Classical.choice, Quot.sound]
'Verif.Props.C105_real_bits' depends on axioms: [propext, Classical.choice, Quot.sound]
'Verif.Props.C105_lreal_bits' depends on axioms: [propext, Classical.choice, Quot.sound]
'Verif.Props.C105_real_same' depends on axioms: [propext, Classical.choice, Quot.sound]
'Verif.Props.C105_lreal_same' depends on axioms: [propext, Classical.choice, Quot.sound]
'Verif.Props.C105_real' depends on axioms: [propext, Classical.choice, Quot.sound]
'Verif.Props.C105_lreal' depends on axioms: [propext, Classical.choice, Quot.sound]
'Verif.Props.C105_special' depends on axioms: [propext, Classical.choice, Quot.sound]
'Verif.Props.C105_set_lreal' depends on axioms: [propext, Classical.choice, Quot.sound]
'Verif.Props.C105_set_real' depends on axioms: [propext, Classical.choice, Quot.sound]
'Verif.Props.C105_monotone' depends on axioms: [propext, Classical.choice, Quot.sound]
'Verif.Props.C105_sane' depends on axioms: [propext, Classical.choice, Quot.sound]
'Verif.Props.C105_drive' depends on axioms: [propext, Classical.choice, Quot.sound]
'Verif.Props.C105_divisor_zero_violated' depends on axioms: [propext, Classical.choice, Quot.sound]
'Verif.Props.C105_multiplier_zero_violated' depends on axioms: [propext, Classical.choice, Quot.sound]
'Verif.Props.C105_set_infinite_violated' depends on axioms: [propext, Classical.choice, Quot.sound]
'Verif.Props.C105_lreal_overflow_violated' depends on axioms: [propext, Classical.choice, Quot.sound]
'Verif.Props.C106_transfer' depends on axioms: [propext, Quot.sound]
'Verif.Props.C106_begin' depends on axioms: [propext, Quot.sound]
'Verif.Props.C106_transfer_done' depends on axioms: [propext, Quot.sound]
'Verif.Props.C106_look' depends on axioms: [propext, Classical.choice, Quot.sound]
'Verif.Props.C106_careful' depends on axioms: [propext, Classical.choice, Quot.sound]
'Verif.Props.C106_careful_calls' depends on axioms: [propext, Classical.choice, Quot.sound]
'Verif.Props.C106_restart' depends on axioms: [propext, Classical.choice, Quot.sound]
'Verif.Props.C106_raise' depends on axioms: [propext, Classical.choice, Quot.sound]
'Verif.Props.C106_begin_raise' depends on axioms: [propext, Classical.choice, Quot.sound]
'Verif.Props.C106_drop' depends on axioms: [propext, Quot.sound]
'Verif.Props.C106_gone_violated' depends on axioms: [propext]
'Verif.Props.C106_after_sync_violated' depends on axioms: [propext, Classical.choice, Quot.sound]
'Verif.Props.C106_begin_again_violated' depends on axioms: [propext, Classical.choice, Quot.sound]
'Verif.Props.C106_nested_violated' depends on axioms: [propext]
'Verif.Props.C107_locked' depends on axioms: [propext, Classical.choice, Quot.sound]
'Verif.Props.C107_distinct' depends on axioms: [propext, Classical.choice, Quot.sound]
'Verif.Props.C107_one_thread' depends on axioms: [propext]
'Verif.Props.C107_race_violated' depends on axioms: [propext]
'Verif.Props.C107_same_numbers_violated' depends on axioms: [propext, Quot.sound]
'Verif.Props.C107_repeated_violated' depends on axioms: [propext, Quot.sound]
'Verif.Props.C108_reads' depends on axioms: [propext, Classical.choice, Quot.sound]
'Verif.Props.C108_none_lost' depends on axioms: [propext, Classical.choice, Quot.sound]
'Verif.Props.C108_sender' depends on axioms: [propext, Classical.choice, Quot.sound]
'Verif.Props.C108_stranger_violated' depends on axioms: [propext, Classical.choice, Quot.sound]
'Verif.Props.C108_shared_port_violated' depends on axioms: [propext, Classical.choice, Quot.sound]
'Verif.Props.C109_ids' depends on axioms: [propext, Classical.choice, Quot.sound]
'Verif.Props.C109_request' depends on axioms: [propext, Classical.choice, Quot.sound]
'Verif.Props.C109_additional' depends on axioms: [propext, Classical.choice, Quot.sound]
'Verif.Props.C109_status_character' depends on axioms: [propext, Classical.choice, Quot.sound]
'Verif.Props.C109_status_violated' depends on axioms: [propext, Classical.choice, Quot.sound]
'Verif.Props.C109_close_violated' depends on axioms: [propext, Classical.choice, Quot.sound]
'Verif.Props.C109_file' depends on axioms: [propext, Classical.choice, Quot.sound]
'Verif.Props.C109_file_violated' depends on axioms: [propext, Classical.choice, Quot.sound]
'Verif.Props.C109_refused' depends on axioms: [propext, Classical.choice, Quot.sound]
'Verif.Props.C109_opened' depends on axioms: [propext, Classical.choice, Quot.sound]
'Verif.Props.C109_opened_violated' depends on axioms: [propext, Classical.choice, Quot.sound]
'Verif.Props.C109_closed' depends on axioms: [propext, Classical.choice, Quot.sound]
'Verif.Props.C109_tick' depends on axioms: [propext, Quot.sound]
'Verif.Props.C109_recv' depends on axioms: [propext, Quot.sound]
'Verif.Props.C109_drop' depends on axioms: [propext, Classical.choice, Quot.sound]
'Verif.Props.C109_console' depends on axioms: [propext, Classical.choice, Quot.sound]
'Verif.Props.C109_sockets' depends on axioms: [propext, Classical.choice, Quot.sound]
'Verif.Props.C110_hosts' depends on axioms: [propext, Classical.choice, Quot.sound]
'Verif.Props.C110_dotted' depends on axioms: [propext, Classical.choice, Quot.sound]
'Verif.Props.C110_round' depends on axioms: [propext, Classical.choice, Quot.sound]
'Verif.Props.C110_name_violated' depends on axioms: [propext, Classical.choice, Quot.sound]
'Verif.Props.C110_padded_violated' depends on axioms: [propext, Classical.choice, Quot.sound]
'Verif.Props.C111_defined' depends on axioms: [propext, Classical.choice, Quot.sound]
'Verif.Props.C111_kept' depends on axioms: [propext, Classical.choice, Quot.sound]
'Verif.Props.C111_locked' depends on axioms: [propext, Classical.choice, Quot.sound]
'Verif.Props.C111_in_turn' depends on axioms: [propext, Classical.choice, Quot.sound]
'Verif.Props.C111_mixed_violated' depends on axioms: [propext, Classical.choice, Quot.sound]
'Verif.Props.C111_race_violated' depends on axioms: [propext, Classical.choice, Quot.sound]
'Verif.Props.C111_destroyed_violated' depends on axioms: [propext, Classical.choice, Quot.sound]
'Verif.Props.C112_order' depends on axioms: [propext, Classical.choice, Quot.sound]
'Verif.Props.C112_reply' depends on axioms: [propext, Classical.choice, Quot.sound]
'Verif.Props.C112_length_violated' depends on axioms: [propext, Classical.choice, Quot.sound]
'Verif.Props.C113_defined' depends on axioms: [propext, Quot.sound]
'Verif.Props.C113_self_violated' depends on axioms: [propext, Quot.sound]
'Verif.Props.C113_refines' depends on axioms: [propext, Quot.sound]
'Verif.Props.C113_latest' depends on axioms: [propext, Quot.sound]
'Verif.Props.C113_data' depends on axioms: [propext, Classical.choice, Quot.sound]
'Verif.Props.C113_empty_violated' depends on axioms: [propext, Quot.sound]
'Verif.Props.C114_objects' depends on axioms: [propext, Classical.choice, Quot.sound]
'Verif.Props.C114_own' depends on axioms: [propext, Classical.choice, Quot.sound]
'Verif.Props.C114_pointers' depends on axioms: [propext, Classical.choice, Quot.sound]
'Verif.Props.C114_handler' depends on axioms: [propext, Classical.choice, Quot.sound]
'Verif.Props.C114_destroy' depends on axioms: [propext, Classical.choice, Quot.sound]
'Verif.Props.C114_destroyed_violated' depends on axioms: [propext, Classical.choice, Quot.sound]
'Verif.Props.C114_deaf_violated' depends on axioms: [propext, Classical.choice, Quot.sound]
'Verif.Props.C114_close_violated' depends on axioms: [propext, Classical.choice, Quot.sound]
'Verif.Props.C114_twice_violated' depends on axioms: [propext, Classical.choice, Quot.sound]
'Verif.Props.C114_assign' depends on axioms: [propext, Classical.choice, Quot.sound]
'Verif.Props.C114_swap_violated' depends on axioms: [propext, Classical.choice, Quot.sound]
'Verif.Props.C115_own' depends on axioms: [propext, Classical.choice, Quot.sound]
'Verif.Props.C115_wire' depends on axioms: [propext, Classical.choice, Quot.sound]
'Verif.Props.C115_destroy' depends on axioms: [propext, Classical.choice, Quot.sound]
'Verif.Props.C115_stale_violated' depends on axioms: [propext, Classical.choice, Quot.sound]
'Verif.Props.C115_vector_violated' depends on axioms: [propext, Classical.choice, Quot.sound]
'Verif.Props.C115_next_violated' depends on axioms: [propext, Classical.choice, Quot.sound]
'Verif.Props.C115_file_violated' depends on axioms: [propext, Classical.choice, Quot.sound]
'Verif.Props.C116_as_arrived' depends on axioms: [propext, Classical.choice, Quot.sound]
'Verif.Props.C116_number_ignored' depends on axioms: [propext, Classical.choice, Quot.sound]
'Verif.Props.C116_filter' depends on axioms: [propext, Classical.choice, Quot.sound]
'Verif.Props.C116_order_violated' depends on axioms: [propext, Classical.choice, Quot.sound]
'Verif.Props.C116_filter_violated' depends on axioms: [propext, Quot.sound]
'Verif.Props.C116_replay_violated' depends on axioms: [propext, Classical.choice, Quot.sound]
'Verif.Props.C117_little' depends on axioms: [propext, Quot.sound]
'Verif.Props.C117_system' depends on axioms: [propext, Classical.choice, Quot.sound]
'Verif.Props.C117_roundtrip' depends on axioms: [propext, Classical.choice, Quot.sound]
'Verif.Props.C117_written' depends on axioms: [propext, Classical.choice, Quot.sound]
'Verif.Props.C117_read' depends on axioms: [propext, Classical.choice, Quot.sound]
'Verif.Props.C117_big_violated' depends on axioms: [propext, Classical.choice, Quot.sound]
'Verif.Props.C117_bsd_violated' depends on axioms: [propext, Classical.choice, Quot.sound]
'Verif.Props.C117_bsd_any_violated' depends on axioms: [propext, Quot.sound]
'Verif.Props.C118_follows' depends on axioms: [propext]
'Verif.Props.C118_same' depends on axioms: [propext, Classical.choice, Quot.sound]
'Verif.Props.C118_leak_violated' depends on axioms: [propext, Classical.choice, Quot.sound]
'Verif.Props.C118_reconnect_violated' depends on axioms: [propext, Classical.choice, Quot.sound]
'Verif.Props.C119_packet' depends on axioms: [propext, Classical.choice, Quot.sound]
'Verif.Props.C119_reply' depends on axioms: [propext, Classical.choice, Quot.sound]
'Verif.Props.C119_taken' depends on axioms: [propext, Classical.choice, Quot.sound]
'Verif.Props.C119_io' depends on axioms: [propext, Classical.choice, Quot.sound]
'Verif.Props.C119_transfer' depends on axioms: [propext, Classical.choice, Quot.sound]
'Verif.Props.C119_discovery' depends on axioms: [propext, Quot.sound]
'Verif.Props.C119_upload_violated' depends on axioms: [propext, Classical.choice, Quot.sound]
'Verif.Props.C119_discovery_violated' depends on axioms: [propext, Classical.choice, Quot.sound]
'Verif.Props.C120_plenty' depends on axioms: [propext, Classical.choice, Quot.sound]
'Verif.Props.C120_request' depends on axioms: [propext, Classical.choice, Quot.sound]
'Verif.Props.C120_in_step' depends on axioms: [propext, Classical.choice, Quot.sound]
'Verif.Props.C120_router' depends on axioms: [propext]
'Verif.Props.C120_begin' depends on axioms: [propext]
'Verif.Props.C120_file' depends on axioms: [propext]
'Verif.Props.C120_sync' depends on axioms: [propext]
'Verif.Props.C120_create_plenty' depends on axioms: [propext]
'Verif.Props.C120_file_plenty' depends on axioms: [propext]
'Verif.Props.C120_retry' depends on axioms: [propext, Quot.sound]
'Verif.Props.C120_step_violated' depends on axioms: [propext, Classical.choice, Quot.sound]
'Verif.Props.C120_header_violated' depends on axioms: [propext, Classical.choice, Quot.sound]
'Verif.Props.C120_destroy_violated' depends on axioms: [propext]
'Verif.Props.C120_destroy_file_violated' depends on axioms: [propext]
'Verif.Props.C120_file_violated' depends on axioms: [propext]
'Verif.Props.C121_or_same' depends on axioms: [propext, Classical.choice, Quot.sound]
'Verif.Props.C121_keeps' depends on axioms: [propext, Classical.choice, Quot.sound]
'Verif.Props.C121_table' depends on axioms: [propext, Classical.choice, Quot.sound]
'Verif.Props.C121_open' depends on axioms: [propext, Classical.choice, Quot.sound]
'Verif.Props.C121_nothing' depends on axioms: [propext, Classical.choice, Quot.sound]
'Verif.Props.C121_lost' depends on axioms: [propext, Classical.choice, Quot.sound]
'Verif.Props.C121_unsent' depends on axioms: [propext, Classical.choice, Quot.sound]
'Verif.Props.C121_isolated' depends on axioms: [propext, Classical.choice, Quot.sound]
'Verif.Props.C121_numbers' depends on axioms: [propext, Classical.choice, Quot.sound]
'Verif.Props.C121_forward' depends on axioms: [propext, Classical.choice, Quot.sound]
'Verif.Props.C121_apart_violated' depends on axioms: [propext, Classical.choice, Quot.sound]
'Verif.Props.C121_closed_twice_violated' depends on axioms: [propext, Classical.choice, Quot.sound]
'Verif.Props.C121_orphan_violated' depends on axioms: [propext, Classical.choice, Quot.sound]
'Verif.Props.C122_devices' depends on axioms: [propext]
'Verif.Props.C122_objects' depends on axioms: [propext, Quot.sound]
'Verif.Props.C122_update' depends on axioms: [propext, Quot.sound]
'Verif.Props.C122_faults' depends on axioms: [propext, Classical.choice, Quot.sound]
'Verif.Props.C122_kept' depends on axioms: [propext, Classical.choice, Quot.sound]
'Verif.Props.C122_retry' depends on axioms: [propext, Classical.choice, Quot.sound]
'Verif.Props.C122_discover' depends on axioms: [propext, Quot.sound]
'Verif.Props.C122_yaskawa' depends on axioms: [propext]
'Verif.Props.C122_once_violated' depends on axioms: [propext, Classical.choice, Quot.sound]
'Verif.Props.C122_found_violated' depends on axioms: [propext, Quot.sound]
'Verif.Props.C123_messages' depends on axioms: [propext, Classical.choice, Quot.sound]
'Verif.Props.C123_plenty' depends on axioms: [propext, Quot.sound]
'Verif.Props.C123_hidden' depends on axioms: [propext, Quot.sound]
'Verif.Props.C123_prefix' depends on axioms: [propext]
'Verif.Props.C123_survives' depends on axioms: [propext, Quot.sound]
'Verif.Props.C123_request' depends on axioms: [propext, Classical.choice, Quot.sound]
'Verif.Props.C123_end_violated' depends on axioms: [propext, Classical.choice, Quot.sound]
'Verif.Props.C123_first_violated' depends on axioms: [propext, Quot.sound]
'Verif.Props.C123_number_violated' depends on axioms: [propext, Classical.choice, Quot.sound]
'Verif.Props.C123_request_violated' depends on axioms: [propext, Classical.choice, Quot.sound]
'Verif.Props.C124_levels' does not depend on any axioms
'Verif.Props.C124_receive' depends on axioms: [propext, Classical.choice, Quot.sound]
'Verif.Props.C124_discover' depends on axioms: [propext, Classical.choice, Quot.sound]
'Verif.Props.C124_transparent' depends on axioms: [propext, Classical.choice, Quot.sound]
'Verif.Props.C124_short_send' depends on axioms: [propext, Classical.choice, Quot.sound]
'Verif.Props.C124_notes' depends on axioms: [propext, Classical.choice, Quot.sound]
'Verif.Props.C124_tcp' depends on axioms: [propext, Classical.choice, Quot.sound]
'Verif.Props.C124_lost_violated' depends on axioms: [propext, Classical.choice, Quot.sound]
'Verif.Props.C124_hidden_violated' depends on axioms: [propext, Classical.choice, Quot.sound]
'Verif.Props.C125_same' depends on axioms: [propext, Classical.choice, Quot.sound]
'Verif.Props.C125_states' depends on axioms: [propext, Classical.choice, Quot.sound]
'Verif.Props.C125_balanced' depends on axioms: [propext, Classical.choice, Quot.sound]
'Verif.Props.C125_failed' depends on axioms: [propext, Classical.choice, Quot.sound]
'Verif.Props.C125_requests' depends on axioms: [propext, Classical.choice, Quot.sound]
'Verif.Props.C125_failures' depends on axioms: [propext, Classical.choice, Quot.sound]
'Verif.Props.C125_ignored' depends on axioms: [propext, Classical.choice, Quot.sound]
'Verif.Props.C125_resync' depends on axioms: [propext, Classical.choice, Quot.sound]
'Verif.Props.C125_packets' depends on axioms: [propext, Classical.choice, Quot.sound]
'Verif.Props.C125_again_violated' depends on axioms: [propext, Classical.choice, Quot.sound]
'Verif.Props.C125_loaded_violated' depends on axioms: [propext, Classical.choice, Quot.sound]
'Verif.Props.C125_thrown_violated' depends on axioms: [propext, Classical.choice, Quot.sound]
'Verif.Props.C125_status_violated' depends on axioms: [propext, Classical.choice, Quot.sound]
'Verif.Props.C126_open' depends on axioms: [propext, Classical.choice, Quot.sound]
'Verif.Props.C126_has' depends on axioms: [propext, Classical.choice, Quot.sound]
'Verif.Props.C126_levels' depends on axioms: [propext]
'Verif.Props.C126_levels_violated' depends on axioms: [propext]
'Verif.Props.C126_opened_violated' depends on axioms: [propext, Classical.choice, Quot.sound]
'Verif.Props.C126_closed_violated' depends on axioms: [propext, Classical.choice, Quot.sound]
'Verif.Props.C126_timedOut_violated' depends on axioms: [propext, Classical.choice, Quot.sound]
'Verif.Props.C126_serial_violated' depends on axioms: [propext, Classical.choice, Quot.sound]
'Verif.Props.C127_locked' depends on axioms: [propext, Quot.sound]
'Verif.Props.C127_whole' depends on axioms: [propext, Quot.sound]
'Verif.Props.C127_norace' depends on axioms: [propext, Quot.sound]
'Verif.Props.C127_bytes' depends on axioms: [propext, Quot.sound]
'Verif.Props.C127_race_violated' depends on axioms: [propext, Quot.sound]
'Verif.Props.C127_torn_violated' depends on axioms: [propext, Quot.sound]
'Verif.Props.C127_moved_violated' depends on axioms: [propext, Quot.sound]
'Verif.Props.C128_handle' depends on axioms: [propext, Classical.choice, Quot.sound]
'Verif.Props.C128_connect' depends on axioms: [propext, Classical.choice, Quot.sound]
'Verif.Props.C128_destroy' depends on axioms: [propext, Classical.choice, Quot.sound]
'Verif.Props.C128_no_socket' depends on axioms: [propext, Quot.sound]
'Verif.Props.C128_bound' depends on axioms: [propext, Classical.choice, Quot.sound]
'Verif.Props.C128_interval' depends on axioms: [propext, Classical.choice, Quot.sound]
'Verif.Props.C128_limit' depends on axioms: [propext, Classical.choice, Quot.sound]
'Verif.Props.C128_limit_same' depends on axioms: [propext, Classical.choice, Quot.sound]
'Verif.Props.C128_discover' depends on axioms: [propext, Quot.sound]
'Verif.Props.C128_discover_same' depends on axioms: [propext, Classical.choice, Quot.sound]
'Verif.Props.C128_handle_same' depends on axioms: [propext, Quot.sound]
'Verif.Props.C128_served' depends on axioms: [propext, Classical.choice, Quot.sound]
'Verif.Props.C128_message' depends on axioms: [propext, Quot.sound]
'Verif.Props.C128_no_message' depends on axioms: [propext, Classical.choice, Quot.sound]
'Verif.Props.C128_timeout_violated' depends on axioms: [propext]
'Verif.Props.C128_handle_violated' depends on axioms: [propext, Classical.choice, Quot.sound]
'Verif.Props.C128_bound_violated' depends on axioms: [propext, Classical.choice, Quot.sound]
'Verif.Props.C128_interval_violated' depends on axioms: [propext, Classical.choice, Quot.sound]
'Verif.Props.C128_long_violated' depends on axioms: [propext, Quot.sound]
'Verif.Props.C128_stranger_violated' depends on axioms: [propext, Quot.sound]
'Verif.Props.C128_many_violated' depends on axioms: [propext, Classical.choice, Quot.sound]
'Verif.Props.C129_locked' depends on axioms: [propext, Classical.choice, Quot.sound]
'Verif.Props.C129_norace' depends on axioms: [propext]
'Verif.Props.C129_race_violated' depends on axioms: [propext, Quot.sound]
'Verif.Props.C129_dangling_violated' depends on axioms: [propext, Quot.sound]
'Verif.Props.C129_abort_violated' depends on axioms: [propext, Quot.sound]
'Verif.Props.C129_wrong_violated' depends on axioms: [propext, Classical.choice, Quot.sound]
'Verif.Props.C130_alive' depends on axioms: [propext, Classical.choice, Quot.sound]
'Verif.Props.C130_exact' depends on axioms: [propext, Classical.choice, Quot.sound]
'Verif.Props.C130_descriptors' depends on axioms: [propext, Classical.choice, Quot.sound]
'Verif.Props.C130_same' depends on axioms: [propext, Quot.sound]
'Verif.Props.C130_killed_violated' depends on axioms: [propext, Classical.choice, Quot.sound]
'Verif.Props.C130_unreported_violated' depends on axioms: [propext, Classical.choice, Quot.sound]
'Verif.Props.C130_leak_violated' depends on axioms: [propext, Quot.sound]
