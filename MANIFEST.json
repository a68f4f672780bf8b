{
 "claims": [
  {
   "property": "C01",
   "status": "proved",
   "theorems": [
    "Verif.Props.C01_typed_roundtrip",
    "Verif.Props.C01_queue"
   ],
   "note": ""
  },
  {
   "property": "C02",
   "status": "proved",
   "theorems": [
    "Verif.Props.C02_little_endian",
    "Verif.Props.C02_injective"
   ],
   "note": ""
  },
  {
   "property": "C03",
   "status": "proved",
   "theorems": [
    "Verif.Props.C03_read_defined_iff",
    "Verif.Props.C03_isValid_never_false"
   ],
   "note": ""
  },
  {
   "property": "C04",
   "status": "proved",
   "theorems": [
    "Verif.Props.C04_short_string_roundtrip_iff",
    "Verif.Props.C04_long_string_roundtrip_iff",
    "Verif.Props.C04_written_bytes"
   ],
   "note": ""
  },
  {
   "property": "C05",
   "status": "proved",
   "theorems": [
    "Verif.Props.C05_network_byte_order",
    "Verif.Props.C05_roundtrip"
   ],
   "note": "Host byte order is little-endian, as stated."
  },
  {
   "property": "C06",
   "status": "proved",
   "theorems": [
    "Verif.Props.C06_layout",
    "Verif.Props.C06_roundtrip_iff",
    "Verif.Props.C06_oversized_rejected"
   ],
   "note": ""
  },
  {
   "property": "C07",
   "status": "proved",
   "theorems": [
    "Verif.Props.C07_total"
   ],
   "note": ""
  },
  {
   "property": "C08",
   "status": "proved",
   "theorems": [
    "Verif.Props.C08_layout",
    "Verif.Props.C08_roundtrip",
    "Verif.Props.C08_item_view",
    "Verif.Props.C08_truncated",
    "Verif.Props.C08_oversized_item_loses_data",
    "Verif.Props.C08_too_many_items_lost"
   ],
   "note": ""
  },
  {
   "property": "C09",
   "status": "proved",
   "theorems": [
    "Verif.Props.C09_classification",
    "Verif.Props.C09_no_count",
    "Verif.Props.C09_never_throws_strict"
   ],
   "note": "Inputs of fewer than two bytes also read out of bounds, but if the stray reads return bytes the decoder returns an empty packet (C09_no_count)."
  },
  {
   "property": "C10",
   "status": "proved",
   "theorems": [
    "Verif.Props.C10_registerSession",
    "Verif.Props.C10_unRegisterSession",
    "Verif.Props.C10_sendRRData",
    "Verif.Props.C10_listIdentity"
   ],
   "note": ""
  },
  {
   "property": "C11",
   "status": "proved",
   "theorems": [
    "Verif.Props.C11_layout",
    "Verif.Props.C11_size",
    "Verif.Props.C11_default_path_violated"
   ],
   "note": "The default constructed path, outside the claim, declares 0 words but packs 4 (or 2) bytes."
  },
  {
   "property": "C12",
   "status": "proved",
   "theorems": [
    "Verif.Props.C12_roundtrip_iff",
    "Verif.Props.C12_class_level_lost"
   ],
   "note": ""
  },
  {
   "property": "C13",
   "status": "proved",
   "theorems": [
    "Verif.Props.C13_classification",
    "Verif.Props.C13_accepts",
    "Verif.Props.C13_unknown"
   ],
   "note": ""
  },
  {
   "property": "C14",
   "status": "proved",
   "theorems": [
    "Verif.Props.C14_layout",
    "Verif.Props.C14_decode",
    "Verif.Props.C14_injective",
    "Verif.Props.C14_wide_id_aliases"
   ],
   "note": "Also proved for 8-bit mode when the identifiers fit 8 bits; C14_wide_id_aliases shows that restriction is needed."
  },
  {
   "property": "C15",
   "status": "proved",
   "theorems": [
    "Verif.Props.C15_total",
    "Verif.Props.C15_accepts"
   ],
   "note": ""
  },
  {
   "property": "C16",
   "status": "proved",
   "theorems": [
    "Verif.Props.C16_encaps_exception_state",
    "Verif.Props.C16_all_or_nothing_violated",
    "Verif.Props.C16_response_exception_state",
    "Verif.Props.C16_response_all_or_nothing_violated"
   ],
   "note": ""
  },
  {
   "property": "C17",
   "status": "proved",
   "theorems": [
    "Verif.Props.C17_independent",
    "Verif.Props.C17_order_irrelevant"
   ],
   "note": ""
  },
  {
   "property": "C18",
   "status": "proved",
   "theorems": [
    "Verif.Props.C18_accumulate",
    "Verif.Props.C18_last_write_wins_violated"
   ],
   "note": ""
  },
  {
   "property": "C19",
   "status": "proved",
   "theorems": [
    "Verif.Props.C19_forwardOpen",
    "Verif.Props.C19_largeForwardOpen",
    "Verif.Props.C19_forwardClose"
   ],
   "note": ""
  },
  {
   "property": "C20",
   "status": "proved",
   "theorems": [
    "Verif.Props.C20_accepts",
    "Verif.Props.C20_classification"
   ],
   "note": ""
  },
  {
   "property": "C21",
   "status": "proved",
   "theorems": [
    "Verif.Props.C21_receive",
    "Verif.Props.C21_same_stream"
   ],
   "note": ""
  },
  {
   "property": "C22",
   "status": "proved",
   "theorems": [
    "Verif.Props.C22_in_step"
   ],
   "note": ""
  },
  {
   "property": "C23",
   "status": "proved",
   "theorems": [
    "Verif.Props.C23_only_success"
   ],
   "note": ""
  },
  {
   "property": "C24",
   "status": "proved",
   "theorems": [
    "Verif.Props.C24_receive_short",
    "Verif.Props.C24_truncated_accepted"
   ],
   "note": ""
  },
  {
   "property": "C25",
   "status": "proved",
   "theorems": [
    "Verif.Props.C25_register",
    "Verif.Props.C25_handle_enforced",
    "Verif.Props.C25_registered_violated"
   ],
   "note": "That requests carry the handle is part of C27_request, whose frame contains it."
  },
  {
   "property": "C26",
   "status": "proved",
   "theorems": [
    "Verif.Props.C26_send",
    "Verif.Props.C26_reports_failure_violated",
    "Verif.Props.C26_udp_send"
   ],
   "note": ""
  },
  {
   "property": "C27",
   "status": "proved",
   "theorems": [
    "Verif.Props.C27_request",
    "Verif.Props.C27_history"
   ],
   "note": ""
  },
  {
   "property": "C28",
   "status": "proved",
   "theorems": [
    "Verif.Props.C28_returns",
    "Verif.Props.C28_malformed"
   ],
   "note": ""
  },
  {
   "property": "C29",
   "status": "proved",
   "theorems": [
    "Verif.Props.C29_request",
    "Verif.Props.C29_large_request",
    "Verif.Props.C29_fits",
    "Verif.Props.C29_carry_violated"
   ],
   "note": ""
  },
  {
   "property": "C30",
   "status": "proved",
   "theorems": [
    "Verif.Props.C30_serial",
    "Verif.Props.C30_distinct",
    "Verif.Props.C30_overflow"
   ],
   "note": ""
  },
  {
   "property": "C31",
   "status": "proved",
   "theorems": [
    "Verif.Props.C31_p2p",
    "Verif.Props.C31_multicast",
    "Verif.Props.C31_first"
   ],
   "note": ""
  },
  {
   "property": "C32",
   "status": "proved",
   "theorems": [
    "Verif.Props.C32_table",
    "Verif.Props.C32_hasOpen"
   ],
   "note": ""
  },
  {
   "property": "C33",
   "status": "proved",
   "theorems": [
    "Verif.Props.C33_accepted",
    "Verif.Props.C33_refused",
    "Verif.Props.C33_destination",
    "Verif.Props.C33_multiplier",
    "Verif.Props.C33_collision_violated"
   ],
   "note": ""
  },
  {
   "property": "C34",
   "status": "proved",
   "theorems": [
    "Verif.Props.C34_routes",
    "Verif.Props.C34_right_connection",
    "Verif.Props.C34_misdelivered_violated"
   ],
   "note": ""
  },
  {
   "property": "C35",
   "status": "proved",
   "theorems": [
    "Verif.Props.C35_fixed_size",
    "Verif.Props.C35_wrong_size_ignored",
    "Verif.Props.C35_manager"
   ],
   "note": ""
  },
  {
   "property": "C36",
   "status": "proved",
   "theorems": [
    "Verif.Props.C36_decode",
    "Verif.Props.C36_own_layout",
    "Verif.Props.C36_both_mixed",
    "Verif.Props.C36_own_layout_violated",
    "Verif.Props.C36_short"
   ],
   "note": ""
  },
  {
   "property": "C37",
   "status": "proved",
   "theorems": [
    "Verif.Props.C37_C50_transmission",
    "Verif.Props.C37_C50_manager",
    "Verif.Props.C37_sends"
   ],
   "note": ""
  },
  {
   "property": "C38",
   "status": "proved",
   "theorems": [
    "Verif.Props.C38_never_faster",
    "Verif.Props.C38_manager"
   ],
   "note": ""
  },
  {
   "property": "C39",
   "status": "proved",
   "theorems": [
    "Verif.Props.C39_starved",
    "Verif.Props.C39_bounded_loss",
    "Verif.Props.C39_manager"
   ],
   "note": ""
  },
  {
   "property": "C40",
   "status": "proved",
   "theorems": [
    "Verif.Props.C40_timeout",
    "Verif.Props.C40_timeout_codes",
    "Verif.Props.C40_multiplier_zero",
    "Verif.Props.C40_overflow_violated",
    "Verif.Props.C40_gap_violated",
    "Verif.Props.C40_manager"
   ],
   "note": ""
  },
  {
   "property": "C41",
   "status": "proved",
   "theorems": [
    "Verif.Props.C41_only_handle",
    "Verif.Props.C41_closed_iff_removed",
    "Verif.Props.C41_silent_after_removal",
    "Verif.Props.C41_at_most_once",
    "Verif.Props.C41_closed_twice_violated"
   ],
   "note": "At most once holds when every sendto transmits the whole datagram or fails with -1 and no send or close listener throws; C84_close_runs bounds the number of runs without these assumptions."
  },
  {
   "property": "C42",
   "status": "proved",
   "theorems": [
    "Verif.Props.C42_close",
    "Verif.Props.C42_close_throws",
    "Verif.Props.C42_expired",
    "Verif.Props.C42_expired_iff",
    "Verif.Props.C42_stale",
    "Verif.Props.C42_removes_other_violated",
    "Verif.Props.C42_aborts_violated"
   ],
   "note": ""
  },
  {
   "property": "C43",
   "status": "proved",
   "theorems": [
    "Verif.Props.C43_one_socket"
   ],
   "note": ""
  },
  {
   "property": "C44",
   "status": "proved",
   "theorems": [
    "Verif.Props.C44_partial_order",
    "Verif.Props.C44_equivalent_iff",
    "Verif.Props.C44_not_weak_order_violated",
    "Verif.Props.C44_inconsistent_with_eq_violated"
   ],
   "note": ""
  },
  {
   "property": "C45",
   "status": "proved",
   "theorems": [
    "Verif.Props.C45_needs_socket"
   ],
   "note": ""
  },
  {
   "property": "C46",
   "status": "proved",
   "theorems": [
    "Verif.Props.C46_outcome",
    "Verif.Props.C46_exception_state",
    "Verif.Props.C46_ub",
    "Verif.Props.C46_robust_violated"
   ],
   "note": ""
  },
  {
   "property": "C47",
   "status": "proved",
   "theorems": [
    "Verif.Props.C47_zeros",
    "Verif.Props.C47_cut",
    "Verif.Props.C47_invented",
    "Verif.Props.C47_invented_violated"
   ],
   "note": ""
  },
  {
   "property": "C48",
   "status": "proved",
   "theorems": [
    "Verif.Props.C48_interval",
    "Verif.Props.C48_all_waits"
   ],
   "note": ""
  },
  {
   "property": "C49",
   "status": "proved",
   "theorems": [
    "Verif.Props.C49_waits",
    "Verif.Props.C49_quiet",
    "Verif.Props.C49_late_violated"
   ],
   "note": ""
  },
  {
   "property": "C50",
   "status": "proved",
   "theorems": [
    "Verif.Props.C37_C50_transmission",
    "Verif.Props.C37_C50_manager"
   ],
   "note": ""
  },
  {
   "property": "C51",
   "status": "proved",
   "theorems": [
    "Verif.Props.C51_isolated",
    "Verif.Props.C51_frame"
   ],
   "note": ""
  },
  {
   "property": "C52",
   "status": "proved",
   "theorems": [
    "Verif.Props.C52_discovers",
    "Verif.Props.C52_wellformed"
   ],
   "note": ""
  },
  {
   "property": "C53",
   "status": "proved",
   "theorems": [
    "Verif.Props.C53_only_would_block",
    "Verif.Props.C53_error",
    "Verif.Props.C53_rejected",
    "Verif.Props.C53_short_violated",
    "Verif.Props.C53_no_socket",
    "Verif.Props.C53_short_send"
   ],
   "note": "Read with C52_discovers, C53_only_would_block is an equivalence.  Without an out-of-bounds trap a short item is reported with whatever bytes lie behind it."
  },
  {
   "property": "C54",
   "status": "proved",
   "theorems": [
    "Verif.Props.C54_request",
    "Verif.Props.C54_read",
    "Verif.Props.C54_failed",
    "Verif.Props.C54_short_violated"
   ],
   "note": ""
  },
  {
   "property": "C55",
   "status": "proved",
   "theorems": [
    "Verif.Props.C55_requests",
    "Verif.Props.C55_reads",
    "Verif.Props.C55_sound",
    "Verif.Props.C55_shifted_violated"
   ],
   "note": ""
  },
  {
   "property": "C56",
   "status": "proved",
   "theorems": [
    "Verif.Props.C56_formula",
    "Verif.Props.C56_inverse",
    "Verif.Props.C56_inverse_back",
    "Verif.Props.C56_monotone",
    "Verif.Props.C56_monotone_back"
   ],
   "note": "double is modelled by rationals with a rounding function; C105 has infinities and NaN."
  },
  {
   "property": "C57",
   "status": "proved",
   "theorems": [
    "Verif.Props.C57_overflow_violated"
   ],
   "note": ""
  },
  {
   "property": "C58",
   "status": "proved",
   "theorems": [
    "Verif.Props.C58_request",
    "Verif.Props.C58_updates",
    "Verif.Props.C58_refused",
    "Verif.Props.C58_short_violated",
    "Verif.Props.C58_no_router_violated",
    "Verif.Props.C58_router"
   ],
   "note": ""
  },
  {
   "property": "C59",
   "status": "proved",
   "theorems": [
    "Verif.Props.C59_upload",
    "Verif.Props.C59_chunks"
   ],
   "note": ""
  },
  {
   "property": "C60",
   "status": "proved",
   "theorems": [
    "Verif.Props.C60_content",
    "Verif.Props.C60_two_last_violated"
   ],
   "note": "For the first call of the handler exactly one of the packets is a last packet."
  },
  {
   "property": "C61",
   "status": "proved",
   "theorems": [
    "Verif.Props.C61_one_call",
    "Verif.Props.C61_count",
    "Verif.Props.C61_error_violated",
    "Verif.Props.C61_after_completion_violated"
   ],
   "note": ""
  },
  {
   "property": "C62",
   "status": "proved",
   "theorems": [
    "Verif.Props.C62_create",
    "Verif.Props.C62_begin",
    "Verif.Props.C62_begin_other",
    "Verif.Props.C62_transfer_other",
    "Verif.Props.C62_empty_violated"
   ],
   "note": ""
  },
  {
   "property": "C63",
   "status": "proved",
   "theorems": [
    "Verif.Props.C63_listing",
    "Verif.Props.C63_sound",
    "Verif.Props.C63_throws",
    "Verif.Props.C63_number",
    "Verif.Props.C63_command"
   ],
   "note": ""
  },
  {
   "property": "C64",
   "status": "proved",
   "theorems": [
    "Verif.Props.C64_known",
    "Verif.Props.C64_unknown",
    "Verif.Props.C64_violated"
   ],
   "note": ""
  },
  {
   "property": "C65",
   "status": "proved",
   "theorems": [
    "Verif.Props.C65_read",
    "Verif.Props.C65_failed",
    "Verif.Props.C65_short_violated"
   ],
   "note": ""
  },
  {
   "property": "C66",
   "status": "proved",
   "theorems": [
    "Verif.Props.C66_layout",
    "Verif.Props.C66_request",
    "Verif.Props.C66_router",
    "Verif.Props.C66_expand",
    "Verif.Props.C66_roundtrip",
    "Verif.Props.C66_eq",
    "Verif.Props.C66_text",
    "Verif.Props.C66_cut_violated"
   ],
   "note": ""
  },
  {
   "property": "C67",
   "status": "proved",
   "theorems": [
    "Verif.Props.C67_history",
    "Verif.Props.C67_aborts",
    "Verif.Props.C67_total",
    "Verif.Props.C67_off",
    "Verif.Props.C67_fatal_violated"
   ],
   "note": "How values are formatted as text is not modelled."
  },
  {
   "property": "C68",
   "status": "proved",
   "theorems": [
    "Verif.Props.C68_outcome",
    "Verif.Props.C68_connected",
    "Verif.Props.C68_closes",
    "Verif.Props.C68_destroy",
    "Verif.Props.C68_calls",
    "Verif.Props.C68_leak_violated",
    "Verif.Props.C68_eintr_violated",
    "Verif.Props.C68_fdset_violated"
   ],
   "note": ""
  },
  {
   "property": "C69",
   "status": "proved",
   "theorems": [
    "Verif.Props.C69_chain",
    "Verif.Props.C69_chained_settings_lost"
   ],
   "note": ""
  },
  {
   "property": "C70",
   "status": "proved",
   "theorems": [
    "Verif.Props.C70_constants_agree",
    "Verif.Props.C70_large_is_shifted",
    "Verif.Props.C70_transport"
   ],
   "note": ""
  },
  {
   "property": "C71",
   "status": "proved",
   "theorems": [
    "Verif.Props.C71_destructor",
    "Verif.Props.C71_never_terminates_violated"
   ],
   "note": ""
  },
  {
   "property": "C72",
   "status": "proved",
   "theorems": [
    "Verif.Props.C72_late_reply"
   ],
   "note": ""
  },
  {
   "property": "C73",
   "status": "proved",
   "theorems": [
    "Verif.Props.C73_values",
    "Verif.Props.C73_set_get",
    "Verif.Props.C73_set"
   ],
   "note": ""
  },
  {
   "property": "C74",
   "status": "proved",
   "theorems": [
    "Verif.Props.C74_reads",
    "Verif.Props.C74_short_violated"
   ],
   "note": ""
  },
  {
   "property": "C75",
   "status": "proved",
   "theorems": [
    "Verif.Props.C75_malformed"
   ],
   "note": ""
  },
  {
   "property": "C76",
   "status": "proved",
   "theorems": [
    "Verif.Props.C76_drive",
    "Verif.Props.C76_twice"
   ],
   "note": ""
  },
  {
   "property": "C77",
   "status": "proved",
   "theorems": [
    "Verif.Props.C77_failed",
    "Verif.Props.C77_made",
    "Verif.Props.C77_life"
   ],
   "note": ""
  },
  {
   "property": "C78",
   "status": "proved",
   "theorems": [
    "Verif.Props.C78_isolated",
    "Verif.Props.C78_table",
    "Verif.Props.C78_ticked_once",
    "Verif.Props.C78_all_ticked",
    "Verif.Props.C78_removed",
    "Verif.Props.C78_closed_removed",
    "Verif.Props.C78_silent_after_removal",
    "Verif.Props.C78_closed_once",
    "Verif.Props.C78_transmission",
    "Verif.Props.C78_never_faster",
    "Verif.Props.C78_timeout",
    "Verif.Props.C78_conservative",
    "Verif.Props.C78_self_close",
    "Verif.Props.C78_harmless",
    "Verif.Props.C78_harmless_receiving",
    "Verif.Props.C78_close_in_close_listener_violated",
    "Verif.Props.C78_close_in_send_listener_violated",
    "Verif.Props.C78_handle_in_close_listener_violated",
    "Verif.Props.C78_reopen_in_close_listener_violated",
    "Verif.Props.C78_new_connection_removed_violated",
    "Verif.Props.C78_out_of_order_violated"
   ],
   "note": "The listeners may throw after their calls. A send or close listener that closes its own connection is undefined whether or not it throws."
  },
  {
   "property": "C79",
   "status": "proved",
   "theorems": [
    "Verif.Props.C79_answer",
    "Verif.Props.C79_grants",
    "Verif.Props.C79_identity",
    "Verif.Props.C79_parameter",
    "Verif.Props.C79_update",
    "Verif.Props.C79_faults",
    "Verif.Props.C79_upload"
   ],
   "note": ""
  },
  {
   "property": "C80",
   "status": "proved",
   "theorems": [
    "Verif.Props.C80_path_eq",
    "Verif.Props.C80_path_equivalence",
    "Verif.Props.C80_path_text",
    "Verif.Props.C80_endpoint_equivalence",
    "Verif.Props.C80_endpoint_host",
    "Verif.Props.C80_endpoint_address",
    "Verif.Props.C80_endpoint_spelling_violated",
    "Verif.Props.C80_endpoint_port_violated"
   ],
   "note": ""
  },
  {
   "property": "C81",
   "status": "proved",
   "theorems": [
    "Verif.Props.C81_silent_closed",
    "Verif.Props.C81_loop_ends",
    "Verif.Props.C81_fed_open",
    "Verif.Props.C81_all_kept"
   ],
   "note": ""
  },
  {
   "property": "C82",
   "status": "proved",
   "theorems": [
    "Verif.Props.C82_open_at_target",
    "Verif.Props.C82_agree",
    "Verif.Props.C82_orphan_stays",
    "Verif.Props.C82_failed_open",
    "Verif.Props.C82_weak_pointers",
    "Verif.Props.C82_orphan_violated",
    "Verif.Props.C82_collision_violated",
    "Verif.Props.C82_timeout_violated"
   ],
   "note": "The target is a specification; requests or replies lost on the way are excluded."
  },
  {
   "property": "C83",
   "status": "proved",
   "theorems": [
    "Verif.Props.C83_history",
    "Verif.Props.C83_bytes",
    "Verif.Props.C83_replies",
    "Verif.Props.C83_readable",
    "Verif.Props.C83_life"
   ],
   "note": "The system accepts every send in full; requests fit a frame (connection paths of less than about 65000 bytes)."
  },
  {
   "property": "C84",
   "status": "proved",
   "theorems": [
    "Verif.Props.C84_exception",
    "Verif.Props.C84_listener_ends_call",
    "Verif.Props.C84_receive",
    "Verif.Props.C84_nothing_sent",
    "Verif.Props.C84_close_runs",
    "Verif.Props.C84_starves",
    "Verif.Props.C84_dead_again",
    "Verif.Props.C84_closed_twice_violated",
    "Verif.Props.C84_removal_lost_violated",
    "Verif.Props.C84_revived_violated",
    "Verif.Props.C84_starved_violated"
   ],
   "note": ""
  },
  {
   "property": "C85",
   "status": "proved",
   "theorems": [
    "Verif.Props.C85_descriptors",
    "Verif.Props.C85_count",
    "Verif.Props.C85_failed_open",
    "Verif.Props.C85_nothing_left",
    "Verif.Props.C85_destroyed",
    "Verif.Props.C85_refines",
    "Verif.Props.C85_sends",
    "Verif.Props.C85_own",
    "Verif.Props.C85_bind"
   ],
   "note": "The system never returns a descriptor that is open; nothing else closes a descriptor of the library."
  },
  {
   "property": "C86",
   "status": "proved",
   "theorems": [
    "Verif.Props.C86_defined",
    "Verif.Props.C86_other_operations",
    "Verif.Props.C86_watched",
    "Verif.Props.C86_posix",
    "Verif.Props.C86_full_violated"
   ],
   "note": ""
  },
  {
   "property": "C87",
   "status": "proved",
   "theorems": [
    "Verif.Props.C87_refines",
    "Verif.Props.C87_calls",
    "Verif.Props.C87_descriptor",
    "Verif.Props.C87_returns",
    "Verif.Props.C87_when",
    "Verif.Props.C87_bounded_violated",
    "Verif.Props.C87_forever_violated"
   ],
   "note": "SO_RCVTIMEO is modelled as the manual describes it."
  },
  {
   "property": "C88",
   "status": "proved",
   "theorems": [
    "Verif.Props.C88_refines",
    "Verif.Props.C88_in_time",
    "Verif.Props.C88_gives_up",
    "Verif.Props.C88_bounded",
    "Verif.Props.C88_within_timeout_violated",
    "Verif.Props.C88_forever_violated"
   ],
   "note": "SO_RCVTIMEO is modelled as the manual describes it; only waiting takes time. The user's expectation is refuted by the theorems named _violated."
  },
  {
   "property": "C89",
   "status": "proved",
   "theorems": [
    "Verif.Props.C89_in_time",
    "Verif.Props.C89_own_reply_violated"
   ],
   "note": "The user's expectation is refuted by C89_own_reply_violated, for every history of that form."
  },
  {
   "property": "C90",
   "status": "proved",
   "theorems": [
    "Verif.Props.C90_request_same",
    "Verif.Props.C90_identity",
    "Verif.Props.C90_parameter",
    "Verif.Props.C90_update",
    "Verif.Props.C90_file",
    "Verif.Props.C90_file_begin",
    "Verif.Props.C90_file_step",
    "Verif.Props.C90_fault",
    "Verif.Props.C90_faults",
    "Verif.Props.C90_fault_object"
   ],
   "note": "Reads after the end of a vector return some byte (Mem.Lenient); otherwise they are undefined behaviour (C03)."
  },
  {
   "property": "C91",
   "status": "proved",
   "theorems": [
    "Verif.Props.C91_identity_silent",
    "Verif.Props.C91_parameter_silent",
    "Verif.Props.C91_update_silent",
    "Verif.Props.C91_upload_silent",
    "Verif.Props.C91_faults_silent",
    "Verif.Props.C91_own_value_violated",
    "Verif.Props.C91_upload_goes_on_violated"
   ],
   "note": "The user's expectation is refuted by the theorems named _violated."
  },
  {
   "property": "C92",
   "status": "proved",
   "theorems": [
    "Verif.Props.C92_packet",
    "Verif.Props.C92_item",
    "Verif.Props.C92_item_violated",
    "Verif.Props.C92_revision"
   ],
   "note": "The bound on items is needed: C92_item_violated."
  },
  {
   "property": "C93",
   "status": "proved",
   "theorems": [
    "Verif.Props.C93_time",
    "Verif.Props.C93_one_request",
    "Verif.Props.C93_same",
    "Verif.Props.C93_open_silent",
    "Verif.Props.C93_close_silent",
    "Verif.Props.C93_own_connection_violated"
   ],
   "note": "The user's expectation is refuted by C93_own_connection_violated. Time spent in handleConnections is the subject of C48 and C49."
  },
  {
   "property": "C94",
   "status": "proved",
   "theorems": [
    "Verif.Props.C94_receives",
    "Verif.Props.C94_time",
    "Verif.Props.C94_loop",
    "Verif.Props.C94_sends",
    "Verif.Props.C94_starved_violated"
   ],
   "note": "The user's expectation for every timeout is refuted by C94_starved_violated. The system's select is taken to be exact."
  },
  {
   "property": "C95",
   "status": "proved",
   "theorems": [
    "Verif.Props.C95_undefined_iff",
    "Verif.Props.C95_asserts_iff",
    "Verif.Props.C95_proper"
   ],
   "note": "Stray reads of vectors count as undefined behaviour (Mem.strict). Listeners that call the manager are the subject of C78."
  },
  {
   "property": "C96",
   "status": "proved",
   "theorems": [
    "Verif.Props.C96_explicit",
    "Verif.Props.C96_file",
    "Verif.Props.C96_file_content",
    "Verif.Props.C96_file_forever_violated",
    "Verif.Props.C96_file_silent_violated",
    "Verif.Props.C96_file_refused_violated",
    "Verif.Props.C96_parameters_none",
    "Verif.Props.C96_parameters",
    "Verif.Props.C96_parameters_small_violated",
    "Verif.Props.C96_parameters_class",
    "Verif.Props.C96_parameters_sound"
   ],
   "note": "Log output other than the lines about the answers, and the C++ runtime around main, are not modelled."
  },
  {
   "property": "C97",
   "status": "proved",
   "theorems": [
    "Verif.Props.C97_program",
    "Verif.Props.C97_uncaught_violated",
    "Verif.Props.C97_defined",
    "Verif.Props.C97_request",
    "Verif.Props.C97_sends"
   ],
   "note": "The expectation that the program always closes what it opened is refuted by C97_uncaught_violated."
  },
  {
   "property": "C98",
   "status": "proved",
   "theorems": [
    "Verif.Props.C98_refines",
    "Verif.Props.C98_others",
    "Verif.Props.C98_numbers",
    "Verif.Props.C98_distinct",
    "Verif.Props.C98_destroy",
    "Verif.Props.C98_silent",
    "Verif.Props.C98_own_close",
    "Verif.Props.C98_foreign",
    "Verif.Props.C98_incarnation_violated",
    "Verif.Props.C98_foreign_close_violated"
   ],
   "note": "The user's expectations are refuted by the theorems named _violated. All managers are used by one thread."
  },
  {
   "property": "C99",
   "status": "proved",
   "theorems": [
    "Verif.Props.C99_parameter",
    "Verif.Props.C99_limit",
    "Verif.Props.C99_limit_kept",
    "Verif.Props.C99_fresh",
    "Verif.Props.C99_number_violated",
    "Verif.Props.C99_identity"
   ],
   "note": "The user's expectation about getParameter() is refuted by C99_number_violated. Limits of type float and double are in C105."
  },
  {
   "property": "C100",
   "status": "proved",
   "theorems": [
    "Verif.Props.C100_locked",
    "Verif.Props.C100_order",
    "Verif.Props.C100_requests",
    "Verif.Props.C100_gives",
    "Verif.Props.C100_handle",
    "Verif.Props.C100_late",
    "Verif.Props.C100_swapped_violated",
    "Verif.Props.C100_torn_violated",
    "Verif.Props.C100_late_violated",
    "Verif.Props.C100_half_violated"
   ],
   "note": "The expectation without a lock, or with timeouts, is refuted by the theorems named _violated. C100_locked is for schedules without timeouts, C100_late for those with timeouts between replies; each system call is atomic and send takes the whole packet."
  },
  {
   "property": "C101",
   "status": "proved",
   "theorems": [
    "Verif.Props.C101_order",
    "Verif.Props.C101_one_opener",
    "Verif.Props.C101_opens_violated"
   ],
   "note": "That the order of opens does not matter is refuted by C101_opens_violated. Calls are atomic: calls that run at the same time are not covered. The replies and datagrams each call gets are part of the call."
  },
  {
   "property": "C102",
   "status": "proved",
   "theorems": [
    "Verif.Props.C102_code",
    "Verif.Props.C102_stays",
    "Verif.Props.C102_sync",
    "Verif.Props.C102_uploads",
    "Verif.Props.C102_again_violated"
   ],
   "note": "The expectation about a second beginUpload is refuted by C102_again_violated. Handlers return and do not use the object; C106 has handlers that do."
  },
  {
   "property": "C103",
   "status": "proved",
   "theorems": [
    "Verif.Props.C103_fill",
    "Verif.Props.C103_read",
    "Verif.Props.C103_write",
    "Verif.Props.C103_yaskawa",
    "Verif.Props.C103_yaskawa_throws",
    "Verif.Props.C103_short_violated",
    "Verif.Props.C103_whole",
    "Verif.Props.C103_identity",
    "Verif.Props.C103_discovery",
    "Verif.Props.C103_discovery_ends"
   ],
   "note": "The expectation about short replies is refuted by C103_short_violated. Log lines are the values streamed, not their text. The main under #if 0 is not modelled."
  },
  {
   "property": "C104",
   "status": "proved",
   "theorems": [
    "Verif.Props.C104_nearest",
    "Verif.Props.C104_tie",
    "Verif.Props.C104_rounding",
    "Verif.Props.C104_error",
    "Verif.Props.C104_accuracy",
    "Verif.Props.C104_limit",
    "Verif.Props.C104_exact",
    "Verif.Props.C104_range",
    "Verif.Props.C104_off_by_one_violated",
    "Verif.Props.C104_wide_violated"
   ],
   "note": "The expectation about limits is refuted by C104_off_by_one_violated and C104_wide_violated. Exponents of the model are unbounded, which C104_range shows to make no difference. No contraction of operations and no extended precision (x87) is assumed."
  },
  {
   "property": "C105",
   "status": "proved",
   "theorems": [
    "Verif.Props.C105_double",
    "Verif.Props.C105_float",
    "Verif.Props.C105_get",
    "Verif.Props.C105_set",
    "Verif.Props.C105_real_bits",
    "Verif.Props.C105_lreal_bits",
    "Verif.Props.C105_real_same",
    "Verif.Props.C105_lreal_same",
    "Verif.Props.C105_real",
    "Verif.Props.C105_lreal",
    "Verif.Props.C105_special",
    "Verif.Props.C105_set_lreal",
    "Verif.Props.C105_set_real",
    "Verif.Props.C105_monotone",
    "Verif.Props.C105_sane",
    "Verif.Props.C105_drive",
    "Verif.Props.C105_divisor_zero_violated",
    "Verif.Props.C105_multiplier_zero_violated",
    "Verif.Props.C105_set_infinite_violated",
    "Verif.Props.C105_lreal_overflow_violated"
   ],
   "note": "The expectation is refuted by C105_divisor_zero_violated, C105_multiplier_zero_violated and C105_set_infinite_violated. The sign of zero and the payload of NaN are not kept; a double too large for float becomes infinite (IEEE 754; the C++ standard leaves it open)."
  },
  {
   "property": "C106",
   "status": "proved",
   "theorems": [
    "Verif.Props.C106_transfer",
    "Verif.Props.C106_begin",
    "Verif.Props.C106_transfer_done",
    "Verif.Props.C106_look",
    "Verif.Props.C106_careful",
    "Verif.Props.C106_careful_calls",
    "Verif.Props.C106_restart",
    "Verif.Props.C106_raise",
    "Verif.Props.C106_begin_raise",
    "Verif.Props.C106_drop",
    "Verif.Props.C106_gone_violated",
    "Verif.Props.C106_after_sync_violated",
    "Verif.Props.C106_begin_again_violated",
    "Verif.Props.C106_nested_violated"
   ],
   "note": "The expectations are refuted by C106_after_sync_violated, C106_nested_violated, C106_begin_again_violated and C106_drop. Handlers do not catch exceptions of the calls they make. Destroying a std::function while it runs is taken as defined as long as nothing of it is used afterwards."
  },
  {
   "property": "C107",
   "status": "proved",
   "theorems": [
    "Verif.Props.C107_locked",
    "Verif.Props.C107_distinct",
    "Verif.Props.C107_one_thread",
    "Verif.Props.C107_race_violated",
    "Verif.Props.C107_same_numbers_violated",
    "Verif.Props.C107_repeated_violated"
   ],
   "note": "The expectation is refuted by the theorems named _violated. After a request the rest of a call uses no shared state. The initialisation of a static counter is atomic (C++11)."
  },
  {
   "property": "C108",
   "status": "proved",
   "theorems": [
    "Verif.Props.C108_reads",
    "Verif.Props.C108_none_lost",
    "Verif.Props.C108_sender",
    "Verif.Props.C108_stranger_violated",
    "Verif.Props.C108_shared_port_violated"
   ],
   "note": "The expectations are refuted by the theorems named _violated. To which socket of a port the system gives a datagram is arbitrary in the model. Errors of recvfrom are in C34, not here."
  },
  {
   "property": "C109",
   "status": "proved",
   "theorems": [
    "Verif.Props.C109_ids",
    "Verif.Props.C109_request",
    "Verif.Props.C109_additional",
    "Verif.Props.C109_status_character",
    "Verif.Props.C109_status_violated",
    "Verif.Props.C109_close_violated",
    "Verif.Props.C109_file",
    "Verif.Props.C109_file_violated",
    "Verif.Props.C109_refused",
    "Verif.Props.C109_opened",
    "Verif.Props.C109_opened_violated",
    "Verif.Props.C109_closed",
    "Verif.Props.C109_tick",
    "Verif.Props.C109_recv",
    "Verif.Props.C109_drop",
    "Verif.Props.C109_console",
    "Verif.Props.C109_sockets"
   ],
   "note": "The expectations are refuted by the theorems named _violated. That a value of an enumeration over an 8-bit type is streamed as a character is the behaviour of the C++ library. The messages of file objects in their histories are C125."
  },
  {
   "property": "C110",
   "status": "proved",
   "theorems": [
    "Verif.Props.C110_hosts",
    "Verif.Props.C110_dotted",
    "Verif.Props.C110_round",
    "Verif.Props.C110_name_violated",
    "Verif.Props.C110_padded_violated"
   ],
   "note": "The expectations are refuted by the theorems named _violated. inet_aton is not in the repository: the model follows the documented behaviour of the GNU C library and is part of the trusted base of this property alone. The Windows branch (inet_pton) is not modelled."
  },
  {
   "property": "C111",
   "status": "proved",
   "theorems": [
    "Verif.Props.C111_defined",
    "Verif.Props.C111_kept",
    "Verif.Props.C111_locked",
    "Verif.Props.C111_in_turn",
    "Verif.Props.C111_mixed_violated",
    "Verif.Props.C111_race_violated",
    "Verif.Props.C111_destroyed_violated"
   ],
   "note": "The expectations are refuted by the theorems named _violated. That concurrent use of std::cout is no data race but may interleave characters is what the C++ standard says. An appender of the user is taken to be safe for concurrent calls."
  },
  {
   "property": "C112",
   "status": "proved",
   "theorems": [
    "Verif.Props.C112_order",
    "Verif.Props.C112_reply",
    "Verif.Props.C112_length_violated"
   ],
   "note": "The expectation is refuted by the theorem named _violated. A call on an empty queue waits and the program goes no further. Failures of sendto are in C26; the reply by host and port uses the model of inet_aton of C110."
  },
  {
   "property": "C113",
   "status": "proved",
   "theorems": [
    "Verif.Props.C113_defined",
    "Verif.Props.C113_self_violated",
    "Verif.Props.C113_refines",
    "Verif.Props.C113_latest",
    "Verif.Props.C113_data",
    "Verif.Props.C113_empty_violated"
   ],
   "note": "The expectations are refuted by the theorems named _violated. Functions of the user that call the manager are in C78; moved or shared captures that survive the function are not in the model, which takes everything captured as destroyed with it."
  },
  {
   "property": "C114",
   "status": "proved",
   "theorems": [
    "Verif.Props.C114_objects",
    "Verif.Props.C114_own",
    "Verif.Props.C114_pointers",
    "Verif.Props.C114_handler",
    "Verif.Props.C114_destroy",
    "Verif.Props.C114_destroyed_violated",
    "Verif.Props.C114_deaf_violated",
    "Verif.Props.C114_close_violated",
    "Verif.Props.C114_twice_violated",
    "Verif.Props.C114_assign",
    "Verif.Props.C114_swap_violated"
   ],
   "note": "The expectations are refuted by the theorems named _violated."
  },
  {
   "property": "C115",
   "status": "proved",
   "theorems": [
    "Verif.Props.C115_own",
    "Verif.Props.C115_wire",
    "Verif.Props.C115_destroy",
    "Verif.Props.C115_stale_violated",
    "Verif.Props.C115_vector_violated",
    "Verif.Props.C115_next_violated",
    "Verif.Props.C115_file_violated"
   ],
   "note": "The expectations are refuted by the theorems named _violated. Assignment of sessions is C118."
  },
  {
   "property": "C116",
   "status": "proved",
   "theorems": [
    "Verif.Props.C116_as_arrived",
    "Verif.Props.C116_number_ignored",
    "Verif.Props.C116_filter",
    "Verif.Props.C116_order_violated",
    "Verif.Props.C116_filter_violated",
    "Verif.Props.C116_replay_violated"
   ],
   "note": "The expectations are refuted by the theorems named _violated. Datagrams of a target are in the layout that the scanner reads (C36); calls of handleConnections return normally and the connection stays open (C46 and C81 say when)."
  },
  {
   "property": "C117",
   "status": "proved",
   "theorems": [
    "Verif.Props.C117_little",
    "Verif.Props.C117_system",
    "Verif.Props.C117_roundtrip",
    "Verif.Props.C117_written",
    "Verif.Props.C117_read",
    "Verif.Props.C117_big_violated",
    "Verif.Props.C117_bsd_violated",
    "Verif.Props.C117_bsd_any_violated"
   ],
   "note": "The expectations are refuted by the theorems named _violated. All other numbers are put in buffers by shifts of their values, which do not depend on the host; that is read off the code and not proved."
  },
  {
   "property": "C118",
   "status": "proved",
   "theorems": [
    "Verif.Props.C118_follows",
    "Verif.Props.C118_same",
    "Verif.Props.C118_leak_violated",
    "Verif.Props.C118_reconnect_violated"
   ],
   "note": "The expectations are refuted by the theorems named _violated. That the old connection leaks when one connects again is C118_leak_violated for the history that ends with the new session."
  },
  {
   "property": "C119",
   "status": "proved",
   "theorems": [
    "Verif.Props.C119_packet",
    "Verif.Props.C119_reply",
    "Verif.Props.C119_taken",
    "Verif.Props.C119_io",
    "Verif.Props.C119_transfer",
    "Verif.Props.C119_discovery",
    "Verif.Props.C119_upload_violated",
    "Verif.Props.C119_discovery_violated"
   ],
   "note": "The expectations are refuted by the theorems named _violated. Sizes are those of the data that the objects hold and hand over; what the allocator adds is not modelled."
  },
  {
   "property": "C120",
   "status": "proved",
   "theorems": [
    "Verif.Props.C120_plenty",
    "Verif.Props.C120_request",
    "Verif.Props.C120_in_step",
    "Verif.Props.C120_router",
    "Verif.Props.C120_begin",
    "Verif.Props.C120_file",
    "Verif.Props.C120_sync",
    "Verif.Props.C120_create_plenty",
    "Verif.Props.C120_file_plenty",
    "Verif.Props.C120_retry",
    "Verif.Props.C120_step_violated",
    "Verif.Props.C120_header_violated",
    "Verif.Props.C120_destroy_violated",
    "Verif.Props.C120_destroy_file_violated",
    "Verif.Props.C120_file_violated"
   ],
   "note": "The expectations are refuted by the theorems named _violated. The log is taken to be off. Allocations with nothing but local effects between them are one place."
  },
  {
   "property": "C121",
   "status": "proved",
   "theorems": [
    "Verif.Props.C121_or_same",
    "Verif.Props.C121_keeps",
    "Verif.Props.C121_table",
    "Verif.Props.C121_open",
    "Verif.Props.C121_nothing",
    "Verif.Props.C121_lost",
    "Verif.Props.C121_unsent",
    "Verif.Props.C121_isolated",
    "Verif.Props.C121_numbers",
    "Verif.Props.C121_forward",
    "Verif.Props.C121_apart_violated",
    "Verif.Props.C121_closed_twice_violated",
    "Verif.Props.C121_orphan_violated"
   ],
   "note": "The expectations are refuted by the theorems named _violated. The log is taken to be off; listeners do not call the manager. A failure inside of the message router or of a listener is an exception of it, as in C84 and C120."
  },
  {
   "property": "C122",
   "status": "proved",
   "theorems": [
    "Verif.Props.C122_devices",
    "Verif.Props.C122_objects",
    "Verif.Props.C122_update",
    "Verif.Props.C122_faults",
    "Verif.Props.C122_kept",
    "Verif.Props.C122_retry",
    "Verif.Props.C122_discover",
    "Verif.Props.C122_yaskawa",
    "Verif.Props.C122_once_violated",
    "Verif.Props.C122_found_violated"
   ],
   "note": "The expectations are refuted by the theorems named _violated. The log is taken to be off. Allocations with nothing but local effects between them are one place."
  },
  {
   "property": "C123",
   "status": "proved",
   "theorems": [
    "Verif.Props.C123_messages",
    "Verif.Props.C123_plenty",
    "Verif.Props.C123_hidden",
    "Verif.Props.C123_prefix",
    "Verif.Props.C123_survives",
    "Verif.Props.C123_request",
    "Verif.Props.C123_end_violated",
    "Verif.Props.C123_first_violated",
    "Verif.Props.C123_number_violated",
    "Verif.Props.C123_request_violated"
   ],
   "note": "The expectations are refuted by the theorems named _violated. That a stream which finds no memory sets its bad bit and does not throw, and that a string of up to 15 characters needs no memory, are the behaviour of the GNU C++ library."
  },
  {
   "property": "C124",
   "status": "proved",
   "theorems": [
    "Verif.Props.C124_levels",
    "Verif.Props.C124_receive",
    "Verif.Props.C124_discover",
    "Verif.Props.C124_transparent",
    "Verif.Props.C124_short_send",
    "Verif.Props.C124_notes",
    "Verif.Props.C124_tcp",
    "Verif.Props.C124_lost_violated",
    "Verif.Props.C124_hidden_violated"
   ],
   "note": "The expectations are refuted by the theorems named _violated. Appenders do not throw here (C67 has those that do) and do not call the library."
  },
  {
   "property": "C125",
   "status": "proved",
   "theorems": [
    "Verif.Props.C125_same",
    "Verif.Props.C125_states",
    "Verif.Props.C125_balanced",
    "Verif.Props.C125_failed",
    "Verif.Props.C125_requests",
    "Verif.Props.C125_failures",
    "Verif.Props.C125_ignored",
    "Verif.Props.C125_resync",
    "Verif.Props.C125_packets",
    "Verif.Props.C125_again_violated",
    "Verif.Props.C125_loaded_violated",
    "Verif.Props.C125_thrown_violated",
    "Verif.Props.C125_status_violated"
   ],
   "note": "The expectations are refuted by the theorems named _violated. The number of the file that the text of one exception has is not modelled."
  },
  {
   "property": "C126",
   "status": "proved",
   "theorems": [
    "Verif.Props.C126_open",
    "Verif.Props.C126_has",
    "Verif.Props.C126_levels",
    "Verif.Props.C126_levels_violated",
    "Verif.Props.C126_opened_violated",
    "Verif.Props.C126_closed_violated",
    "Verif.Props.C126_timedOut_violated",
    "Verif.Props.C126_serial_violated"
   ],
   "note": "Holds for histories without repeated serial numbers in which no call throws after such a message; the `_violated` theorems show that each of these conditions is needed, with the manager's actual state beside what the reader takes it to be."
  },
  {
   "property": "C127",
   "status": "proved",
   "theorems": [
    "Verif.Props.C127_locked",
    "Verif.Props.C127_whole",
    "Verif.Props.C127_norace",
    "Verif.Props.C127_bytes",
    "Verif.Props.C127_race_violated",
    "Verif.Props.C127_torn_violated",
    "Verif.Props.C127_moved_violated"
   ],
   "note": "Holds under a lock of the program; the `_violated` theorems show what happens without. Any change of the size counts as a move of the bytes. C127_bytes takes reads and writes of bytes to be atomic, which C++ does not promise in a race."
  },
  {
   "property": "C128",
   "status": "proved",
   "theorems": [
    "Verif.Props.C128_handle",
    "Verif.Props.C128_connect",
    "Verif.Props.C128_destroy",
    "Verif.Props.C128_no_socket",
    "Verif.Props.C128_bound",
    "Verif.Props.C128_interval",
    "Verif.Props.C128_limit",
    "Verif.Props.C128_limit_same",
    "Verif.Props.C128_discover",
    "Verif.Props.C128_discover_same",
    "Verif.Props.C128_handle_same",
    "Verif.Props.C128_served",
    "Verif.Props.C128_message",
    "Verif.Props.C128_no_message",
    "Verif.Props.C128_timeout_violated",
    "Verif.Props.C128_handle_violated",
    "Verif.Props.C128_bound_violated",
    "Verif.Props.C128_interval_violated",
    "Verif.Props.C128_long_violated",
    "Verif.Props.C128_stranger_violated",
    "Verif.Props.C128_many_violated"
   ],
   "note": "Holds under the conditions in the statement; the `_violated` theorems show what happens without them. What Winsock does is taken from its documentation and is part of the trusted base. inet_pton is not modelled."
  },
  {
   "property": "C129",
   "status": "proved",
   "theorems": [
    "Verif.Props.C129_locked",
    "Verif.Props.C129_norace",
    "Verif.Props.C129_race_violated",
    "Verif.Props.C129_dangling_violated",
    "Verif.Props.C129_abort_violated",
    "Verif.Props.C129_wrong_violated"
   ],
   "note": "Holds under a lock of the program; the `_violated` theorems show what happens without. The accesses of the table are single steps; sockets, received data and the contents of a connection are left out."
  },
  {
   "property": "C130",
   "status": "proved",
   "theorems": [
    "Verif.Props.C130_alive",
    "Verif.Props.C130_exact",
    "Verif.Props.C130_descriptors",
    "Verif.Props.C130_same",
    "Verif.Props.C130_killed_violated",
    "Verif.Props.C130_unreported_violated",
    "Verif.Props.C130_leak_violated"
   ],
   "note": "Holds where the system defines one of the macros; the `_violated` theorems show what happens otherwise. What the system does on a broken pipe is taken from its documentation. Failures of fcntl are in C68."
  }
 ]
}
