# Axioms of the property theorems

Made by `tools/axioms.sh`; `[]` means no axioms at all.

* `C01_packWithBody_layout`: [Quot.sound, propext]
* `C01_pack_function`: [Quot.sound, propext]
* `C01_pack_layout`: [Quot.sound, propext]
* `C01_pack_succeeds`: [Quot.sound, propext]
* `C02_accessors`: [Classical.choice, Quot.sound, propext]
* `C02_accessors_of_packed`: [Classical.choice, Quot.sound, propext]
* `C03_stale_destination_limit`: [Classical.choice, Quot.sound, propext]
* `C03_unpack_pack`: [Classical.choice, Quot.sound, propext]
* `C03_unpack_pack_header`: [Classical.choice, Quot.sound, propext]
* `C04_packHeartbeat`: [Quot.sound, propext]
* `C04_packStuff`: [Quot.sound, propext]
* `C04_signal_unpacks`: [Classical.choice, Quot.sound, propext]
* `C04_unencodable_limit`: [propext]
* `C05_body_verbatim`: [Classical.choice, Quot.sound, propext]
* `C05_packWithBody`: [Quot.sound, propext]
* `C06_header_merge`: [Quot.sound, propext]
* `C06_no_header`: [propext]
* `C07_first_frame`: [Classical.choice, Quot.sound, propext]
* `C07_self_delimiting`: [Classical.choice, Quot.sound, propext]
* `C08_any_length`: [Classical.choice, Quot.sound, propext]
* `C08_fragmentation_independent`: [Classical.choice, Quot.sound, propext]
* `C08_reads_exact_block`: [Classical.choice, Quot.sound, propext]
* `C08_unPackFromReader`: [Classical.choice, Quot.sound, propext]
* `C09_block_complete`: [Classical.choice, Quot.sound, propext]
* `C09_truncated`: [Classical.choice, Quot.sound, propext]
* `C09_unPackFromReader`: [Classical.choice, Quot.sound, propext]
* `C10_no_oversized_block`: [Classical.choice, Quot.sound, propext]
* `C10_oversized_rejected`: [Classical.choice, Quot.sound, propext]
* `C10_within_limit`: [Classical.choice, Quot.sound, propext]
* `C11_accessors_total_partial`: [Classical.choice, Quot.sound, propext]
* `C11_body_misread_violated`: [Quot.sound, propext]
* `C11_fixed_fields_total`: [Classical.choice, Quot.sound, propext]
* `C11_header_panic_iff`: [Classical.choice, Quot.sound, propext]
* `C11_header_panic_violated`: [Quot.sound, propext]
* `C12_negative_length_violated`: [Classical.choice, Quot.sound, propext]
* `C12_no_panic_partial`: [Classical.choice, Quot.sound, propext]
* `C12_unPackFromReader_violated`: [Classical.choice, Quot.sound, propext]
* `C13_reads_past_frame_limit`: [Classical.choice, Quot.sound, propext]
* `C13_unpack_sound`: [Classical.choice, Quot.sound, propext]
* `C14_firstBlockOfBytes`: [Classical.choice, Quot.sound, propext]
* `C15_marshaller_names`: [Quot.sound, propext]
* `C15_names_unambiguous`: [Classical.choice, Quot.sound, propext]
* `C16_format_reply`: [Quot.sound, propext]
* `C17_eof_after_data_partial`: [Classical.choice, Quot.sound, propext]
* `C17_eof_with_data_violated`: [Classical.choice, Quot.sound, propext]
* `C18_contract_one_call`: [Quot.sound, propext]
* `C18_failure_reported`: [Quot.sound, propext]
* `C18_not_fewer`: [Quot.sound, propext]
* `C18_short_write_violated`: [Quot.sound, propext]
* `C18_transmits_once_partial`: [Quot.sound, propext]
* `C19_bad_arguments_partial`: [Classical.choice, Quot.sound, propext]
* `C19_empty`: [propext]
* `C19_group_written`: [Quot.sound, propext]
* `C19_id_truncated_limit`: [Quot.sound, propext]
* `C19_nil_id_violated`: [propext]
* `C19_refuses_bad_partial`: [Classical.choice, Quot.sound, propext]
* `C20_group_received`: [Classical.choice, Quot.sound, propext]
* `C21_events`: [propext]
* `C21_one_after_another`: [Classical.choice, Quot.sound, propext]
* `C21_pipe_order`: [Quot.sound, propext]
* `C22_disconnect_violated`: [Classical.choice, Quot.sound, propext]
* `C22_garbage_violated`: [Quot.sound, propext]
* `C22_stall_partial`: [Classical.choice, Quot.sound, propext]
* `C23_nonpositive_refused`: [Classical.choice, Quot.sound, propext]
* `C24_malformed_refused`: [Classical.choice, Quot.sound, propext]
* `C24_other_marker_ignored`: [Classical.choice, Quot.sound, propext]
* `C25_middleware_violated`: []
* `C25_others_kept`: [Classical.choice, Quot.sound, propext]
* `C25_second_panics`: [Classical.choice, Quot.sound, propext]
* `C25_unchanged_partial`: [Classical.choice, Quot.sound, propext]
* `C26_routed`: [Classical.choice, Quot.sound, propext]
* `C26_routed_url`: [Classical.choice, Quot.sound, propext]
* `C27_leftover_middleware_violated`: []
* `C27_order_partial`: [Classical.choice, Quot.sound, propext]
* `C28_exact`: [Classical.choice, Quot.sound, propext]
* `C28_in_use_partial`: [Classical.choice, Quot.sound, propext]
* `C28_in_use_url_partial`: [Classical.choice, Quot.sound, propext]
* `C28_reuse_function_violated`: []
* `C28_reuse_violated`: [propext]
* `C29_checkPrepare`: [Classical.choice, Quot.sound, propext]
* `C29_checkPrepare_api`: [Classical.choice, Quot.sound, propext]
* `C29_refused_invisible`: [Classical.choice, Quot.sound, propext]
* `C29_unUse_panics_iff`: [Quot.sound, propext]
* `C29_use_ill_typed`: [Quot.sound, propext]
* `C29_use_many`: [Quot.sound, propext]
* `C29_use_panics_iff`: [Quot.sound, propext]
* `C30_guarded_partial`: [Classical.choice, Quot.sound, propext]
* `C30_guarded_url`: [Classical.choice, Quot.sound, propext]
* `C30_id_zero_violated`: []
* `C31_bypass_iff`: [Classical.choice, Quot.sound, propext]
* `C31_heartbeat_default`: [Classical.choice, Quot.sound, propext]
* `C31_heartbeat_flag`: [Classical.choice, Quot.sound, propext]
* `C32_onMessage`: [Quot.sound, propext]
* `C33_any_once_partial`: [Classical.choice, Quot.sound, propext]
* `C33_doubled_violated`: [Classical.choice, Quot.sound, propext]
* `C34_header_decides_partial`: [Classical.choice, Quot.sound, propext]
* `C34_huge_header_violated`: [Classical.choice, Quot.sound, propext]
* `C34_route_exists`: [Classical.choice, Quot.sound, propext]
* `C35_tcp_same_type_partial`: [Classical.choice, Quot.sound, propext]
* `C35_tcp_violated`: [Classical.choice, Quot.sound, propext]
* `C35_udp_partial`: [Classical.choice, Quot.sound, propext]
* `C36_tcp_other_connections_partial`: [Classical.choice, Quot.sound, propext]
* `C36_tcp_shared_violated`: [Classical.choice, Quot.sound, propext]
* `C36_udp_private_partial`: [Classical.choice, Quot.sound, propext]
* `C37_own_pattern_partial`: [Classical.choice, Quot.sound, propext]
* `C37_reply_pattern`: [Classical.choice, Quot.sound, propext]
* `C37_tcp_violated`: [Classical.choice, Quot.sound, propext]
* `C38_first_ones`: [Quot.sound, propext]
* `C38_in_order_at_most_once`: [Quot.sound, propext]
* `C38_no_stuck`: []
* `C38_terminates`: [Quot.sound, propext]
* `C39_all_run_partial`: [Quot.sound, propext]
* `C39_long_chain_violated`: [Quot.sound, propext]
* `C39_run_exists`: [Quot.sound, propext]
* `C40_abort_stops`: [Quot.sound, propext]
* `C41_addHandler_violated`: []
* `C41_any_violated`: [Classical.choice, Quot.sound, propext]
* `C41_locked_partial`: [Classical.choice, Quot.sound, propext]
* `C42_rewrite_partial`: [Classical.choice, Quot.sound, propext]
* `C42_taken_violated`: []
* `C42_unconfigured_violated`: []
* `C43_close_partial`: [Classical.choice, Quot.sound, propext]
* `C43_finishes`: [Quot.sound, propext]
* `C43_forged_name_violated`: [Quot.sound, propext]
* `C44_contents`: [Quot.sound, propext]
* `C44_linearizable`: [Quot.sound, propext]
* `C44_sequential`: [Quot.sound, propext]
* `C45_name_kept_limit`: [Quot.sound, propext]
* `C45_refused`: [Quot.sound, propext]
* `C46_online_races_violated`: [Quot.sound, propext]
* `C46_removed_partial`: [Quot.sound, propext]
* `C46_two_names_violated`: [Quot.sound, propext]
* `C47_other_names_partial`: [Classical.choice, Quot.sound, propext]
* `C47_same_name_violated`: [Quot.sound, propext]
* `C48_send`: [Quot.sound, propext]
* `C48_stale_receiver_limit`: [propext]
* `C49_last_stored_partial`: [Classical.choice, Quot.sound, propext]
* `C49_refused_iff`: [Classical.choice, Quot.sound, propext]
* `C49_request_overwrites_violated`: [Classical.choice, Quot.sound, propext]
* `C50_forged_violated`: [Classical.choice, Quot.sound, propext]
* `C50_last_name_partial`: [Classical.choice, Quot.sound, propext]
* `C51_callback_panics_violated`: [Classical.choice, Quot.sound, propext]
* `C51_closes_partial`: [Classical.choice, Quot.sound, propext]
* `C51_loss`: [Classical.choice, Quot.sound, propext]
* `C51_lost_beat_violated`: [propext]
* `C52_socket_closed_violated`: [Classical.choice, Quot.sound, propext]
* `C52_socket_open_partial`: [Classical.choice, Quot.sound, propext]
* `C53_closes`: [Classical.choice, Quot.sound, propext]
* `C53_once`: [Classical.choice, Quot.sound, propext]
* `C53_waits`: [Classical.choice, Quot.sound, propext]
* `C54_auth_blocks_violated`: [Classical.choice, Quot.sound, propext]
* `C54_beat_blocks_violated`: [Classical.choice, Quot.sound, propext]
* `C54_first_partial`: [Classical.choice, Quot.sound, propext]
* `C55_close_sequence`: [Classical.choice, Quot.sound, propext]
* `C55_exactly_once`: [Classical.choice, Quot.sound, propext]
* `C56_dispatch_partial`: [Classical.choice, Quot.sound, propext]
* `C56_every_stream_splits`: [Classical.choice, Quot.sound, propext]
* `C56_expected_order`: [Classical.choice, Quot.sound, propext]
* `C56_fragmentation_independent`: [Classical.choice, Quot.sound, propext]
* `C56_interrupted_group_violated`: [Classical.choice, Quot.sound, propext]
* `C56_kind_exists_unique`: [Classical.choice, Quot.sound, propext]
* `C56_smuggled_violated`: [Classical.choice, Quot.sound, propext]
* `C57_single_no_panic`: [Classical.choice, Quot.sound, propext]
* `C57_single_survives`: [Classical.choice, Quot.sound, propext]
* `C58_bad_size_limit`: [Quot.sound, propext]
* `C58_huge_header_violated`: [Classical.choice, Quot.sound, propext]
* `C58_no_panic_partial`: [Classical.choice, Quot.sound, propext]
* `C59_handler_panic_violated`: [Classical.choice, Quot.sound, propext]
* `C59_no_handler_panic_partial`: [Classical.choice, Quot.sound, propext]
* `C60_other_networks_violated`: [Classical.choice, Quot.sound, propext]
* `C60_stop_partial`: [Classical.choice, Quot.sound, propext]
* `C61_heartbeat_violated`: [Quot.sound, propext]
* `C61_kept_partial`: [Classical.choice, Quot.sound, propext]
* `C61_pool_partial`: [propext]
* `C62_deadlock_violated`: [Classical.choice, Quot.sound, propext]
* `C62_stop_partial`: [propext]
* `C62_strangers_partial`: [Quot.sound, propext]
* `C63_closes`: [Classical.choice, Quot.sound, propext]
* `C63_not_before`: [Classical.choice, Quot.sound, propext]
* `C63_socket`: [Classical.choice, Quot.sound, propext]
* `C64_kept_partial`: [Classical.choice, Quot.sound, propext]
* `C64_new_connection_violated`: [Classical.choice, Quot.sound, propext]
* `C64_pool_partial`: [Quot.sound, propext]
* `C64_renewed_partial`: [Quot.sound, propext]
* `C64_second_stop_violated`: [propext]
* `C65_count_partial`: [Quot.sound, propext]
* `C65_one_endpoint_partial`: [Quot.sound, propext]
* `C65_restart_partial`: [Classical.choice, Quot.sound, propext]
* `C65_shared_variable_violated`: [Quot.sound, propext]
* `C66_wrong_state`: [propext]
* `C67_records`: [Quot.sound, propext]
* `C68_transport`: [Classical.choice, Quot.sound, propext]
* `C69_in_partial`: [Quot.sound, propext]
* `C69_single_percent_violated`: [Quot.sound, propext]
* `C70_ipv4_partial`: [Classical.choice, Quot.sound, propext]
* `C70_ipv6_violated`: [Classical.choice, Quot.sound, propext]
* `C70_unbracketed_partial`: [Classical.choice, Quot.sound, propext]
* `C70_unix_limit`: [Classical.choice, Quot.sound, propext]
* `C71_get_absent`: [propext]
* `C71_get_set_partial`: [Quot.sound, propext]
* `C71_nil_header_violated`: [propext]
* `C72_dispatched_partial`: [Classical.choice, Quot.sound, propext]
* `C72_message_route`: [Classical.choice, Quot.sound, propext]
* `C72_mixed_violated`: [Classical.choice, Quot.sound, propext]
* `C72_pattern_route`: [Classical.choice, Quot.sound, propext]
* `C72_same_kind_partial`: [Classical.choice, Quot.sound, propext]
* `C73_loop_dies_violated`: [propext]
* `C73_smooth_partial`: [propext]
* `C74_ends_partial`: [Classical.choice, Quot.sound, propext]
* `C74_spins_violated`: [Quot.sound, propext]
* `C75_loop`: [Classical.choice, Quot.sound, propext]
* `C75_packed`: [Classical.choice, Quot.sound, propext]
* `C76_no_effect_violated`: [Quot.sound, propext]
* `C76_separate_setters_partial`: [propext]
* `C77_own_socket_partial`: [propext]
* `C77_shared_socket_violated`: [Quot.sound, propext]
* `C78_all_run_partial`: [Quot.sound, propext]
* `C78_finished`: [Quot.sound, propext]
* `C78_long_chain_violated`: [Quot.sound, propext]
* `C78_sequence`: [Quot.sound, propext]
* `C78_terminates`: [Classical.choice, Quot.sound, propext]
* `C79_alone`: [propext]
* `C79_both_succeed_violated`: [Quot.sound, propext]
* `C79_no_panic_partial`: [propext]
* `C79_one_per_period_partial`: [Classical.choice, Quot.sound, propext]
* `C79_panics_violated`: [Quot.sound, propext]
* `C80_refused_violated`: [Classical.choice, Quot.sound, propext]
* `C80_settled_partial`: [Classical.choice, Quot.sound, propext]
* `C80_takes_effect_violated`: [Classical.choice, Quot.sound, propext]
* `C80_wrong_state_violated`: [Classical.choice, Quot.sound, propext]
* `C81_any_part`: [Classical.choice, Quot.sound, propext]
* `C81_bind`: [Classical.choice, Quot.sound, propext]
* `C81_handler_reads`: [Classical.choice, Quot.sound, propext]
* `C81_messages_handled_partial`: [Classical.choice, Quot.sound, propext]
* `C81_mixed_violated`: [Classical.choice, Quot.sound, propext]
* `C81_one_task_each`: [Classical.choice, Quot.sound, propext]
* `C81_patterns_handled_partial`: [Classical.choice, Quot.sound, propext]
* `C82_bindJSON`: [Classical.choice, Quot.sound, propext]
* `C82_callOnce`: [Quot.sound, propext]
* `C82_callOnce_id_limit`: [Quot.sound, propext]
* `C82_nil_body_limit`: [Classical.choice, Quot.sound, propext]
* `C82_packType_reads`: [Classical.choice, Quot.sound, propext]
* `C82_recv_each`: [Classical.choice, Quot.sound, propext]
* `C82_writeJSON`: [Quot.sound, propext]
* `C83_client_receives`: [Classical.choice, Quot.sound, propext]
* `C83_partial_write_violated`: [Classical.choice, Quot.sound, propext]
* `C83_whole_frames_partial`: [Quot.sound, propext]
* `C84_in_time`: [Classical.choice, Quot.sound, propext]
* `C84_is_untimed`: [Quot.sound, propext]
* `C84_not_early`: [Classical.choice, Quot.sound, propext]
* `C85_kept_partial`: [Classical.choice, Quot.sound, propext]
* `C85_slow_handler_violated`: [Classical.choice, Quot.sound, propext]
* `C86_answer_counts`: [Classical.choice, Quot.sound, propext]
* `C86_decided_in_time`: [Classical.choice, Quot.sound, propext]
* `C86_in_time`: [Classical.choice, Quot.sound, propext]
* `C86_not_early`: [Classical.choice, Quot.sound, propext]
* `C87_early_signal_violated`: [Quot.sound, propext]
* `C87_exits_partial`: [Classical.choice, Quot.sound, propext]
* `C87_lost_signal_violated`: [Quot.sound, propext]
* `C87_order`: [Quot.sound, propext]
* `C87_panic_violated`: [Quot.sound, propext]
* `C87_two_calls_violated`: [propext]
* `C88_defer_partial`: [propext]
* `C88_handler_violated`: [propext]
* `C88_nil_violated`: [propext]
* `C89_tcp_partial`: [Classical.choice, Quot.sound, propext]
* `C89_udp_direct_violated`: [propext]
* `C89_udp_serves`: [Quot.sound, propext]
* `C89_udp_violated`: [Classical.choice, Quot.sound, propext]
* `C89_unknown`: [Classical.choice, Quot.sound, propext]
* `C90_datagram_violated`: [Classical.choice, Quot.sound, propext]
* `C90_raw_violated`: [Classical.choice, Quot.sound, propext]
* `C90_tcp_partial`: [Classical.choice, Quot.sound, propext]
* `C91_datagram_violated`: [Classical.choice, Quot.sound, propext]
* `C91_ends_partial`: [Classical.choice, Quot.sound, propext]
* `C92_ends_partial`: [Classical.choice, Quot.sound, propext]
* `C92_resetOffset_violated`: [Quot.sound, propext]
* `C92_reset_violated`: [propext]
* `C92_safe_partial`: [Classical.choice, Quot.sound, propext]
* `C93_connection_kept`: [Quot.sound, propext]
* `C93_datagram`: [Quot.sound, propext]
* `C93_fresh`: [Quot.sound, propext]
* `C94_accesses`: [Quot.sound, propext]
* `C94_balanced`: [Classical.choice, Quot.sound, propext]
* `C94_exclusive`: [Classical.choice, Quot.sound, propext]
* `C94_linearizable`: [Classical.choice, Quot.sound, propext]
* `C94_refines`: [Classical.choice, Quot.sound, propext]
* `C95_pool_partial`: [Quot.sound, propext]
* `C95_pool_violated`: [Quot.sound, propext]
* `C95_properties_partial`: [Classical.choice, Quot.sound, propext]
* `C95_properties_violated`: [Quot.sound, propext]
* `C95_state`: [Classical.choice, Quot.sound, propext]
* `C96_datagram_partial`: [Quot.sound, propext]
* `C96_datagram_pool_violated`: [Quot.sound, propext]
* `C96_datagram_violated`: [Quot.sound, propext]
* `C96_loss_violated`: [Quot.sound, propext]
* `C96_raw_partial`: [Quot.sound, propext]
* `C96_tcp_partial`: [Quot.sound, propext]
* `C97_caller_partial`: [Classical.choice, Quot.sound, propext]
* `C97_caller_violated`: [propext]
* `C97_global`: [Classical.choice, Quot.sound, propext]
* `C97_ids`: [Classical.choice, Quot.sound, propext]
* `C97_set_violated`: [propext]
* `C97_url_partial`: [Classical.choice, Quot.sound, propext]
* `C97_url_violated`: [Quot.sound, propext]
* `C98_big_id_violated`: [Classical.choice, Quot.sound, propext]
* `C98_go_reads_partial`: [Classical.choice, Quot.sound, propext]
* `C98_negative_violated`: [Classical.choice, Quot.sound, propext]
* `C98_pack_exact`: [Classical.choice, Quot.sound, propext]
* `C98_python_reads_partial`: [Classical.choice, Quot.sound, propext]
* `C98_truncated_violated`: [Classical.choice, Quot.sound, propext]
* `C99_abort_violated`: [Classical.choice, Quot.sound, propext]
* `C99_all_run_partial`: [Classical.choice, Quot.sound, propext]
* `C99_next_violated`: [Classical.choice, Quot.sound, propext]
* `C100_datagram_partial`: [Classical.choice, Quot.sound, propext]
* `C100_loss_violated`: [Classical.choice, Quot.sound, propext]
* `C100_no_panic_partial`: [Classical.choice, Quot.sound, propext]
* `C100_values_partial`: [Classical.choice, Quot.sound, propext]
* `C101_datagram`: [Classical.choice, Quot.sound, propext]
* `C101_reader`: [Classical.choice, Quot.sound, propext]
* `C102_active`: [Classical.choice, Quot.sound, propext]
* `C102_after_next`: [Classical.choice, Quot.sound, propext]
* `C102_done`: [Classical.choice, Quot.sound, propext]
* `C102_events`: [Classical.choice, Quot.sound, propext]
* `C102_nested`: [Classical.choice, Quot.sound, propext]
* `C103_after_arrival`: [Quot.sound, propext]
* `C103_group_partial`: [Classical.choice, Quot.sound, propext]
* `C103_overtaken_violated`: [Quot.sound, propext]
* `C104_late_violated`: [propext]
* `C104_no_new_partial`: [Classical.choice, Quot.sound, propext]
* `C105_onMessage_partial`: [Quot.sound, propext]
* `C105_onMessage_violated`: [Quot.sound, propext]
* `C105_raw_partial`: [Quot.sound, propext]
* `C105_raw_violated`: [Quot.sound, propext]
* `C106_messages_partial`: [Classical.choice, Quot.sound, propext]
* `C106_opens`: [Classical.choice, Quot.sound, propext]
* `C106_raw_violated`: [Classical.choice, Quot.sound, propext]
* `C107_buffer_violated`: [Classical.choice, Quot.sound, propext]
* `C107_raw_violated`: [Classical.choice, Quot.sound, propext]
* `C107_record`: [Classical.choice, Quot.sound, propext]
* `C107_same_partial`: [Classical.choice, Quot.sound, propext]
* `C108_ends`: [Classical.choice, Quot.sound, propext]
* `C108_handled`: [Classical.choice, Quot.sound, propext]
* `C108_only`: [Classical.choice, Quot.sound, propext]
* `C108_stream`: [Classical.choice, Quot.sound, propext]
* `C109_delivered_partial`: [Classical.choice, Quot.sound, propext]
* `C109_sender_violated`: [Classical.choice, Quot.sound, propext]
* `C110_crash_violated`: [propext]
* `C110_lost_violated`: [Quot.sound, propext]
* `C110_told_partial`: [Classical.choice, Quot.sound, propext]
* `C111_guard`: [Classical.choice, Quot.sound, propext]
* `C111_let_through`: [Classical.choice, Quot.sound, propext]
* `C112_chain`: [Quot.sound, propext]
* `C112_needs_key`: [Classical.choice, Quot.sound, propext]
* `C112_with_key`: [Classical.choice, Quot.sound, propext]
* `C113_same`: [Quot.sound, propext]
* `C113_unUse`: [Quot.sound, propext]
* `C113_use`: [Quot.sound, propext]
* `C114_add`: [Quot.sound, propext]
* `C114_handlers`: [Quot.sound, propext]
* `C115_others`: [Classical.choice, Quot.sound, propext]
* `C115_own`: [Classical.choice, Quot.sound, propext]
* `C116_routes`: [Classical.choice, Quot.sound, propext]
* `C117_heartbeat_violated`: [Classical.choice, Quot.sound, propext]
* `C117_kcp_violated`: [Classical.choice, Quot.sound, propext]
* `C117_listens_partial`: [Classical.choice, Quot.sound, propext]
* `C118_keep_up`: [Classical.choice, Quot.sound, propext]
* `C119_answered`: [Classical.choice, Quot.sound, propext]
* `C119_can_finish`: [Classical.choice, Quot.sound, propext]
* `C119_client`: [Classical.choice, Quot.sound, propext]
* `C119_login`: [Classical.choice, Quot.sound, propext]
* `C120_flags_violated`: [propext]
* `C120_prints_partial`: [propext]
* `C121_denied`: [Classical.choice, Quot.sound, propext]
* `C121_kept`: [Classical.choice, Quot.sound, propext]
* `C121_let_in`: [Classical.choice, Quot.sound, propext]
* `C122_moved_violated`: [Classical.choice, Quot.sound, propext]
* `C122_text_partial`: [Quot.sound, propext]
* `C123_decode`: [Classical.choice, Quot.sound, propext]
* `C123_encode`: [Classical.choice, Quot.sound, propext]
* `C123_ids`: [Classical.choice, Quot.sound, propext]
* `C123_same_as_pack`: [Classical.choice, Quot.sound, propext]
* `C124_tcp_violated`: [Classical.choice, Quot.sound, propext]
* `C124_udp_partial`: [Classical.choice, Quot.sound, propext]
* `C124_unpack_partial`: [Classical.choice, Quot.sound, propext]
* `C125_overlong_violated`: [Classical.choice, Quot.sound, propext]
* `C125_printed`: [Classical.choice, Quot.sound, propext]
* `C125_routes`: [Classical.choice, Quot.sound, propext]
* `C125_same_partial`: [Classical.choice, Quot.sound, propext]
* `C126_bounds_partial`: [Classical.choice, Quot.sound, propext]
* `C126_client`: [Classical.choice, Quot.sound, propext]
* `C126_reports`: [Classical.choice, Quot.sound, propext]
* `C126_routes`: [Classical.choice, Quot.sound, propext]
* `C126_session`: [Classical.choice, Quot.sound, propext]
* `C126_wraps_violated`: [Classical.choice, Quot.sound, propext]
* `C127_client`: [Classical.choice, Quot.sound, propext]
* `C127_kept`: [Classical.choice, Quot.sound, propext]
* `C127_open`: [Classical.choice, Quot.sound, propext]
* `C127_routes`: [Classical.choice, Quot.sound, propext]
* `C127_silent`: [Classical.choice, Quot.sound, propext]
* `C128_keep_up`: [Classical.choice, Quot.sound, propext]
* `C128_kept`: [Classical.choice, Quot.sound, propext]
* `C129_answers`: [Quot.sound, propext]
* `C129_chain`: [Quot.sound, propext]
* `C129_client`: [Quot.sound, propext]
* `C129_messages_violated`: [Classical.choice, Quot.sound, propext]
* `C129_received`: [Quot.sound, propext]
* `C130_default_violated`: [Classical.choice, Quot.sound, propext]
* `C130_same_violated`: [propext]
* `C130_signals_partial`: [Classical.choice, Quot.sound, propext]
* `C131_accepted`: [Classical.choice, Quot.sound, propext]
* `C131_all_accepted`: [Classical.choice, Quot.sound, propext]
* `C131_refused`: [Classical.choice, Quot.sound, propext]
* `C131_started`: [Classical.choice, Quot.sound, propext]
* `C131_stopped`: [Classical.choice, Quot.sound, propext]
* `C132_dead_violated`: [Classical.choice, Quot.sound, propext]
* `C132_error_violated`: [Classical.choice, Quot.sound, propext]
* `C132_late_violated`: [Classical.choice, Quot.sound, propext]
* `C132_stopped_partial`: [Classical.choice, Quot.sound, propext]
* `C133_aborted_violated`: [Classical.choice, Quot.sound, propext]
* `C133_accepted_violated`: [Classical.choice, Quot.sound, propext]
* `C133_clients`: [Classical.choice, Quot.sound, propext]
* `C133_frames_partial`: [Classical.choice, Quot.sound, propext]
* `C133_requests_partial`: [Quot.sound, propext]
* `C133_sound`: [Classical.choice, Quot.sound, propext]
* `C134_in_time`: [Classical.choice, Quot.sound, propext]
* `C134_once`: [Classical.choice, Quot.sound, propext]
* `C134_order`: [Classical.choice, Quot.sound, propext]
* `C134_silent`: [Classical.choice, Quot.sound, propext]
* `C134_waits`: [Classical.choice, Quot.sound, propext]
* `C135_late_partial`: [Classical.choice, Quot.sound, propext]
* `C135_routes_violated`: [Quot.sound, propext]
* `C136_kept`: [Classical.choice, Quot.sound, propext]
* `C137_silent`: [Classical.choice, Quot.sound, propext]
* `C138_hangup`: [Classical.choice, Quot.sound, propext]
* `C139_handled`: [Classical.choice, Quot.sound, propext]
* `C140_others_limit`: [Classical.choice, Quot.sound, propext]
* `C140_shown`: [Classical.choice, Quot.sound, propext]
* `C140_undecodable_limit`: [Classical.choice, Quot.sound, propext]
* `C141_end_violated`: [Quot.sound, propext]
* `C141_last_violated`: [Quot.sound, propext]
* `C141_lines_partial`: [Quot.sound, propext]
* `C142_crash_violated`: [Classical.choice, Quot.sound, propext]
* `C142_pieces_violated`: [Classical.choice, Quot.sound, propext]
* `C142_printed_partial`: [Classical.choice, Quot.sound, propext]
* `C142_together_violated`: [Classical.choice, Quot.sound, propext]
* `C143_keep_up`: [Classical.choice, Quot.sound, propext]
* `C143_only_time`: [Classical.choice, Quot.sound, propext]
* `C143_rest`: [Classical.choice, Quot.sound, propext]
* `C144_as_whole`: [Classical.choice, Quot.sound, propext]
* `C144_closed`: [Classical.choice, Quot.sound, propext]
* `C144_frames`: [Classical.choice, Quot.sound, propext]
* `C144_in_time`: [Classical.choice, Quot.sound, propext]
* `C144_keep_up`: [Classical.choice, Quot.sound, propext]
* `C144_not_early`: [Classical.choice, Quot.sound, propext]
* `C144_only_time`: [Classical.choice, Quot.sound, propext]
* `C144_rest`: [Classical.choice, Quot.sound, propext]
* `C145_accesses`: [Quot.sound, propext]
* `C145_alone`: [Quot.sound, propext]
* `C145_any_violated`: [Quot.sound, propext]
* `C145_ends`: [Classical.choice, Quot.sound, propext]
* `C145_mixture_violated`: [Quot.sound, propext]
* `C145_no_race_partial`: [Classical.choice, Quot.sound, propext]
* `C145_not_stuck`: [Classical.choice, Quot.sound, propext]
* `C145_one_partial`: [Classical.choice, Quot.sound, propext]
* `C145_registered_partial`: [Classical.choice, Quot.sound, propext]
* `C145_rewrite_violated`: [Quot.sound, propext]
* `C145_unuse_partial`: [Classical.choice, Quot.sound, propext]
* `C145_url_partial`: [Classical.choice, Quot.sound, propext]
* `C145_url_unuse_partial`: [Classical.choice, Quot.sound, propext]
* `C145_use_twice_violated`: [Quot.sound, propext]
* `C145_use_violated`: [Quot.sound, propext]
* `C146_again_violated`: [Quot.sound, propext]
* `C146_dispatch_no_race`: [Classical.choice, Quot.sound, propext]
* `C146_guarded_partial`: [Classical.choice, Quot.sound, propext]
* `C146_locked_violated`: [Quot.sound, propext]
* `C146_others_partial`: [Classical.choice, Quot.sound, propext]
* `C146_race_violated`: [Quot.sound, propext]
* `C146_rewrite_others_partial`: [Classical.choice, Quot.sound, propext]
* `C146_rewrite_violated`: [Quot.sound, propext]
* `C146_unuse_guarded_partial`: [Classical.choice, Quot.sound, propext]
* `C146_unuse_others_partial`: [Classical.choice, Quot.sound, propext]
* `C146_url_guarded_partial`: [Classical.choice, Quot.sound, propext]
* `C146_url_others_partial`: [Classical.choice, Quot.sound, propext]
* `C146_url_unuse_guarded_partial`: [Classical.choice, Quot.sound, propext]
* `C146_url_unuse_others_partial`: [Classical.choice, Quot.sound, propext]
* `C146_url_window_violated`: [Quot.sound, propext]
* `C146_window_violated`: [Quot.sound, propext]
* `C147_early_violated`: [Quot.sound, propext]
* `C147_empty_violated`: [Quot.sound, propext]
* `C147_offline_partial`: [Quot.sound, propext]
* `C147_online_partial`: [Quot.sound, propext]
* `C148_reason_violated`: [Classical.choice, Quot.sound, propext]
* `C148_told_partial`: [Classical.choice, Quot.sound, propext]
* `C149_answered`: [Classical.choice, Quot.sound, propext]
* `C149_client`: [Classical.choice, Quot.sound, propext]
* `C149_printed`: [Classical.choice, Quot.sound, propext]
* `C150_prints`: [Quot.sound, propext]
* `C150_refused`: [Classical.choice, Quot.sound, propext]
* `C150_right_partial`: [Classical.choice, Quot.sound, propext]
* `C150_silent`: [Classical.choice, Quot.sound, propext]
* `C150_valid_violated`: [Classical.choice, Quot.sound, propext]
* `C151_printed`: [Classical.choice, Quot.sound, propext]
* `C151_routes`: [propext]
* `C152_answered`: [Classical.choice, Quot.sound, propext]
* `C152_contexts`: [Classical.choice, Quot.sound, propext]
* `C152_hello`: [Classical.choice, Quot.sound, propext]
* `C152_loop`: [Quot.sound, propext]
* `C153_login`: [Classical.choice, Quot.sound, propext]
* `C153_server`: [Classical.choice, Quot.sound, propext]
* `C154_given`: [Quot.sound, propext]
* `C154_nil`: [Quot.sound, propext]
* `C154_reply`: [Quot.sound, propext]
* `C154_unconnected_limit`: [propext]
* `C155_reaches`: [Classical.choice, Quot.sound, propext]
* `C155_shown`: [Classical.choice, Quot.sound, propext]
* `C156_empty`: []
* `C156_failure`: [Quot.sound, propext]
* `C156_not_fewer`: [Quot.sound, propext]
* `C156_once_partial`: [Quot.sound, propext]
* `C156_short_write_violated`: [Quot.sound, propext]
* `C157_new`: []
* `C157_set`: [Quot.sound, propext]
* `C158_answered`: [Classical.choice, Quot.sound, propext]
* `C158_routes`: [propext]
* `C159_printed`: [Classical.choice, Quot.sound, propext]
* `C160_answered`: [Classical.choice, Quot.sound, propext]
* `C160_client`: [Classical.choice, Quot.sound, propext]
* `C161_built`: [Classical.choice, Quot.sound, propext]
* `C161_empty_limit`: [Classical.choice, Quot.sound, propext]
* `C161_read`: [Classical.choice, Quot.sound, propext]
* `C161_server`: [Classical.choice, Quot.sound, propext]
