{
 "claims": [
  {
   "property": "C01",
   "status": "proved",
   "theorems": [
    "Tcpx.C01_pack_layout",
    "Tcpx.C01_pack_succeeds",
    "Tcpx.C01_packWithBody_layout",
    "Tcpx.C01_pack_function"
   ],
   "note": ""
  },
  {
   "property": "C02",
   "status": "proved",
   "theorems": [
    "Tcpx.C02_accessors",
    "Tcpx.C02_accessors_of_packed"
   ],
   "note": ""
  },
  {
   "property": "C03",
   "status": "proved",
   "theorems": [
    "Tcpx.C03_unpack_pack",
    "Tcpx.C03_unpack_pack_header",
    "Tcpx.C03_stale_destination_limit"
   ],
   "note": "Header equality is up to the json library's own round trip (JSONCodec.Lawful). C03_stale_destination_limit: an empty encoding is never decoded, so a reused destination keeps its old value."
  },
  {
   "property": "C04",
   "status": "proved",
   "theorems": [
    "Tcpx.C04_packStuff",
    "Tcpx.C04_packHeartbeat",
    "Tcpx.C04_signal_unpacks",
    "Tcpx.C04_unencodable_limit"
   ],
   "note": ""
  },
  {
   "property": "C05",
   "status": "proved",
   "theorems": [
    "Tcpx.C05_packWithBody",
    "Tcpx.C05_body_verbatim"
   ],
   "note": ""
  },
  {
   "property": "C06",
   "status": "proved",
   "theorems": [
    "Tcpx.C06_header_merge",
    "Tcpx.C06_no_header"
   ],
   "note": ""
  },
  {
   "property": "C07",
   "status": "proved",
   "theorems": [
    "Tcpx.C07_first_frame",
    "Tcpx.C07_self_delimiting"
   ],
   "note": ""
  },
  {
   "property": "C08",
   "status": "proved",
   "theorems": [
    "Tcpx.C08_reads_exact_block",
    "Tcpx.C08_fragmentation_independent",
    "Tcpx.C08_unPackFromReader",
    "Tcpx.C08_any_length"
   ],
   "note": ""
  },
  {
   "property": "C09",
   "status": "proved",
   "theorems": [
    "Tcpx.C09_truncated",
    "Tcpx.C09_block_complete",
    "Tcpx.C09_unPackFromReader"
   ],
   "note": ""
  },
  {
   "property": "C10",
   "status": "proved",
   "theorems": [
    "Tcpx.C10_oversized_rejected",
    "Tcpx.C10_within_limit",
    "Tcpx.C10_no_oversized_block"
   ],
   "note": ""
  },
  {
   "property": "C11",
   "status": "partial",
   "theorems": [
    "Tcpx.C11_accessors_total_partial",
    "Tcpx.C11_fixed_fields_total",
    "Tcpx.C11_header_panic_violated",
    "Tcpx.C11_header_panic_iff",
    "Tcpx.C11_body_misread_violated"
   ],
   "note": "Violated by the code for declared header lengths >= 2^31-16 (C11_header_panic_violated, exact set C11_header_panic_iff); C11_accessors_total_partial covers declared lengths with 16+header+body < 2^31."
  },
  {
   "property": "C12",
   "status": "partial",
   "theorems": [
    "Tcpx.C12_no_panic_partial",
    "Tcpx.C12_negative_length_violated",
    "Tcpx.C12_unPackFromReader_violated"
   ],
   "note": "Violated for announced lengths in [2^31, 2^32) (C12_negative_length_violated: make panics, inside the caller); the partial theorem covers the rest."
  },
  {
   "property": "C13",
   "status": "proved",
   "theorems": [
    "Tcpx.C13_unpack_sound",
    "Tcpx.C13_reads_past_frame_limit"
   ],
   "note": "C13_reads_past_frame_limit: the regions lie in the buffer but not necessarily in the announced frame."
  },
  {
   "property": "C14",
   "status": "proved",
   "theorems": [
    "Tcpx.C14_firstBlockOfBytes"
   ],
   "note": ""
  },
  {
   "property": "C15",
   "status": "proved",
   "theorems": [
    "Tcpx.C15_marshaller_names",
    "Tcpx.C15_names_unambiguous"
   ],
   "note": ""
  },
  {
   "property": "C16",
   "status": "proved",
   "theorems": [
    "Tcpx.C16_format_reply"
   ],
   "note": ""
  },
  {
   "property": "C17",
   "status": "partial",
   "theorems": [
    "Tcpx.C17_eof_after_data_partial",
    "Tcpx.C17_eof_with_data_violated"
   ],
   "note": "Violated: bytes delivered together with io.EOF are dropped (C17_eof_with_data_violated); holds when end of stream is reported separately (C17_eof_after_data_partial)."
  },
  {
   "property": "C18",
   "status": "partial",
   "theorems": [
    "Tcpx.C18_short_write_violated",
    "Tcpx.C18_transmits_once_partial",
    "Tcpx.C18_contract_one_call",
    "Tcpx.C18_not_fewer",
    "Tcpx.C18_failure_reported"
   ],
   "note": "Violated by short writes (C18_short_write_violated: the whole buffer is sent again). Proved when each Write takes everything or nothing; C18_not_fewer holds for every connection."
  },
  {
   "property": "C19",
   "status": "partial",
   "theorems": [
    "Tcpx.C19_group_written",
    "Tcpx.C19_empty",
    "Tcpx.C19_bad_arguments_partial",
    "Tcpx.C19_refuses_bad_partial",
    "Tcpx.C19_nil_id_violated",
    "Tcpx.C19_id_truncated_limit"
   ],
   "note": "Violated for a nil id (C19_nil_id_violated: reflect.TypeOf(nil).Name() panics). All other argument lists are covered; C19_id_truncated_limit: ids outside int32 are silently reduced."
  },
  {
   "property": "C20",
   "status": "proved",
   "theorems": [
    "Tcpx.C20_group_received"
   ],
   "note": ""
  },
  {
   "property": "C21",
   "status": "proved",
   "theorems": [
    "Tcpx.C21_pipe_order",
    "Tcpx.C21_one_after_another",
    "Tcpx.C21_events"
   ],
   "note": ""
  },
  {
   "property": "C22",
   "status": "partial",
   "theorems": [
    "Tcpx.C22_disconnect_violated",
    "Tcpx.C22_garbage_violated",
    "Tcpx.C22_stall_partial"
   ],
   "note": "Violated: when the stream ends or fails inside a group, the group is dispatched with nil entries (C22_disconnect_violated, C22_garbage_violated). C22_stall_partial covers a peer that stalls or sends a negative length."
  },
  {
   "property": "C23",
   "status": "proved",
   "theorems": [
    "Tcpx.C23_nonpositive_refused"
   ],
   "note": ""
  },
  {
   "property": "C24",
   "status": "proved",
   "theorems": [
    "Tcpx.C24_malformed_refused",
    "Tcpx.C24_other_marker_ignored"
   ],
   "note": ""
  },
  {
   "property": "C25",
   "status": "partial",
   "theorems": [
    "Tcpx.C25_second_panics",
    "Tcpx.C25_others_kept",
    "Tcpx.C25_unchanged_partial",
    "Tcpx.C25_middleware_violated"
   ],
   "note": "Violated: a refused AddHandler with middlewares leaves them on the existing handler (C25_middleware_violated). The handler itself and all other routes are always kept (C25_others_kept); nothing changes when the refused call has no middlewares or the handler already has own ones (C25_unchanged_partial)."
  },
  {
   "property": "C26",
   "status": "proved",
   "theorems": [
    "Tcpx.C26_routed",
    "Tcpx.C26_routed_url"
   ],
   "note": ""
  },
  {
   "property": "C27",
   "status": "partial",
   "theorems": [
    "Tcpx.C27_order_partial",
    "Tcpx.C27_leftover_middleware_violated"
   ],
   "note": "Violated for an id freed by RewriteHeartBeatHandler (C27_leftover_middleware_violated); holds otherwise in histories without recovered panics."
  },
  {
   "property": "C28",
   "status": "partial",
   "theorems": [
    "Tcpx.C28_exact",
    "Tcpx.C28_in_use_partial",
    "Tcpx.C28_in_use_url_partial",
    "Tcpx.C28_reuse_violated",
    "Tcpx.C28_reuse_function_violated"
   ],
   "note": "Violated when a key is used again after UnUse (C28_reuse_violated, C28_reuse_function_violated). C28_exact says for every history which middlewares the code applies; C28_in_use*_partial give the claim when no key is in a repeated period of use."
  },
  {
   "property": "C29",
   "status": "proved",
   "theorems": [
    "Tcpx.C29_use_panics_iff",
    "Tcpx.C29_unUse_panics_iff",
    "Tcpx.C29_refused_invisible",
    "Tcpx.C29_checkPrepare",
    "Tcpx.C29_checkPrepare_api",
    "Tcpx.C29_use_many",
    "Tcpx.C29_use_ill_typed"
   ],
   "note": ""
  },
  {
   "property": "C30",
   "status": "partial",
   "theorems": [
    "Tcpx.C30_guarded_partial",
    "Tcpx.C30_guarded_url",
    "Tcpx.C30_id_zero_violated"
   ],
   "note": "Violated for message id 0 on a server with heartbeat and auth unconfigured (C30_id_zero_violated); proved for all other ids and all URL patterns."
  },
  {
   "property": "C31",
   "status": "proved",
   "theorems": [
    "Tcpx.C31_bypass_iff",
    "Tcpx.C31_heartbeat_flag",
    "Tcpx.C31_heartbeat_default"
   ],
   "note": ""
  },
  {
   "property": "C32",
   "status": "proved",
   "theorems": [
    "Tcpx.C32_onMessage"
   ],
   "note": ""
  },
  {
   "property": "C33",
   "status": "partial",
   "theorems": [
    "Tcpx.C33_any_once_partial",
    "Tcpx.C33_doubled_violated"
   ],
   "note": "Violated for two or more handlers, which all run twice (C33_doubled_violated); proved for one handler."
  },
  {
   "property": "C34",
   "status": "partial",
   "theorems": [
    "Tcpx.C34_header_decides_partial",
    "Tcpx.C34_route_exists",
    "Tcpx.C34_huge_header_violated"
   ],
   "note": "Violated for declared header lengths >= 2^31-16 (C34_huge_header_violated: the router panics). C34_header_decides_partial covers all others, for requests that share their store with no other; sharing is the subject of C35."
  },
  {
   "property": "C35",
   "status": "partial",
   "theorems": [
    "Tcpx.C35_udp_partial",
    "Tcpx.C35_tcp_same_type_partial",
    "Tcpx.C35_tcp_violated"
   ],
   "note": "Violated on TCP connections carrying messages of both router types (C35_tcp_violated): the type of the first routed message is cached for the whole connection. Proved for datagrams and for connections with one type."
  },
  {
   "property": "C36",
   "status": "partial",
   "theorems": [
    "Tcpx.C36_udp_private_partial",
    "Tcpx.C36_tcp_other_connections_partial",
    "Tcpx.C36_tcp_shared_violated"
   ],
   "note": "Violated on TCP (C36_tcp_shared_violated: copyContext aliases the request store to the connection store). Proved for datagrams; C36_tcp_other_connections_partial: never a value of another connection."
  },
  {
   "property": "C37",
   "status": "partial",
   "theorems": [
    "Tcpx.C37_own_pattern_partial",
    "Tcpx.C37_reply_pattern",
    "Tcpx.C37_tcp_violated"
   ],
   "note": "Violated on TCP connections with messages of different patterns (C37_tcp_violated). Proved for datagrams and for connections with one pattern; C37_reply_pattern gives the bytes of the reply."
  },
  {
   "property": "C38",
   "status": "proved",
   "theorems": [
    "Tcpx.C38_in_order_at_most_once",
    "Tcpx.C38_terminates",
    "Tcpx.C38_no_stuck",
    "Tcpx.C38_first_ones"
   ],
   "note": ""
  },
  {
   "property": "C39",
   "status": "partial",
   "theorems": [
    "Tcpx.C39_all_run_partial",
    "Tcpx.C39_long_chain_violated",
    "Tcpx.C39_run_exists"
   ],
   "note": "Violated for chains of more than 2019 handlers, because the abort mark is the index 2019 (C39_long_chain_violated); the partial theorem covers shorter chains."
  },
  {
   "property": "C40",
   "status": "proved",
   "theorems": [
    "Tcpx.C40_abort_stops"
   ],
   "note": ""
  },
  {
   "property": "C41",
   "status": "partial",
   "theorems": [
    "Tcpx.C41_locked_partial",
    "Tcpx.C41_any_violated",
    "Tcpx.C41_addHandler_violated"
   ],
   "note": "Violated: Any with several handlers adds a route to a locked mux, AddHandler with middlewares changes an existing one."
  },
  {
   "property": "C42",
   "status": "partial",
   "theorems": [
    "Tcpx.C42_rewrite_partial",
    "Tcpx.C42_unconfigured_violated",
    "Tcpx.C42_taken_violated"
   ],
   "note": "Violated when heartbeat was never configured (the handler of id 0 is removed) and when the new id is taken (panic after removing the old handler)."
  },
  {
   "property": "C43",
   "status": "partial",
   "theorems": [
    "Tcpx.C43_close_partial",
    "Tcpx.C43_finishes",
    "Tcpx.C43_forged_name_violated"
   ],
   "note": "Violated when a handler stores a non-string under the key tcpx-username (C43_forged_name_violated: CloseConn panics before setting offline). C43_close_partial: every interleaving of any number of goroutines otherwise."
  },
  {
   "property": "C44",
   "status": "proved",
   "theorems": [
    "Tcpx.C44_linearizable",
    "Tcpx.C44_contents",
    "Tcpx.C44_sequential"
   ],
   "note": "Linearizability against an atomic pool, for every program and every schedule; C44_sequential is the same for calls made one after another."
  },
  {
   "property": "C45",
   "status": "proved",
   "theorems": [
    "Tcpx.C45_refused",
    "Tcpx.C45_name_kept_limit"
   ],
   "note": "C45_name_kept_limit: the refused Online without a pool has still set the user name."
  },
  {
   "property": "C46",
   "status": "partial",
   "theorems": [
    "Tcpx.C46_removed_partial",
    "Tcpx.C46_two_names_violated",
    "Tcpx.C46_online_races_violated"
   ],
   "note": "Violated after two names (C46_two_names_violated) and by Online racing with CloseConn (C46_online_races_violated); proved for a connection with one name whose close is not overlapped by an Online."
  },
  {
   "property": "C47",
   "status": "partial",
   "theorems": [
    "Tcpx.C47_other_names_partial",
    "Tcpx.C47_same_name_violated"
   ],
   "note": "Violated in the very case the property is about (C47_same_name_violated: pool.Offline removes by name only); the partial theorem covers closing connections of other names."
  },
  {
   "property": "C48",
   "status": "proved",
   "theorems": [
    "Tcpx.C48_send",
    "Tcpx.C48_stale_receiver_limit"
   ],
   "note": "For calls that are not interleaved with others; C48_stale_receiver_limit shows what interleaving can do."
  },
  {
   "property": "C49",
   "status": "partial",
   "theorems": [
    "Tcpx.C49_refused_iff",
    "Tcpx.C49_last_stored_partial",
    "Tcpx.C49_request_overwrites_violated"
   ],
   "note": "Violated when SetCtxPerRequest is used with the same key (C49_request_overwrites_violated). The refusal part is proved in full (C49_refused_iff)."
  },
  {
   "property": "C50",
   "status": "partial",
   "theorems": [
    "Tcpx.C50_last_name_partial",
    "Tcpx.C50_forged_violated"
   ],
   "note": "Violated by SetCtxPerRequest with the key tcpx-username (C50_forged_violated); proved when no handler does that."
  },
  {
   "property": "C51",
   "status": "partial",
   "theorems": [
    "Tcpx.C51_loss",
    "Tcpx.C51_closes_partial",
    "Tcpx.C51_callback_panics_violated",
    "Tcpx.C51_lost_beat_violated"
   ],
   "note": "C51_loss (soundness: only after three silent intervals, callback once before) holds in every run. The converse is violated when the loss callback panics (C51_callback_panics_violated: the connection is never closed); C51_lost_beat_violated: a heartbeat that races with the making of the channel is lost. C51_closes_partial is the converse for callbacks that do not panic."
  },
  {
   "property": "C52",
   "status": "partial",
   "theorems": [
    "Tcpx.C52_socket_closed_violated",
    "Tcpx.C52_socket_open_partial"
   ],
   "note": "Violated by every datagram (C52_socket_closed_violated: each datagram gets a watcher that closes the shared socket three intervals later, whatever other clients send). C52_socket_open_partial: without heartbeat the socket stays open until Stop(true)."
  },
  {
   "property": "C53",
   "status": "proved",
   "theorems": [
    "Tcpx.C53_once",
    "Tcpx.C53_waits",
    "Tcpx.C53_closes"
   ],
   "note": "Time is a label: the deadline may pass at any moment while the watcher waits."
  },
  {
   "property": "C54",
   "status": "partial",
   "theorems": [
    "Tcpx.C54_auth_blocks_violated",
    "Tcpx.C54_beat_blocks_violated",
    "Tcpx.C54_first_partial"
   ],
   "note": "Violated: at most two authorisation signals of a connection ever return, one without auth (C54_auth_blocks_violated), and with heartbeat off one heartbeat signal (C54_beat_blocks_violated). C54_first_partial: the first signal never blocks, and a signal taken by the watcher unblocks."
  },
  {
   "property": "C55",
   "status": "proved",
   "theorems": [
    "Tcpx.C55_close_sequence",
    "Tcpx.C55_exactly_once"
   ],
   "note": ""
  },
  {
   "property": "C56",
   "status": "partial",
   "theorems": [
    "Tcpx.C56_every_stream_splits",
    "Tcpx.C56_kind_exists_unique",
    "Tcpx.C56_dispatch_partial",
    "Tcpx.C56_expected_order",
    "Tcpx.C56_fragmentation_independent",
    "Tcpx.C56_interrupted_group_violated",
    "Tcpx.C56_smuggled_violated"
   ],
   "note": "Violated when a group is interrupted by the end of the stream or an oversized frame (C56_interrupted_group_violated, C56_smuggled_violated); every other stream is covered by C56_dispatch_partial. C56_every_stream_splits shows the hypotheses on the stream are always met."
  },
  {
   "property": "C57",
   "status": "proved",
   "theorems": [
    "Tcpx.C57_single_no_panic",
    "Tcpx.C57_single_survives"
   ],
   "note": ""
  },
  {
   "property": "C58",
   "status": "partial",
   "theorems": [
    "Tcpx.C58_no_panic_partial",
    "Tcpx.C58_huge_header_violated",
    "Tcpx.C58_bad_size_limit"
   ],
   "note": "Violated by a datagram announcing a header of 2^31 bytes or more (C58_huge_header_violated). C58_no_panic_partial: all others, for every registration history. The handlers are assumed not to panic."
  },
  {
   "property": "C59",
   "status": "partial",
   "theorems": [
    "Tcpx.C59_handler_panic_violated",
    "Tcpx.C59_no_handler_panic_partial"
   ],
   "note": "Violated: a panicking handler ends the process, since dispatch goroutines do not recover (C59_handler_panic_violated); proved for handlers that do not panic."
  },
  {
   "property": "C60",
   "status": "partial",
   "theorems": [
    "Tcpx.C60_stop_partial",
    "Tcpx.C60_other_networks_violated"
   ],
   "note": "Violated for every network other than tcp, udp and kcp (C60_other_networks_violated: tcp4, tcp6, unix, udp4, ... stay open)."
  },
  {
   "property": "C61",
   "status": "partial",
   "theorems": [
    "Tcpx.C61_kept_partial",
    "Tcpx.C61_pool_partial",
    "Tcpx.C61_heartbeat_violated"
   ],
   "note": "Violated with heartbeat on (C61_heartbeat_violated: the watcher closes the connection when it finds the state stopped). C61_kept_partial, C61_pool_partial: heartbeat off."
  },
  {
   "property": "C62",
   "status": "partial",
   "theorems": [
    "Tcpx.C62_stop_partial",
    "Tcpx.C62_deadlock_violated",
    "Tcpx.C62_strangers_partial"
   ],
   "note": "Violated (C62_deadlock_violated): the closing goroutine holds the write lock of the pool while CloseConn asks for its read lock. Proved for members without a user name or with another pool. C62_stop_partial: Stop(true) starts exactly one such goroutine, for the pool in use, and replaces the pool."
  },
  {
   "property": "C63",
   "status": "proved",
   "theorems": [
    "Tcpx.C63_not_before",
    "Tcpx.C63_closes",
    "Tcpx.C63_socket"
   ],
   "note": "Two steps of the watcher of a connection close it, whatever is scheduled between them."
  },
  {
   "property": "C64",
   "status": "partial",
   "theorems": [
    "Tcpx.C64_pool_partial",
    "Tcpx.C64_second_stop_violated",
    "Tcpx.C64_renewed_partial",
    "Tcpx.C64_new_connection_violated",
    "Tcpx.C64_kept_partial"
   ],
   "note": "Violated: the broadcast channel is closed by the first Stop(true) and never made anew, so new connections are closed at once (C64_new_connection_violated) and a later Stop(true) panics (C64_second_stop_violated). C64_kept_partial: histories without Stop(true). C64_pool_partial: without broadcast signals the pool in use is never one being closed, after any history. C64_renewed_partial: WithBroadCastSignal(true) called since the last Stop(true) makes the next one succeed."
  },
  {
   "property": "C65",
   "status": "partial",
   "theorems": [
    "Tcpx.C65_one_endpoint_partial",
    "Tcpx.C65_count_partial",
    "Tcpx.C65_restart_partial",
    "Tcpx.C65_shared_variable_violated"
   ],
   "note": "Violated for every server with two different endpoints (C65_shared_variable_violated: the goroutines share the loop variable, go.mod says go 1.12); proved for one endpoint in every schedule. C65_count_partial, C65_restart_partial: how many listening calls Start and Restart make, and which callbacks run."
  },
  {
   "property": "C66",
   "status": "proved",
   "theorems": [
    "Tcpx.C66_wrong_state"
   ],
   "note": ""
  },
  {
   "property": "C67",
   "status": "proved",
   "theorems": [
    "Tcpx.C67_records"
   ],
   "note": ""
  },
  {
   "property": "C68",
   "status": "proved",
   "theorems": [
    "Tcpx.C68_transport"
   ],
   "note": ""
  },
  {
   "property": "C69",
   "status": "partial",
   "theorems": [
    "Tcpx.C69_in_partial",
    "Tcpx.C69_single_percent_violated"
   ],
   "note": "Violated for the pattern % (C69_single_percent_violated: slice bounds panic); proved for all other pattern lists."
  },
  {
   "property": "C70",
   "status": "partial",
   "theorems": [
    "Tcpx.C70_ipv4_partial",
    "Tcpx.C70_ipv6_violated",
    "Tcpx.C70_unbracketed_partial",
    "Tcpx.C70_unix_limit"
   ],
   "note": "Violated for IPv6 peers (C70_ipv6_violated: a bracketed address yields 127.0.0.1); proved for IPv4. C70_unbracketed_partial: every address without brackets, whatever colons its host has; C70_unix_limit: what unix sockets give."
  },
  {
   "property": "C71",
   "status": "partial",
   "theorems": [
    "Tcpx.C71_get_set_partial",
    "Tcpx.C71_get_absent",
    "Tcpx.C71_nil_header_violated"
   ],
   "note": "Violated for a message with a nil header, on which Set panics (C71_nil_header_violated); Get is proved for all messages."
  },
  {
   "property": "C72",
   "status": "partial",
   "theorems": [
    "Tcpx.C72_same_kind_partial",
    "Tcpx.C72_mixed_violated",
    "Tcpx.C72_message_route",
    "Tcpx.C72_pattern_route",
    "Tcpx.C72_dispatched_partial"
   ],
   "note": "The route a built message asks for is proved in full; that it is followed is proved for messages alone on their connection and for connections whose messages are all of one kind, and violated on connections with both kinds (C72_mixed_violated)."
  },
  {
   "property": "C73",
   "status": "partial",
   "theorems": [
    "Tcpx.C73_smooth_partial",
    "Tcpx.C73_loop_dies_violated"
   ],
   "note": "Violated: an accept error or a panic in OnConnect ends the loop for good with the state still running, so Start refuses (C73_loop_dies_violated); the partial theorem describes the loop while nothing fails."
  },
  {
   "property": "C74",
   "status": "partial",
   "theorems": [
    "Tcpx.C74_spins_violated",
    "Tcpx.C74_ends_partial"
   ],
   "note": "Violated: read errors other than EOF are retried at once for ever (C74_spins_violated). C74_ends_partial: the loop ends after Stop or EOF."
  },
  {
   "property": "C75",
   "status": "proved",
   "theorems": [
    "Tcpx.C75_loop",
    "Tcpx.C75_packed"
   ],
   "note": "Buffers are filled as on POSIX systems (longer datagrams are cut off). The size of the buffer is the one given, or 4096, stated apart from the model (Spec.BufferSize)."
  },
  {
   "property": "C76",
   "status": "partial",
   "theorems": [
    "Tcpx.C76_separate_setters_partial",
    "Tcpx.C76_no_effect_violated"
   ],
   "note": "Violated: SetDeadline of the server never has any effect, since the separate read and write deadlines are set right after it (C76_no_effect_violated). C76_separate_setters_partial: histories without SetDeadline."
  },
  {
   "property": "C77",
   "status": "partial",
   "theorems": [
    "Tcpx.C77_own_socket_partial",
    "Tcpx.C77_shared_socket_violated"
   ],
   "note": "Violated for UDP, where all contexts share the socket of the server (C77_shared_socket_violated). C77_own_socket_partial: contexts with sockets of their own."
  },
  {
   "property": "C78",
   "status": "partial",
   "theorems": [
    "Tcpx.C78_sequence",
    "Tcpx.C78_finished",
    "Tcpx.C78_terminates",
    "Tcpx.C78_all_run_partial",
    "Tcpx.C78_long_chain_violated"
   ],
   "note": "Order, at-most-once, OnClose and closing are proved without restriction (C78_sequence, C78_finished, C78_terminates); that everything runs for chains of at most 2019 handlers (C78_all_run_partial), and refuted for longer ones (C78_long_chain_violated), see C39."
  },
  {
   "property": "C79",
   "status": "partial",
   "theorems": [
    "Tcpx.C79_alone",
    "Tcpx.C79_both_succeed_violated",
    "Tcpx.C79_panics_violated",
    "Tcpx.C79_one_per_period_partial",
    "Tcpx.C79_no_panic_partial"
   ],
   "note": "Violated: two overlapping Stops both return nil (C79_both_succeed_violated), with broadcast signals the second one panics (C79_panics_violated). C79_one_per_period_partial: Stops that do not overlap each other; C79_no_panic_partial: without broadcast signals. C79_alone: an uninterrupted Stop is Life.stop."
  },
  {
   "property": "C80",
   "status": "partial",
   "theorems": [
    "Tcpx.C80_takes_effect_violated",
    "Tcpx.C80_refused_violated",
    "Tcpx.C80_wrong_state_violated",
    "Tcpx.C80_settled_partial"
   ],
   "note": "Violated by a listening call still on its way when Stop is called (C80_takes_effect_violated, C80_wrong_state_violated) and by Stop right after Start (C80_refused_violated). C80_settled_partial: all listening calls have reached their accept loops on network tcp."
  },
  {
   "property": "C81",
   "status": "partial",
   "theorems": [
    "Tcpx.C81_one_task_each",
    "Tcpx.C81_handler_reads",
    "Tcpx.C81_bind",
    "Tcpx.C81_messages_handled_partial",
    "Tcpx.C81_patterns_handled_partial",
    "Tcpx.C81_mixed_violated",
    "Tcpx.C81_any_part"
   ],
   "note": "Violated for connections carrying messages for ids and for patterns (C81_mixed_violated, a consequence of C35). C81_messages_handled_partial, C81_patterns_handled_partial: connections with messages of one kind. C81_one_task_each, C81_handler_reads and C81_bind hold for all messages."
  },
  {
   "property": "C82",
   "status": "proved",
   "theorems": [
    "Tcpx.C82_writeJSON",
    "Tcpx.C82_callOnce",
    "Tcpx.C82_callOnce_id_limit",
    "Tcpx.C82_recv_each",
    "Tcpx.C82_packType_reads",
    "Tcpx.C82_bindJSON",
    "Tcpx.C82_nil_body_limit"
   ],
   "note": "Ids outside int32 are truncated (C82_callOnce_id_limit); a nil body cannot be bound with PackType if the decoder refuses the empty text (C82_nil_body_limit)."
  },
  {
   "property": "C83",
   "status": "partial",
   "theorems": [
    "Tcpx.C83_whole_frames_partial",
    "Tcpx.C83_client_receives",
    "Tcpx.C83_partial_write_violated"
   ],
   "note": "Violated after a write that failed half-way (C83_partial_write_violated). C83_whole_frames_partial: writes transmit everything or nothing. That one Write call is not interleaved with another is a property of net.Conn (trusted)."
  },
  {
   "property": "C84",
   "status": "proved",
   "theorems": [
    "Tcpx.C84_is_untimed",
    "Tcpx.C84_not_early",
    "Tcpx.C84_in_time"
   ],
   "note": "Time is a clock added to the watcher model; C84_is_untimed: every run with a clock is a run without. How late the watcher may be is a hypothesis (Spec.PromptBeat)."
  },
  {
   "property": "C85",
   "status": "partial",
   "theorems": [
    "Tcpx.C85_kept_partial",
    "Tcpx.C85_slow_handler_violated"
   ],
   "note": "Violated by a handler that came before the watcher had made the heartbeat channel and stores its own late (C85_slow_handler_violated). C85_kept_partial: the watcher makes the channel first; C128: handlers are not late."
  },
  {
   "property": "C86",
   "status": "proved",
   "theorems": [
    "Tcpx.C86_decided_in_time",
    "Tcpx.C86_not_early",
    "Tcpx.C86_in_time",
    "Tcpx.C86_answer_counts"
   ],
   "note": "How late the watcher may be is a hypothesis (Spec.PromptAuth). Only TCP connections have an auth watcher."
  },
  {
   "property": "C87",
   "status": "partial",
   "theorems": [
    "Tcpx.C87_order",
    "Tcpx.C87_exits_partial",
    "Tcpx.C87_panic_violated",
    "Tcpx.C87_lost_signal_violated",
    "Tcpx.C87_early_signal_violated",
    "Tcpx.C87_two_calls_violated"
   ],
   "note": "Violated by a panicking callback, after which no such signal ends the process any more (C87_panic_violated), by a signal that arrives between Notify and the receive on the unbuffered channel (C87_lost_signal_violated), by two calls (C87_two_calls_violated), and by a signal before the goroutine has registered (C87_early_signal_violated). C87_order holds in every run; C87_exits_partial: callbacks that return, a goroutine already receiving."
  },
  {
   "property": "C88",
   "status": "partial",
   "theorems": [
    "Tcpx.C88_defer_partial",
    "Tcpx.C88_handler_violated",
    "Tcpx.C88_nil_violated"
   ],
   "note": "Violated by panic(nil) under go 1.12 (C88_nil_violated) and by a handler that panics itself (C88_handler_violated). C88_defer_partial: all other cases."
  },
  {
   "property": "C89",
   "status": "partial",
   "theorems": [
    "Tcpx.C89_tcp_partial",
    "Tcpx.C89_unknown",
    "Tcpx.C89_udp_violated",
    "Tcpx.C89_udp_direct_violated",
    "Tcpx.C89_udp_serves"
   ],
   "note": "Violated for UDP: panics if it cannot listen, and never returns after Stop (C89_udp_violated). C89_tcp_partial: TCP networks; C89_unknown: all other names. C89_udp_serves, C89_udp_direct_violated: what the two ways to listen on UDP do."
  },
  {
   "property": "C90",
   "status": "partial",
   "theorems": [
    "Tcpx.C90_tcp_partial",
    "Tcpx.C90_raw_violated",
    "Tcpx.C90_datagram_violated"
   ],
   "note": "Violated: only ListenAndServeTCP starts an auth watcher (C90_raw_violated, C90_datagram_violated). C90_tcp_partial: TCP."
  },
  {
   "property": "C91",
   "status": "partial",
   "theorems": [
    "Tcpx.C91_ends_partial",
    "Tcpx.C91_datagram_violated"
   ],
   "note": "C91_ends_partial: all watchers of a closed connection, under hypotheses of promptness (Spec.PromptBeat, PromptAuth, PromptEnd). Violated for datagrams, whose contexts nobody closes (C91_datagram_violated)."
  },
  {
   "property": "C92",
   "status": "partial",
   "theorems": [
    "Tcpx.C92_safe_partial",
    "Tcpx.C92_ends_partial",
    "Tcpx.C92_reset_violated",
    "Tcpx.C92_resetOffset_violated"
   ],
   "note": "Violated: Reset called by a handler makes Next index the emptied list (C92_reset_violated), ResetOffset makes the chain run again from the start (C92_resetOffset_violated). C92_safe_partial, C92_ends_partial: handlers that call neither."
  },
  {
   "property": "C93",
   "status": "proved",
   "theorems": [
    "Tcpx.C93_fresh",
    "Tcpx.C93_connection_kept",
    "Tcpx.C93_datagram"
   ],
   "note": "Requests run arbitrary code (any tree of store operations), so handlers calling Reset anywhere are covered."
  },
  {
   "property": "C94",
   "status": "proved",
   "theorems": [
    "Tcpx.C94_exclusive",
    "Tcpx.C94_accesses",
    "Tcpx.C94_balanced",
    "Tcpx.C94_refines",
    "Tcpx.C94_linearizable"
   ],
   "note": "Accesses take time in Model/Locks; C94_refines justifies the atomic critical sections of Model/Pool. Accesses to the exported field Clients by user code are out of scope. C94_accesses: the accesses that exclusion is about are those the actions make."
  },
  {
   "property": "C95",
   "status": "partial",
   "theorems": [
    "Tcpx.C95_state",
    "Tcpx.C95_properties_partial",
    "Tcpx.C95_pool_partial",
    "Tcpx.C95_properties_violated",
    "Tcpx.C95_pool_violated"
   ],
   "note": "Proved for the state and the listeners (C95_state). Violated for the list of records by Start (C95_properties_violated) and for the pool by Stop(true) without broadcast signals (C95_pool_violated); C95_properties_partial, C95_pool_partial: without these calls."
  },
  {
   "property": "C96",
   "status": "partial",
   "theorems": [
    "Tcpx.C96_tcp_partial",
    "Tcpx.C96_raw_partial",
    "Tcpx.C96_datagram_partial",
    "Tcpx.C96_loss_violated",
    "Tcpx.C96_datagram_violated",
    "Tcpx.C96_datagram_pool_violated"
   ],
   "note": "Violated with a heartbeat-loss callback (C96_loss_violated) and for datagrams with heartbeat, or with signals and a pool (C96_datagram_violated, C96_datagram_pool_violated); the partial theorems cover all other configurations of TCP and raw servers, and datagrams without watchers that use the pool."
  },
  {
   "property": "C97",
   "status": "partial",
   "theorems": [
    "Tcpx.C97_global",
    "Tcpx.C97_ids",
    "Tcpx.C97_caller_partial",
    "Tcpx.C97_url_partial",
    "Tcpx.C97_url_violated",
    "Tcpx.C97_set_violated",
    "Tcpx.C97_caller_violated"
   ],
   "note": "Proved for message ids and global middlewares. Violated for patterns: Any keeps the slice it is handed (C97_url_violated, C97_set_violated) and appends to it in place (C97_caller_violated). C97_url_partial: patterns never handed an existing slice."
  },
  {
   "property": "C98",
   "status": "partial",
   "theorems": [
    "Tcpx.C98_pack_exact",
    "Tcpx.C98_go_reads_partial",
    "Tcpx.C98_python_reads_partial",
    "Tcpx.C98_negative_violated",
    "Tcpx.C98_big_id_violated",
    "Tcpx.C98_truncated_violated"
   ],
   "note": "C98_pack_exact: exactly what Python packs. Violated for negative ids and ids from 2^31 (to_bytes/from_bytes without signed=True; C98_negative_violated, C98_big_id_violated) and for truncated frames, which Python reads (C98_truncated_violated). C98_go_reads_partial, C98_python_reads_partial: ids from 0 to 2^31-1, complete frames."
  },
  {
   "property": "C99",
   "status": "partial",
   "theorems": [
    "Tcpx.C99_all_run_partial",
    "Tcpx.C99_next_violated",
    "Tcpx.C99_abort_violated"
   ],
   "note": "Violated: Next or Abort called in OnConnect moves the offset that all copies inherit (C99_next_violated, C99_abort_violated). C99_all_run_partial: code that leaves the offset alone or resets it, chains of at most 2019 handlers (C39)."
  },
  {
   "property": "C100",
   "status": "partial",
   "theorems": [
    "Tcpx.C100_no_panic_partial",
    "Tcpx.C100_values_partial",
    "Tcpx.C100_datagram_partial",
    "Tcpx.C100_loss_violated"
   ],
   "note": "Proved for connections and for handlers of datagrams (partial theorems). Violated for OnHeartbeatLoss of a datagram, whose context has no store (C100_loss_violated)."
  },
  {
   "property": "C101",
   "status": "proved",
   "theorems": [
    "Tcpx.C101_reader",
    "Tcpx.C101_datagram"
   ],
   "note": "Calls of several goroutines come one at a time, in any order."
  },
  {
   "property": "C102",
   "status": "proved",
   "theorems": [
    "Tcpx.C102_nested",
    "Tcpx.C102_active",
    "Tcpx.C102_after_next",
    "Tcpx.C102_done",
    "Tcpx.C102_events"
   ],
   "note": "For chains of any length; a panic unwinds the chain."
  },
  {
   "property": "C103",
   "status": "partial",
   "theorems": [
    "Tcpx.C103_group_partial",
    "Tcpx.C103_after_arrival",
    "Tcpx.C103_overtaken_violated"
   ],
   "note": "Proved for the messages of one piped group (C103_group_partial); no message is handled before it has arrived (C103_after_arrival). Violated between separate messages, each of which has its own goroutine (C103_overtaken_violated)."
  },
  {
   "property": "C104",
   "status": "partial",
   "theorems": [
    "Tcpx.C104_no_new_partial",
    "Tcpx.C104_late_violated"
   ],
   "note": "Violated: goroutines of messages go on after OnClose and close (C104_late_violated). C104_no_new_partial: no goroutine for a message is started after OnClose."
  },
  {
   "property": "C105",
   "status": "partial",
   "theorems": [
    "Tcpx.C105_onMessage_partial",
    "Tcpx.C105_onMessage_violated",
    "Tcpx.C105_raw_partial",
    "Tcpx.C105_raw_violated"
   ],
   "note": "Violated: OnMessage and HandleRaw run every middleware ever given to Use (C105_onMessage_violated, C105_raw_violated). The partial theorems: as long as no middleware has been ended."
  },
  {
   "property": "C106",
   "status": "partial",
   "theorems": [
    "Tcpx.C106_messages_partial",
    "Tcpx.C106_opens",
    "Tcpx.C106_raw_violated"
   ],
   "note": "Proved for listeners of messages (ListenAndServe, ListenAndServeTCP, Start). Violated for ListenAndServeRaw (C106_raw_violated). TLS itself is not modelled, only which listeners are opened with which certificate."
  },
  {
   "property": "C107",
   "status": "partial",
   "theorems": [
    "Tcpx.C107_record",
    "Tcpx.C107_same_partial",
    "Tcpx.C107_raw_violated",
    "Tcpx.C107_buffer_violated"
   ],
   "note": "Proved for listeners of messages and of datagrams with the default buffer. Violated for raw listeners, which become listeners of messages (C107_raw_violated), and for buffer sizes (C107_buffer_violated)."
  },
  {
   "property": "C108",
   "status": "proved",
   "theorems": [
    "Tcpx.C108_ends",
    "Tcpx.C108_handled",
    "Tcpx.C108_only",
    "Tcpx.C108_stream"
   ],
   "note": "Composes C56 (which goroutines are started), C38/C39 (chains) and the interleaving of the goroutines. Groups cut off by the end of the stream are excluded (C22, C56: they end the process). C108_only: no handlers are called but those of the chains found for messages that have arrived."
  },
  {
   "property": "C109",
   "status": "partial",
   "theorems": [
    "Tcpx.C109_delivered_partial",
    "Tcpx.C109_sender_violated"
   ],
   "note": "To whom and how often: proved (C109_delivered_partial). The sender's name: violated, the handler fills in the receiver's (C109_sender_violated)."
  },
  {
   "property": "C110",
   "status": "partial",
   "theorems": [
    "Tcpx.C110_told_partial",
    "Tcpx.C110_lost_violated",
    "Tcpx.C110_crash_violated"
   ],
   "note": "Proved for a message handled without interruption while nobody's connection is being closed. Violated by a receiver that is leaving (C110_lost_violated) and by a body that Bind refuses (C110_crash_violated)."
  },
  {
   "property": "C111",
   "status": "proved",
   "theorems": [
    "Tcpx.C111_let_through",
    "Tcpx.C111_guard"
   ],
   "note": "For chains of any length, whatever handlers do."
  },
  {
   "property": "C112",
   "status": "proved",
   "theorems": [
    "Tcpx.C112_chain",
    "Tcpx.C112_needs_key",
    "Tcpx.C112_with_key"
   ],
   "note": "On top of C111, C39 and the registration model. The result of HeaderOf (Model/Packx) is arbitrary here."
  },
  {
   "property": "C113",
   "status": "proved",
   "theorems": [
    "Tcpx.C113_use",
    "Tcpx.C113_unUse",
    "Tcpx.C113_same"
   ],
   "note": "Places are the texts file:line that runtime.Caller gives for the calls; one key per call."
  },
  {
   "property": "C114",
   "status": "proved",
   "theorems": [
    "Tcpx.C114_add",
    "Tcpx.C114_handlers"
   ],
   "note": "Reachable only for a URLMux made by the user: the one inside a server is unexported, and nothing sets its flags."
  },
  {
   "property": "C115",
   "status": "proved",
   "theorems": [
    "Tcpx.C115_own",
    "Tcpx.C115_others"
   ],
   "note": "C115_others assumes that the watcher is never more than d late and that the loss callback does not panic."
  },
  {
   "property": "C116",
   "status": "proved",
   "theorems": [
    "Tcpx.C116_routes"
   ],
   "note": "Registration of the example as a literal sequence of calls, every message."
  },
  {
   "property": "C117",
   "status": "partial",
   "theorems": [
    "Tcpx.C117_listens_partial",
    "Tcpx.C117_kcp_violated",
    "Tcpx.C117_heartbeat_violated"
   ],
   "note": "Violated: ListenAndServe of kcp returns an error and the example panics (C117_kcp_violated); the rewritten heartbeat handler never calls RecvHeartBeat, so every connection is closed (C117_heartbeat_violated). C117_listens_partial: the calls for tcp and udp."
  },
  {
   "property": "C118",
   "status": "proved",
   "theorems": [
    "Tcpx.C118_keep_up"
   ],
   "note": "Shows that the promptness assumed by C84, C85, C86, C90, C91, C115 and C117 never contradicts the model: time can always go on."
  },
  {
   "property": "C119",
   "status": "proved",
   "theorems": [
    "Tcpx.C119_answered",
    "Tcpx.C119_can_finish",
    "Tcpx.C119_login",
    "Tcpx.C119_client"
   ],
   "note": "The property is about messages of one kind per connection (same router type and pattern); with several kinds a handler can be given the routing of another message (C35, C37, C81). A Write takes the whole buffer; failing writes are C83."
  },
  {
   "property": "C120",
   "status": "partial",
   "theorems": [
    "Tcpx.C120_prints_partial",
    "Tcpx.C120_flags_violated"
   ],
   "note": "Text and mode proved (C120_prints_partial); the flags set by SetLogFlags never have an effect (C120_flags_violated). What errorx adds to the text is not modelled."
  },
  {
   "property": "C121",
   "status": "proved",
   "theorems": [
    "Tcpx.C121_let_in",
    "Tcpx.C121_denied",
    "Tcpx.C121_kept"
   ],
   "note": "On top of C86 and C53: the goroutines of the process do what the example's handler and registration say. C121_kept is about authorisation only; the connection may end for other reasons."
  },
  {
   "property": "C122",
   "status": "partial",
   "theorems": [
    "Tcpx.C122_text_partial",
    "Tcpx.C122_moved_violated"
   ],
   "note": "Violated: the two fields are joined without a separator, so a signature is good for every other division of the same text (C122_moved_violated). C122_text_partial: for the same text only, if no two texts have the same hash."
  },
  {
   "property": "C123",
   "status": "proved",
   "theorems": [
    "Tcpx.C123_encode",
    "Tcpx.C123_same_as_pack",
    "Tcpx.C123_decode",
    "Tcpx.C123_ids"
   ],
   "note": "The encoders and decoders for JSON, protobuf, TOML, XML and YAML differ in the library only, which is a parameter."
  },
  {
   "property": "C124",
   "status": "partial",
   "theorems": [
    "Tcpx.C124_unpack_partial",
    "Tcpx.C124_udp_partial",
    "Tcpx.C124_tcp_violated"
   ],
   "note": "Unpack and the UDP server keep to it; the TCP server ends the connection at a message without header (C124_tcp_violated)."
  },
  {
   "property": "C125",
   "status": "partial",
   "theorems": [
    "Tcpx.C125_routes",
    "Tcpx.C125_same_partial",
    "Tcpx.C125_printed",
    "Tcpx.C125_overlong_violated"
   ],
   "note": "Routing and the printed text proved; a message whose declared body does not lie inside the frame makes two of the handlers panic and the third report an error (C125_overlong_violated)."
  },
  {
   "property": "C126",
   "status": "partial",
   "theorems": [
    "Tcpx.C126_routes",
    "Tcpx.C126_reports",
    "Tcpx.C126_bounds_partial",
    "Tcpx.C126_wraps_violated",
    "Tcpx.C126_client",
    "Tcpx.C126_session"
   ],
   "note": "Violated after 2^31 requests (C126_wraps_violated); proved below that number. The plain read of the counter beside atomic additions is taken to be atomic. C126_client: the example's client prints the count told to each of its requests, once. C126_session: the same from the bytes the client writes."
  },
  {
   "property": "C127",
   "status": "proved",
   "theorems": [
    "Tcpx.C127_client",
    "Tcpx.C127_routes",
    "Tcpx.C127_silent",
    "Tcpx.C127_open",
    "Tcpx.C127_kept"
   ],
   "note": "On top of C84, C115 and C128: the goroutines of the process do what the example's registration says. C127_client: what the example's client writes, from its bytes."
  },
  {
   "property": "C128",
   "status": "proved",
   "theorems": [
    "Tcpx.C128_kept",
    "Tcpx.C128_keep_up"
   ],
   "note": "C85 without assuming that the watcher makes the channel first, and about calls instead of returns; calls that take long are C85_slow_handler_violated. C128_keep_up: the assumptions can be met in every situation."
  },
  {
   "property": "C129",
   "status": "partial",
   "theorems": [
    "Tcpx.C129_client",
    "Tcpx.C129_received",
    "Tcpx.C129_answers",
    "Tcpx.C129_messages_violated",
    "Tcpx.C129_chain"
   ],
   "note": "What is received, in which pieces, with one answer per piece: proved for every fragmentation. Violated for messages instead of pieces (C129_messages_violated). C129_client: a session of client and server. Writes are taken to return."
  },
  {
   "property": "C130",
   "status": "partial",
   "theorems": [
    "Tcpx.C130_default_violated",
    "Tcpx.C130_same_violated",
    "Tcpx.C130_signals_partial"
   ],
   "note": "Proved for servers with broadcast signals. Violated for all others without a pool: Stop(true) is Stop(false) there, and no connection is ever closed by it (C130_default_violated); for servers with a pool see C62."
  },
  {
   "property": "C131",
   "status": "proved",
   "theorems": [
    "Tcpx.C131_refused",
    "Tcpx.C131_accepted",
    "Tcpx.C131_all_accepted",
    "Tcpx.C131_stopped",
    "Tcpx.C131_started"
   ],
   "note": "For any number of stops and starts of one endpoint; C131_refused and C131_accepted for any number of endpoints and goroutines of user code. Connections themselves are not followed (C63, C130). C131_all_accepted: every client let in can be accepted, and no more are."
  },
  {
   "property": "C132",
   "status": "partial",
   "theorems": [
    "Tcpx.C132_stopped_partial",
    "Tcpx.C132_late_violated",
    "Tcpx.C132_dead_violated",
    "Tcpx.C132_error_violated"
   ],
   "note": "Proved when no listening call is between net.Listen and openState at the call of Stop. Violated otherwise, with effects that last for ever: C132_late_violated, C132_dead_violated, C132_error_violated. C80 has the same calls without clients."
  },
  {
   "property": "C133",
   "status": "partial",
   "theorems": [
    "Tcpx.C133_frames_partial",
    "Tcpx.C133_requests_partial",
    "Tcpx.C133_clients",
    "Tcpx.C133_sound",
    "Tcpx.C133_aborted_violated",
    "Tcpx.C133_accepted_violated"
   ],
   "note": "Frames are accepted if and only if they decode, unreadable requests and unknown names get 400, and what the Go client posts is accepted. Violated for streams that are no frames: short ones, or ones announcing more than there is, make the handler panic, so that there is no answer (C133_aborted_violated); one whose total length disagrees with its parts is accepted (C133_accepted_violated). HTTP and gin are not modelled."
  },
  {
   "property": "C134",
   "status": "proved",
   "theorems": [
    "Tcpx.C134_silent",
    "Tcpx.C134_once",
    "Tcpx.C134_waits",
    "Tcpx.C134_in_time",
    "Tcpx.C134_order"
   ],
   "note": "C134_silent, C134_once, C134_in_time, C134_order; C134_waits says that the goroutine of a connection can always go on unless it waits for its client, so that the assumption of punctuality is about scheduling only. Model/Session has the goroutine of a connection, the goroutines it starts and the watchers together."
  },
  {
   "property": "C135",
   "status": "partial",
   "theorems": [
    "Tcpx.C135_late_partial",
    "Tcpx.C135_routes_violated"
   ],
   "note": "Violated: the loop does not look at authorisation; until the auth watcher closes the connection every message is handled (C135_routes_violated: the first message of any connection, whatever the settings). Proved for messages later than the deadline and 3 * d after the connection was accepted."
  },
  {
   "property": "C136",
   "status": "proved",
   "theorems": [
    "Tcpx.C136_kept"
   ],
   "note": "C128 is about calls of RecvHeartBeat; here the calls come from messages that arrive."
  },
  {
   "property": "C137",
   "status": "proved",
   "theorems": [
    "Tcpx.C137_silent"
   ],
   "note": "Composition of C115, C134 and C91 in Model/Session."
  },
  {
   "property": "C138",
   "status": "proved",
   "theorems": [
    "Tcpx.C138_hangup"
   ],
   "note": "A heartbeat handled after the closing can keep the heartbeat watcher for an interval more, so its end is counted from the last one received."
  },
  {
   "property": "C139",
   "status": "proved",
   "theorems": [
    "Tcpx.C139_handled"
   ],
   "note": "C56 and C108 say which messages a stream contains and that they are all handled, without time."
  },
  {
   "property": "C140",
   "status": "proved",
   "theorems": [
    "Tcpx.C140_shown",
    "Tcpx.C140_others_limit",
    "Tcpx.C140_undecodable_limit"
   ],
   "note": "For the ids the server sends; C140_others_limit and C140_undecodable_limit say what happens to other messages. json.Unmarshal is a parameter."
  },
  {
   "property": "C141",
   "status": "partial",
   "theorems": [
    "Tcpx.C141_lines_partial",
    "Tcpx.C141_end_violated",
    "Tcpx.C141_last_violated"
   ],
   "note": "Proved while the input goes on; violated at its end: the error of ReadString is ignored, so the client sends empty messages for ever (C141_end_violated), and what was typed last, if it is a single byte, is not sent (C141_last_violated)."
  },
  {
   "property": "C142",
   "status": "partial",
   "theorems": [
    "Tcpx.C142_printed_partial",
    "Tcpx.C142_together_violated",
    "Tcpx.C142_pieces_violated",
    "Tcpx.C142_crash_violated"
   ],
   "note": "Violated: the clients take what one Read gives for a message, so messages that arrive together or in pieces are lost (C142_together_violated, C142_pieces_violated), and a message longer than the buffer can end the client (C142_crash_violated). C142_printed_partial: one message per Read."
  },
  {
   "property": "C143",
   "status": "proved",
   "theorems": [
    "Tcpx.C143_only_time",
    "Tcpx.C143_rest",
    "Tcpx.C143_keep_up"
   ],
   "note": "Shows that the punctuality assumed by C134 to C139 can be met whatever clients and handlers do. OnClose is taken to do nothing to connections, and handlers to call RecvHeartBeat for their own connection first if at all."
  },
  {
   "property": "C144",
   "status": "proved",
   "theorems": [
    "Tcpx.C144_as_whole",
    "Tcpx.C144_in_time",
    "Tcpx.C144_frames",
    "Tcpx.C144_not_early",
    "Tcpx.C144_closed",
    "Tcpx.C144_only_time",
    "Tcpx.C144_rest",
    "Tcpx.C144_keep_up"
   ],
   "note": "Refines the reading of Model/Session and Model/ConnLoop to single Read calls in time. Groups that are cut off are handed on with nil contexts, as C56 says (C56_interrupted_group_violated): the loop run on the whole stream does so too."
  },
  {
   "property": "C145",
   "status": "partial",
   "theorems": [
    "Tcpx.C145_accesses",
    "Tcpx.C145_alone",
    "Tcpx.C145_not_stuck",
    "Tcpx.C145_ends",
    "Tcpx.C145_no_race_partial",
    "Tcpx.C145_one_partial",
    "Tcpx.C145_registered_partial",
    "Tcpx.C145_url_partial",
    "Tcpx.C145_use_violated",
    "Tcpx.C145_use_twice_violated",
    "Tcpx.C145_any_violated",
    "Tcpx.C145_mixture_violated",
    "Tcpx.C145_rewrite_violated",
    "Tcpx.C145_unuse_partial",
    "Tcpx.C145_url_unuse_partial"
   ],
   "note": "Violated: Use looks up and writes MiddlewareAnchorMap, and Any writes the map of patterns, without the mutex (C145_use_violated, C145_any_violated: in Go two such accesses may end the process); AddHandler is several critical sections, so a call that panics can leave its middlewares in front of the handler of the call that returned (C145_mixture_violated). Not stuck and ending are proved for all calls; two calls of Use with one key may both return, and the middleware of one is lost (C145_use_twice_violated); what messages are given to is proved for programs without UnUse and RewriteHeartBeatHandler that give each key to Use once, a registered id getting all middlewares its goroutine put in use before and a first part of those of each other goroutine (a pattern too, C145_url_partial); for programs with UnUse: what is registered is guarded by what is in use when its goroutine makes the call and not by what this goroutine has ended, for keys that only it gives to Use and UnUse, also while the handler of the heartbeat, which has another id, is rewritten (C145_unuse_partial, C145_url_unuse_partial); that nothing clashes, for AddHandler and UseGlobal. Two calls of RewriteHeartBeatHandler at the same time may both leave their handlers (C145_rewrite_violated); URL patterns may be registered meanwhile (C145_url_unuse_partial). C145_alone: one goroutine alone does what Model/Mux says. C145_accesses: the accesses that clashes are defined by are those the steps make."
  },
  {
   "property": "C146",
   "status": "partial",
   "theorems": [
    "Tcpx.C146_dispatch_no_race",
    "Tcpx.C146_others_partial",
    "Tcpx.C146_url_others_partial",
    "Tcpx.C146_guarded_partial",
    "Tcpx.C146_url_guarded_partial",
    "Tcpx.C146_race_violated",
    "Tcpx.C146_window_violated",
    "Tcpx.C146_url_window_violated",
    "Tcpx.C146_locked_violated",
    "Tcpx.C146_rewrite_others_partial",
    "Tcpx.C146_rewrite_violated",
    "Tcpx.C146_unuse_guarded_partial",
    "Tcpx.C146_url_unuse_guarded_partial",
    "Tcpx.C146_unuse_others_partial",
    "Tcpx.C146_url_unuse_others_partial",
    "Tcpx.C146_again_violated"
   ],
   "note": "Violated: dispatch reads the maps and lists of the mux without the mutex (C146_race_violated), a message that arrives while its id is being registered can make dispatch panic (C146_window_violated), and ListenAndServe does not lock the mux (C146_locked_violated). Proved: dispatches among themselves never clash; with accesses taken to be atomic, messages with other ids keep their handlers and middlewares (also while Use is called, with any keys), and the id or pattern being registered is never handled without its middlewares (patterns: C146_url_others_partial, C146_url_guarded_partial; the panic: C146_url_window_violated), and both also while UnUse is called and the handler of the heartbeat, which has another id, is rewritten (C146_unuse_others_partial, C146_unuse_guarded_partial and the same for patterns), unless a middleware was in use again after UnUse before: then a later UnUse makes it guard ids it did not guard (C146_again_violated, an effect of C27). While the handler of the heartbeat is rewritten, ids that are not the heartbeat's and patterns are served as before (C146_rewrite_others_partial, C146_url_unuse_others_partial); a heartbeat that arrives meanwhile may be dropped or make dispatch panic (C146_rewrite_violated)."
  },
  {
   "property": "C147",
   "status": "partial",
   "theorems": [
    "Tcpx.C147_online_partial",
    "Tcpx.C147_offline_partial",
    "Tcpx.C147_empty_violated",
    "Tcpx.C147_early_violated"
   ],
   "note": "Violated: the error of Online is ignored, so `online success` is printed for an empty name (C147_empty_violated), and `offline success` is printed before anything is done (C147_early_violated). The standard output is a connection nobody closes."
  },
  {
   "property": "C148",
   "status": "partial",
   "theorems": [
    "Tcpx.C148_told_partial",
    "Tcpx.C148_reason_violated"
   ],
   "note": "Violated: login answers a body it cannot decode with id 2, which the client takes for a success: it shows an empty token and not the reason (C148_reason_violated). C148_told_partial: all other answers."
  },
  {
   "property": "C149",
   "status": "proved",
   "theorems": [
    "Tcpx.C149_answered",
    "Tcpx.C149_printed",
    "Tcpx.C149_client"
   ],
   "note": "C149_answered: all messages with ids 1, 3, 5, 11, 20, along every schedule; C149_printed: the client on any such answers; C149_client: both programs together. The requests run over a connection that is not closed meanwhile: that the server closes it after three heartbeat intervals, and that its process ends, is C117."
  },
  {
   "property": "C150",
   "status": "partial",
   "theorems": [
    "Tcpx.C150_silent",
    "Tcpx.C150_refused",
    "Tcpx.C150_prints",
    "Tcpx.C150_right_partial",
    "Tcpx.C150_valid_violated"
   ],
   "note": "C150_silent and C150_refused: the clients that send nothing and that sign wrongly, from their bytes to the closing of the connection; C150_right_partial: a client with the right secret that sends its message. Violated by ValidClient, which has another secret and does not send what it has packed (C150_valid_violated). That two texts have different hashes is a hypothesis; the handler of the server says \"auth deny, signature wrong\" where the comment of the client says \"signature error\"."
  },
  {
   "property": "C151",
   "status": "proved",
   "theorems": [
    "Tcpx.C151_routes",
    "Tcpx.C151_printed"
   ],
   "note": "C151_printed: for clients that pack their texts with the JSON marshaller, from the bytes received to the lines printed; C151_routes: OnMessage gets every message. Assumed: the JSON codec reads back the texts it writes. A message that is not packed so may end the process (see C125_overlong_violated)."
  },
  {
   "property": "C152",
   "status": "proved",
   "theorems": [
    "Tcpx.C152_contexts",
    "Tcpx.C152_loop",
    "Tcpx.C152_answered",
    "Tcpx.C152_hello"
   ],
   "note": "C152_answered: for any server and handlers that send one answer or none; C152_contexts, C152_loop: which datagrams are handled, and that the loop is the one of C75; C152_hello: the sayHello server, from the packed messages of its clients to what goes out to each. A handler that panics ends the process (C74): C152_hello says for which messages this is so."
  },
  {
   "property": "C153",
   "status": "proved",
   "theorems": [
    "Tcpx.C153_server",
    "Tcpx.C153_login"
   ],
   "note": "C153_server: every listener the example opens; C153_login: from what the client writes to the dispatch of its message. TLS is taken to be a transparent stream."
  },
  {
   "property": "C154",
   "status": "proved",
   "theorems": [
    "Tcpx.C154_reply",
    "Tcpx.C154_given",
    "Tcpx.C154_nil",
    "Tcpx.C154_unconnected_limit"
   ],
   "note": "C154_reply, C154_given, C154_nil: for a Context connected to a stream or to a packet connection; C154_unconnected_limit: on a Context connected to nothing the call panics. Frames below 4 GiB."
  },
  {
   "property": "C155",
   "status": "proved",
   "theorems": [
    "Tcpx.C155_shown",
    "Tcpx.C155_reaches"
   ],
   "note": "C155_shown: safety, for every execution; C155_reaches: delivery, under the conditions of C110_told_partial. Composes C109, C110 and C140. The name in front of a text is not the sender's (C109_sender_violated). The JSON libraries are parameters: that of the client reads what that of the server writes."
  },
  {
   "property": "C156",
   "status": "partial",
   "theorems": [
    "Tcpx.C156_empty",
    "Tcpx.C156_once_partial",
    "Tcpx.C156_short_write_violated",
    "Tcpx.C156_not_fewer",
    "Tcpx.C156_failure"
   ],
   "note": "As C18 for the function write, which has no caller: exact if every Write takes all or nothing; a short write makes it send the whole buffer again (C156_short_write_violated), because the rest of the buffer it computes is overwritten at the start of the next turn."
  },
  {
   "property": "C157",
   "status": "proved",
   "theorems": [
    "Tcpx.C157_set",
    "Tcpx.C157_new"
   ],
   "note": "C157_set: any sequence of Set, from any state; C157_new: NewRequest. Requests are not used by the rest of the package; what Body reads is a parameter."
  },
  {
   "property": "C158",
   "status": "proved",
   "theorems": [
    "Tcpx.C158_routes",
    "Tcpx.C158_answered"
   ],
   "note": "C158_routes: which handlers, for every routing; C158_answered: the answers, end to end. The server is that of the example with the commented-out line 43 in use. Messages are those of C81 (below 2 GiB, no pipe marker); a Write takes the whole answer."
  },
  {
   "property": "C159",
   "status": "proved",
   "theorems": [
    "Tcpx.C159_printed"
   ],
   "note": "C159_printed, end to end: what the client writes, any prefix of it arriving in any pieces, any schedule. Uses C81_any_part for the cut stream, C35_tcp_same_type_partial for the dispatch and C125_printed for the handlers. That json.Marshal of a nil header succeeds is a hypothesis, as are the laws of encoding/json; a failed Write of the client is covered as a shorter prefix."
  },
  {
   "property": "C160",
   "status": "proved",
   "theorems": [
    "Tcpx.C160_answered",
    "Tcpx.C160_client"
   ],
   "note": "C160_answered: the answers, end to end from packing to the bytes sent; C160_client: the examples' own client and what it shows. The texts of the answers are parameters that can be packed and fit one Write (LoginFrames); the answers with e.Error() are given up to the error. The JSON libraries are parameters. That messages on one connection are all of the same routing is needed because of C35."
  },
  {
   "property": "C161",
   "status": "proved",
   "theorems": [
    "Tcpx.C161_read",
    "Tcpx.C161_built",
    "Tcpx.C161_server",
    "Tcpx.C161_empty_limit"
   ],
   "note": "C161_read: against the header packed; C161_built: the messages of NewMessage and NewURLPatternMessage; C161_server: agreement with the routing of a request alone on its connection (C35 for several). C161_empty_limit: the two kinds of messages with the empty answer. The laws of encoding/json are a hypothesis. RouteTypeOf is not called by the package itself."
  }
 ]
}