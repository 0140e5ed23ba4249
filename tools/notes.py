NOTES["C03"] = "Header equality is up to the json library's own round trip (JSONCodec.Lawful). C03_stale_destination_limit: an empty encoding is never decoded, so a reused destination keeps its old value."
NOTES["C11"] = "Violated by the code for declared header lengths >= 2^31-16 (C11_header_panic_violated, exact set C11_header_panic_iff); C11_accessors_total_partial covers declared lengths with 16+header+body < 2^31."
NOTES["C13"] = "C13_reads_past_frame_limit: the regions lie in the buffer but not necessarily in the announced frame."
NOTES["C12"] = "Violated for announced lengths in [2^31, 2^32) (C12_negative_length_violated: make panics, inside the caller); the partial theorem covers the rest."
NOTES["C17"] = "Violated: bytes delivered together with io.EOF are dropped (C17_eof_with_data_violated); holds when end of stream is reported separately (C17_eof_after_data_partial)."
NOTES["C39"] = "Violated for chains of more than 2019 handlers, because the abort mark is the index 2019 (C39_long_chain_violated); the partial theorem covers shorter chains."
NOTES["C25"] = "Violated: a refused AddHandler with middlewares leaves them on the existing handler (C25_middleware_violated). The handler itself and all other routes are always kept (C25_others_kept); nothing changes when the refused call has no middlewares or the handler already has own ones (C25_unchanged_partial)."
NOTES["C27"] = "Violated for an id freed by RewriteHeartBeatHandler (C27_leftover_middleware_violated); holds otherwise in histories without recovered panics."
NOTES["C28"] = "Violated when a key is used again after UnUse (C28_reuse_violated, C28_reuse_function_violated). C28_exact says for every history which middlewares the code applies; C28_in_use*_partial give the claim when no key is in a repeated period of use."
NOTES["C30"] = "Violated for message id 0 on a server with heartbeat and auth unconfigured (C30_id_zero_violated); proved for all other ids and all URL patterns."
NOTES["C33"] = "Violated for two or more handlers, which all run twice (C33_doubled_violated); proved for one handler."
NOTES["C41"] = "Violated: Any with several handlers adds a route to a locked mux, AddHandler with middlewares changes an existing one."
NOTES["C42"] = "Violated when heartbeat was never configured (the handler of id 0 is removed) and when the new id is taken (panic after removing the old handler)."
NOTES["C22"] = "Violated: when the stream ends or fails inside a group, the group is dispatched with nil entries (C22_disconnect_violated, C22_garbage_violated). C22_stall_partial covers a peer that stalls or sends a negative length."
NOTES["C56"] = "Violated when a group is interrupted by the end of the stream or an oversized frame (C56_interrupted_group_violated, C56_smuggled_violated); every other stream is covered by C56_dispatch_partial. C56_every_stream_splits shows the hypotheses on the stream are always met."
NOTES["C59"] = "Violated: a panicking handler ends the process, since dispatch goroutines do not recover (C59_handler_panic_violated); proved for handlers that do not panic."
NOTES["C18"] = "Violated by short writes (C18_short_write_violated: the whole buffer is sent again). Proved when each Write takes everything or nothing; C18_not_fewer holds for every connection."
NOTES["C19"] = "Violated for a nil id (C19_nil_id_violated: reflect.TypeOf(nil).Name() panics). All other argument lists are covered; C19_id_truncated_limit: ids outside int32 are silently reduced."
NOTES["C34"] = "Violated for declared header lengths >= 2^31-16 (C34_huge_header_violated: the router panics). C34_header_decides_partial covers all others, for requests that share their store with no other; sharing is the subject of C35."
NOTES["C35"] = "Violated on TCP connections carrying messages of both router types (C35_tcp_violated): the type of the first routed message is cached for the whole connection. Proved for datagrams and for connections with one type."
NOTES["C36"] = "Violated on TCP (C36_tcp_shared_violated: copyContext aliases the request store to the connection store). Proved for datagrams; C36_tcp_other_connections_partial: never a value of another connection."
NOTES["C37"] = "Violated on TCP connections with messages of different patterns (C37_tcp_violated). Proved for datagrams and for connections with one pattern; C37_reply_pattern gives the bytes of the reply."
NOTES["C49"] = "Violated when SetCtxPerRequest is used with the same key (C49_request_overwrites_violated). The refusal part is proved in full (C49_refused_iff)."
NOTES["C50"] = "Violated by SetCtxPerRequest with the key tcpx-username (C50_forged_violated); proved when no handler does that."
NOTES["C72"] = "The route a built message asks for is proved in full; that it is followed is violated by C35_tcp_violated on mixed TCP connections, and proved otherwise."
NOTES["C60"] = "Violated for every network other than tcp, udp and kcp (C60_other_networks_violated: tcp4, tcp6, unix, udp4, ... stay open)."
NOTES["C64"] = "Violated: the broadcast channel is closed by the first Stop(true) and never made anew, so a later Stop(true) panics (C64_second_stop_violated)."
NOTES["C65"] = "Violated for every server with two different endpoints (C65_shared_variable_violated: the goroutines share the loop variable, go.mod says go 1.12); proved for one endpoint in every schedule."
NOTES["C69"] = "Violated for the pattern % (C69_single_percent_violated: slice bounds panic); proved for all other pattern lists."
NOTES["C70"] = "Violated for IPv6 peers (C70_ipv6_violated: a bracketed address yields 127.0.0.1); proved for IPv4."
NOTES["C71"] = "Violated for a message with a nil header, on which Set panics (C71_nil_header_violated); Get is proved for all messages."
NOTES["C73"] = "Violated: an accept error or a panic in OnConnect ends the loop for good with the state still running, so Start refuses (C73_loop_dies_violated); the partial theorem describes the loop while nothing fails."
NOTES["C43"] = "Violated when a handler stores a non-string under the key tcpx-username (C43_forged_name_violated: CloseConn panics before setting offline). C43_close_partial: every interleaving of any number of goroutines otherwise."
NOTES["C44"] = "Linearizability against an atomic pool, for every program and every schedule; C44_sequential is the same for calls made one after another."
NOTES["C45"] = "C45_name_kept_limit: the refused Online without a pool has still set the user name."
NOTES["C46"] = "Violated after two names (C46_two_names_violated) and by Online racing with CloseConn (C46_online_races_violated); proved for a connection with one name whose close is not overlapped by an Online."
NOTES["C47"] = "Violated in the very case the property is about (C47_same_name_violated: pool.Offline removes by name only); the partial theorem covers closing connections of other names."
NOTES["C48"] = "For calls that are not interleaved with others; C48_stale_receiver_limit shows what interleaving can do."
NOTES["C62"] = "Violated (C62_deadlock_violated): the closing goroutine holds the write lock of the pool while CloseConn asks for its read lock. Proved for members without a user name or with another pool. C62_stop_partial: Stop(true) starts exactly one such goroutine, for the pool in use, and replaces the pool."
NOTES["C51"] = "C51_loss (soundness: only after three silent intervals, callback once before) holds in every run. The converse is violated when the loss callback panics (C51_callback_panics_violated: the connection is never closed); C51_lost_beat_violated: a heartbeat that races with the making of the channel is lost. C51_closes_partial is the converse for callbacks that do not panic."
NOTES["C52"] = "Violated by every datagram (C52_socket_closed_violated: each datagram gets a watcher that closes the shared socket three intervals later, whatever other clients send). C52_socket_open_partial: without heartbeat the socket stays open until Stop(true)."
NOTES["C53"] = "Time is a label: the deadline may pass at any moment while the watcher waits."
NOTES["C54"] = "Violated: at most two authorisation signals of a connection ever return, one without auth (C54_auth_blocks_violated), and with heartbeat off one heartbeat signal (C54_beat_blocks_violated). C54_first_partial: the first signal never blocks, and a signal taken by the watcher unblocks."
NOTES["C61"] = "Violated with heartbeat on (C61_heartbeat_violated: the watcher closes the connection when it finds the state stopped). C61_kept_partial, C61_pool_partial: heartbeat off."
NOTES["C63"] = "Two steps of the watcher of a connection close it, whatever is scheduled between them."
NOTES["C64"] = "Violated: the broadcast channel is closed by the first Stop(true) and never made anew, so new connections are closed at once (C64_new_connection_violated) and a later Stop(true) panics (C64_second_stop_violated). C64_kept_partial: histories without Stop(true). C64_pool_partial: without broadcast signals the pool in use is never one being closed, after any history."
NOTES["C58"] = "Violated by a datagram announcing a header of 2^31 bytes or more (C58_huge_header_violated). C58_no_panic_partial: all others, for every registration history. The handlers are assumed not to panic."
NOTES["C74"] = "Violated: read errors other than EOF are retried at once for ever (C74_spins_violated). C74_ends_partial: the loop ends after Stop or EOF."
NOTES["C75"] = "Buffers are filled as on POSIX systems (longer datagrams are cut off)."
NOTES["C76"] = "Violated: SetDeadline of the server never has any effect, since the separate read and write deadlines are set right after it (C76_no_effect_violated). C76_separate_setters_partial: histories without SetDeadline."
NOTES["C77"] = "Violated for UDP, where all contexts share the socket of the server (C77_shared_socket_violated). C77_own_socket_partial: contexts with sockets of their own."
NOTES["C78"] = "Order, at-most-once, OnClose and closing are proved without restriction (C78_sequence, C78_finished, C78_terminates); that everything runs for chains of at most 2019 handlers (C78_all_run_partial), and refuted for longer ones (C78_long_chain_violated), see C39."
NOTES["C79"] = "Violated: two overlapping Stops both return nil (C79_both_succeed_violated), with broadcast signals the second one panics (C79_panics_violated). C79_one_per_period_partial: Stops that do not overlap each other; C79_no_panic_partial: without broadcast signals. C79_alone: an uninterrupted Stop is Life.stop."
NOTES["C80"] = "Violated by a listening call still on its way when Stop is called (C80_takes_effect_violated, C80_wrong_state_violated) and by Stop right after Start (C80_refused_violated). C80_settled_partial: all listening calls have reached their accept loops on network tcp."
NOTES["C81"] = "Violated for connections carrying messages for ids and for patterns (C81_mixed_violated, a consequence of C35). C81_messages_handled_partial, C81_patterns_handled_partial: connections with messages of one kind. C81_one_task_each, C81_handler_reads and C81_bind hold for all messages."
NOTES["C82"] = "Ids outside int32 are truncated (C82_callOnce_id_limit); a nil body cannot be bound with PackType if the decoder refuses the empty text (C82_nil_body_limit)."
NOTES["C83"] = "Violated after a write that failed half-way (C83_partial_write_violated). C83_whole_frames_partial: writes transmit everything or nothing. That one Write call is not interleaved with another is a property of net.Conn (trusted)."
NOTES["C84"] = "Time is a clock added to the watcher model; C84_is_untimed: every run with a clock is a run without. How late the watcher may be is a hypothesis (Spec.PromptBeat)."
NOTES["C85"] = "Violated by a handler that came before the watcher had made the heartbeat channel and stores its own late (C85_slow_handler_violated). C85_kept_partial: the watcher makes the channel first; C128: handlers are not late."
NOTES["C86"] = "How late the watcher may be is a hypothesis (Spec.PromptAuth). Only TCP connections have an auth watcher."
NOTES["C87"] = "Violated by a panicking callback, after which no such signal ends the process any more (C87_panic_violated), by a signal that arrives between Notify and the receive on the unbuffered channel (C87_lost_signal_violated), by two calls (C87_two_calls_violated), and by a signal before the goroutine has registered (C87_early_signal_violated). C87_order holds in every run; C87_exits_partial: callbacks that return, a goroutine already receiving."
NOTES["C88"] = "Violated by panic(nil) under go 1.12 (C88_nil_violated) and by a handler that panics itself (C88_handler_violated). C88_defer_partial: all other cases."
NOTES["C89"] = "Violated for UDP: panics if it cannot listen, and never returns after Stop (C89_udp_violated). C89_tcp_partial: TCP networks; C89_unknown: all other names."
NOTES["C90"] = "Violated: only ListenAndServeTCP starts an auth watcher (C90_raw_violated, C90_datagram_violated). C90_tcp_partial: TCP."
NOTES["C91"] = "C91_ends_partial: all watchers of a closed connection, under hypotheses of promptness (Spec.PromptBeat, PromptAuth, PromptEnd). Violated for datagrams, whose contexts nobody closes (C91_datagram_violated)."
NOTES["C92"] = "Violated: Reset called by a handler makes Next index the emptied list (C92_reset_violated), ResetOffset makes the chain run again from the start (C92_resetOffset_violated). C92_safe_partial, C92_ends_partial: handlers that call neither."
NOTES["C93"] = "Requests run arbitrary code (any tree of store operations), so handlers calling Reset anywhere are covered."
NOTES["C94"] = "Accesses take time in Model/Locks; C94_refines justifies the atomic critical sections of Model/Pool. Accesses to the exported field Clients by user code are out of scope. C94_accesses: the accesses that exclusion is about are those the actions make."
NOTES["C95"] = "Proved for the state and the listeners (C95_state). Violated for the list of records by Start (C95_properties_violated) and for the pool by Stop(true) without broadcast signals (C95_pool_violated); C95_properties_partial, C95_pool_partial: without these calls."
NOTES["C96"] = "Violated with a heartbeat-loss callback (C96_loss_violated) and for datagrams with heartbeat, or with signals and a pool (C96_datagram_violated, C96_datagram_pool_violated); the partial theorems cover all other configurations of TCP and raw servers, and datagrams without watchers that use the pool."
NOTES["C97"] = "Proved for message ids and global middlewares. Violated for patterns: Any keeps the slice it is handed (C97_url_violated, C97_set_violated) and appends to it in place (C97_caller_violated). C97_url_partial: patterns never handed an existing slice."
NOTES["C98"] = "C98_pack_exact: exactly what Python packs. Violated for negative ids and ids from 2^31 (to_bytes/from_bytes without signed=True; C98_negative_violated, C98_big_id_violated) and for truncated frames, which Python reads (C98_truncated_violated). C98_go_reads_partial, C98_python_reads_partial: ids from 0 to 2^31-1, complete frames."
NOTES["C99"] = "Violated: Next or Abort called in OnConnect moves the offset that all copies inherit (C99_next_violated, C99_abort_violated). C99_all_run_partial: code that leaves the offset alone or resets it, chains of at most 2019 handlers (C39)."
NOTES["C100"] = "Proved for connections and for handlers of datagrams (partial theorems). Violated for OnHeartbeatLoss of a datagram, whose context has no store (C100_loss_violated)."
NOTES["C101"] = "Calls of several goroutines come one at a time, in any order."
NOTES["C102"] = "For chains of any length; a panic unwinds the chain."
NOTES["C103"] = "Proved for the messages of one piped group (C103_group_partial); no message is handled before it has arrived (C103_after_arrival). Violated between separate messages, each of which has its own goroutine (C103_overtaken_violated)."
NOTES["C104"] = "Violated: goroutines of messages go on after OnClose and close (C104_late_violated). C104_no_new_partial: no goroutine for a message is started after OnClose."
NOTES["C105"] = "Violated: OnMessage and HandleRaw run every middleware ever given to Use (C105_onMessage_violated, C105_raw_violated). The partial theorems: as long as no middleware has been ended."
NOTES["C106"] = "Proved for listeners of messages (ListenAndServe, ListenAndServeTCP, Start). Violated for ListenAndServeRaw (C106_raw_violated). TLS itself is not modelled, only which listeners are opened with which certificate."
NOTES["C107"] = "Proved for listeners of messages and of datagrams with the default buffer. Violated for raw listeners, which become listeners of messages (C107_raw_violated), and for buffer sizes (C107_buffer_violated)."
NOTES["C108"] = "Composes C56 (which goroutines are started), C38/C39 (chains) and the interleaving of the goroutines. Groups cut off by the end of the stream are excluded (C22, C56: they end the process)."
NOTES["C109"] = "To whom and how often: proved (C109_delivered_partial). The sender's name: violated, the handler fills in the receiver's (C109_sender_violated)."
NOTES["C110"] = "Proved for a message handled without interruption while nobody's connection is being closed. Violated by a receiver that is leaving (C110_lost_violated) and by a body that Bind refuses (C110_crash_violated)."
NOTES["C111"] = "For chains of any length, whatever handlers do."
NOTES["C112"] = "On top of C111, C39 and the registration model. The result of HeaderOf (Model/Packx) is arbitrary here."
NOTES["C113"] = "Places are the texts file:line that runtime.Caller gives for the calls; one key per call."
NOTES["C114"] = "Reachable only for a URLMux made by the user: the one inside a server is unexported, and nothing sets its flags."
NOTES["C115"] = "C115_others assumes that the watcher is never more than d late and that the loss callback does not panic."
NOTES["C116"] = "Registration of the example as a literal sequence of calls, every message."
NOTES["C117"] = "Violated: ListenAndServe of kcp returns an error and the example panics (C117_kcp_violated); the rewritten heartbeat handler never calls RecvHeartBeat, so every connection is closed (C117_heartbeat_violated). C117_listens_partial: the calls for tcp and udp."
NOTES["C118"] = "Shows that the promptness assumed by C84, C85, C86, C90, C91, C115 and C117 never contradicts the model: time can always go on."
NOTES["C119"] = "The property is about messages of one kind per connection (same router type and pattern); with several kinds a handler can be given the routing of another message (C35, C37, C81). A Write takes the whole buffer; failing writes are C83."
NOTES["C120"] = "Text and mode proved (C120_prints_partial); the flags set by SetLogFlags never have an effect (C120_flags_violated). What errorx adds to the text is not modelled."
NOTES["C121"] = "On top of C86 and C53: the goroutines of the process do what the example's handler and registration say. C121_kept is about authorisation only; the connection may end for other reasons."
NOTES["C122"] = "Violated: the two fields are joined without a separator, so a signature is good for every other division of the same text (C122_moved_violated). C122_text_partial: for the same text only, if no two texts have the same hash."
NOTES["C123"] = "The encoders and decoders for JSON, protobuf, TOML, XML and YAML differ in the library only, which is a parameter."
NOTES["C124"] = "Unpack and the UDP server keep to it; the TCP server ends the connection at a message without header (C124_tcp_violated)."
NOTES["C125"] = "Routing and the printed text proved; a message whose declared body does not lie inside the frame makes two of the handlers panic and the third report an error (C125_overlong_violated)."
NOTES["C126"] = "Violated after 2^31 requests (C126_wraps_violated); proved below that number. The plain read of the counter beside atomic additions is taken to be atomic. C126_client: the example's client prints the count told to each of its requests, once. C126_session: the same from the bytes the client writes."
NOTES["C127"] = "On top of C84, C115 and C128: the goroutines of the process do what the example's registration says. C127_client: what the example's client writes, from its bytes."
NOTES["C128"] = "C85 without assuming that the watcher makes the channel first, and about calls instead of returns; calls that take long are C85_slow_handler_violated. C128_keep_up: the assumptions can be met in every situation."
NOTES["C64"] += " C64_renewed_partial: WithBroadCastSignal(true) called since the last Stop(true) makes the next one succeed."
NOTES["C65"] += " C65_count_partial, C65_restart_partial: how many listening calls Start and Restart make, and which callbacks run."
NOTES["C70"] += " C70_unbracketed_partial: every address without brackets, whatever colons its host has; C70_unix_limit: what unix sockets give."
NOTES["C75"] += " The size of the buffer is the one given, or 4096, stated apart from the model (Spec.BufferSize)."
NOTES["C89"] += " C89_udp_serves, C89_udp_direct_violated: what the two ways to listen on UDP do."
NOTES["C129"] = "What is received, in which pieces, with one answer per piece: proved for every fragmentation. Violated for messages instead of pieces (C129_messages_violated). C129_client: a session of client and server. Writes are taken to return."
NOTES["C130"] = "Proved for servers with broadcast signals. Violated for all others without a pool: Stop(true) is Stop(false) there, and no connection is ever closed by it (C130_default_violated); for servers with a pool see C62."
NOTES["C131"] = "For any number of stops and starts of one endpoint; C131_refused and C131_accepted for any number of endpoints and goroutines of user code. Connections themselves are not followed (C63, C130)."
NOTES["C132"] = "Proved when no listening call is between net.Listen and openState at the call of Stop. Violated otherwise, with effects that last for ever: C132_late_violated, C132_dead_violated, C132_error_violated. C80 has the same calls without clients."
NOTES["C133"] = "Frames are accepted if and only if they decode, unreadable requests and unknown names get 400, and what the Go client posts is accepted. Violated for streams that are no frames: short ones, or ones announcing more than there is, make the handler panic, so that there is no answer (C133_aborted_violated); one whose total length disagrees with its parts is accepted (C133_accepted_violated). HTTP and gin are not modelled."
NOTES["C134"] = "C134_silent, C134_once, C134_in_time, C134_order; C134_waits says that the goroutine of a connection can always go on unless it waits for its client, so that the assumption of punctuality is about scheduling only. Model/Session has the goroutine of a connection, the goroutines it starts and the watchers together."
NOTES["C135"] = "Violated: the loop does not look at authorisation; until the auth watcher closes the connection every message is handled (C135_routes_violated: the first message of any connection, whatever the settings). Proved for messages later than the deadline and 3 * d after the connection was accepted."
NOTES["C136"] = "C128 is about calls of RecvHeartBeat; here the calls come from messages that arrive."
NOTES["C137"] = "Composition of C115, C134 and C91 in Model/Session."
NOTES["C138"] = "A heartbeat handled after the closing can keep the heartbeat watcher for an interval more, so its end is counted from the last one received."
NOTES["C139"] = "C56 and C108 say which messages a stream contains and that they are all handled, without time."
NOTES["C140"] = "For the ids the server sends; C140_others_limit and C140_undecodable_limit say what happens to other messages. json.Unmarshal is a parameter."
NOTES["C141"] = "Proved while the input goes on; violated at its end: the error of ReadString is ignored, so the client sends empty messages for ever (C141_end_violated), and what was typed last, if it is a single byte, is not sent (C141_last_violated)."
NOTES["C142"] = "Violated: the clients take what one Read gives for a message, so messages that arrive together or in pieces are lost (C142_together_violated, C142_pieces_violated), and a message longer than the buffer can end the client (C142_crash_violated). C142_printed_partial: one message per Read."
NOTES["C143"] = "Shows that the punctuality assumed by C134 to C139 can be met whatever clients and handlers do. OnClose is taken to do nothing to connections, and handlers to call RecvHeartBeat for their own connection first if at all."
NOTES["C108"] = NOTES.get("C108", "") + " C108_only: no handlers are called but those of the chains found for messages that have arrived."
NOTES["C131"] += " C131_all_accepted: every client let in can be accepted, and no more are."
NOTES["C144"] = "Refines the reading of Model/Session and Model/ConnLoop to single Read calls in time. Groups that are cut off are handed on with nil contexts, as C56 says (C56_interrupted_group_violated): the loop run on the whole stream does so too."
NOTES["C145"] = "Violated: Use looks up and writes MiddlewareAnchorMap, and Any writes the map of patterns, without the mutex (C145_use_violated, C145_any_violated: in Go two such accesses may end the process); AddHandler is several critical sections, so a call that panics can leave its middlewares in front of the handler of the call that returned (C145_mixture_violated). Not stuck and ending are proved for all calls; two calls of Use with one key may both return, and the middleware of one is lost (C145_use_twice_violated); what messages are given to is proved for programs without UnUse and RewriteHeartBeatHandler that give each key to Use once, a registered id getting all middlewares its goroutine put in use before and a first part of those of each other goroutine (a pattern too, C145_url_partial); for programs with UnUse: what is registered is guarded by what is in use when its goroutine makes the call and not by what this goroutine has ended, for keys that only it gives to Use and UnUse, also while the handler of the heartbeat, which has another id, is rewritten (C145_unuse_partial, C145_url_unuse_partial); that nothing clashes, for AddHandler and UseGlobal. Two calls of RewriteHeartBeatHandler at the same time may both leave their handlers (C145_rewrite_violated); URL patterns may be registered meanwhile (C145_url_unuse_partial). C145_alone: one goroutine alone does what Model/Mux says. C145_accesses: the accesses that clashes are defined by are those the steps make."
NOTES["C146"] = "Violated: dispatch reads the maps and lists of the mux without the mutex (C146_race_violated), a message that arrives while its id is being registered can make dispatch panic (C146_window_violated), and ListenAndServe does not lock the mux (C146_locked_violated). Proved: dispatches among themselves never clash; with accesses taken to be atomic, messages with other ids keep their handlers and middlewares (also while Use is called, with any keys), and the id or pattern being registered is never handled without its middlewares (patterns: C146_url_others_partial, C146_url_guarded_partial; the panic: C146_url_window_violated), and both also while UnUse is called and the handler of the heartbeat, which has another id, is rewritten (C146_unuse_others_partial, C146_unuse_guarded_partial and the same for patterns), unless a middleware was in use again after UnUse before: then a later UnUse makes it guard ids it did not guard (C146_again_violated, an effect of C27). While the handler of the heartbeat is rewritten, ids that are not the heartbeat's and patterns are served as before (C146_rewrite_others_partial, C146_url_unuse_others_partial); a heartbeat that arrives meanwhile may be dropped or make dispatch panic (C146_rewrite_violated)."
NOTES["C147"] = "Violated: the error of Online is ignored, so `online success` is printed for an empty name (C147_empty_violated), and `offline success` is printed before anything is done (C147_early_violated). The standard output is a connection nobody closes."
NOTES["C148"] = "Violated: login answers a body it cannot decode with id 2, which the client takes for a success: it shows an empty token and not the reason (C148_reason_violated). C148_told_partial: all other answers."
NOTES["C149"] = "C149_answered: all messages with ids 1, 3, 5, 11, 20, along every schedule; C149_printed: the client on any such answers; C149_client: both programs together. The requests run over a connection that is not closed meanwhile: that the server closes it after three heartbeat intervals, and that its process ends, is C117."
NOTES["C150"] = "C150_silent and C150_refused: the clients that send nothing and that sign wrongly, from their bytes to the closing of the connection; C150_right_partial: a client with the right secret that sends its message. Violated by ValidClient, which has another secret and does not send what it has packed (C150_valid_violated). That two texts have different hashes is a hypothesis; the handler of the server says \"auth deny, signature wrong\" where the comment of the client says \"signature error\"."
NOTES["C151"] = "C151_printed: for clients that pack their texts with the JSON marshaller, from the bytes received to the lines printed; C151_routes: OnMessage gets every message. Assumed: the JSON codec reads back the texts it writes. A message that is not packed so may end the process (see C125_overlong_violated)."
NOTES["C152"] = "C152_answered: for any server and handlers that send one answer or none; C152_contexts, C152_loop: which datagrams are handled, and that the loop is the one of C75; C152_hello: the sayHello server, from the packed messages of its clients to what goes out to each. A handler that panics ends the process (C74): C152_hello says for which messages this is so."
NOTES["C153"] = "C153_server: every listener the example opens; C153_login: from what the client writes to the dispatch of its message. TLS is taken to be a transparent stream."
NOTES["C154"] = "C154_reply, C154_given, C154_nil: for a Context connected to a stream or to a packet connection; C154_unconnected_limit: on a Context connected to nothing the call panics. Frames below 4 GiB."
NOTES["C155"] = "C155_shown: safety, for every execution; C155_reaches: delivery, under the conditions of C110_told_partial. Composes C109, C110 and C140. The name in front of a text is not the sender's (C109_sender_violated). The JSON libraries are parameters: that of the client reads what that of the server writes."
NOTES["C72"] = "The route a built message asks for is proved in full; that it is followed is proved for messages alone on their connection and for connections whose messages are all of one kind, and violated on connections with both kinds (C72_mixed_violated)."
NOTES["C156"] = "As C18 for the function write, which has no caller: exact if every Write takes all or nothing; a short write makes it send the whole buffer again (C156_short_write_violated), because the rest of the buffer it computes is overwritten at the start of the next turn."
NOTES["C157"] = "C157_set: any sequence of Set, from any state; C157_new: NewRequest. Requests are not used by the rest of the package; what Body reads is a parameter."
NOTES["C158"] = "C158_routes: which handlers, for every routing; C158_answered: the answers, end to end. The server is that of the example with the commented-out line 43 in use. Messages are those of C81 (below 2 GiB, no pipe marker); a Write takes the whole answer."
NOTES["C159"] = "C159_printed, end to end: what the client writes, any prefix of it arriving in any pieces, any schedule. Uses C81_any_part for the cut stream, C35_tcp_same_type_partial for the dispatch and C125_printed for the handlers. That json.Marshal of a nil header succeeds is a hypothesis, as are the laws of encoding/json; a failed Write of the client is covered as a shorter prefix."
NOTES["C160"] = "C160_answered: the answers, end to end from packing to the bytes sent; C160_client: the examples' own client and what it shows. The texts of the answers are parameters that can be packed and fit one Write (LoginFrames); the answers with e.Error() are given up to the error. The JSON libraries are parameters. That messages on one connection are all of the same routing is needed because of C35."
NOTES["C161"] = "C161_read: against the header packed; C161_built: the messages of NewMessage and NewURLPatternMessage; C161_server: agreement with the routing of a request alone on its connection (C35 for several). C161_empty_limit: the two kinds of messages with the empty answer. The laws of encoding/json are a hypothesis. RouteTypeOf is not called by the package itself."
