# Formal model of fwhezfwhez/tcpx in Lean 4 — design

`/repo` is read as text; nothing of it is built or run.  The Lean project is `/verif/lean` (`lake build`).
`properties.jsonl` lists the properties, `MANIFEST.json` says which theorem settles which, `AXIOMS.md` lists the
axioms of every property theorem, `seeded/LOG.jsonl` records the mutation tests of the theorems.

## 1. Layers

| directory | content |
|---|---|
| `Verif/Model/*`  | executable model, function by function, every definition citing file:lines of `/repo` |
| `Verif/Spec/*`   | small vocabulary, independent of the model's helpers, used to state properties |
| `Verif/Lemmas/*` | helper lemmas only |
| `Verif/Props/*`  | the property theorems, named `Cxx_...`, with non-vacuity `example`s beside them |
| `tools/*`        | generators of `properties.jsonl`, `MANIFEST.json`, `AXIOMS.md` (not part of any proof) |

Naming:

* `Cxx_name` — proves (a part of) property `Cxx` with no restriction beyond those in the property;
* `Cxx_name_partial` — proves property `Cxx` under an extra restriction, stated in its comment and in the manifest note;
* `Cxx_name_violated` — the unmodified code breaks the property: the negation is proved on a witness (where possible on a
  whole family of witnesses, for every server and state of some kind).  Such a property has status `partial`;
* `Cxx_name_limit` — a fact the reader of the property might not expect, though it does not contradict it.

## 2. Modelling decisions

* **Results.**  A Go call ends with a value, a returned error, a panic, or never returns (blocked on a reader or
  channel): `Res α = ok | err | panic | block`.  What kind of error is kept only where a caller distinguishes it.
* **Integers.**  `int32`/`uint32` are Lean's `Int32`/`UInt32` (wrap-around is the point of several properties);
  `int` is 64-bit and modelled by `Int`/`Nat` where sums of a few 32-bit values or lengths cannot overflow it.
  Anchor indices (an `int32` counter) are natural numbers: fewer than 2^31 registrations.
* **Sizes.**  Several properties hold only below a size, because the length fields are 32 bits wide and partly read as
  `int32`.  C02, C03, C04, C05, C07, C09, C16, C20, C82, C119, C127, C140, C149, C151, C154
  and C158 were first written down for all sizes; their
  `quantifier` now names the limit that the theorems have as a hypothesis.  Above it the claims are not proved;
  the known failures there are those of C11, C12, C34 and C58 (section 5).
* **Slices** are `live` bytes plus `spare` bytes (between len and cap), because `s[a:b]` may extend into the spare
  capacity (`UnpackWithMarshaller`).  Where no code can see the spare capacity a list is used.
* **Maps** are association lists (`GoMap`) with `set`/`get?`/`erase`; nil maps are an explicit case where code can see them.
  Iteration order is arbitrary where the code iterates (`closeAllConnection` takes the order as a parameter).
* **encoding/json and the marshallers** are parameters (`JSONCodec`, `Marshaller V`, `Env V`).  The laws used
  (`JSONCodec.Lawful` etc., `Spec/JSONLaw`) are explicit hypotheses of the theorems that need them; `Lemmas/DemoCodec`
  constructs a concrete lawful instance, so that the hypotheses are satisfiable.
* **Readers** are scripts of read results: a chunk of bytes of any size (also empty), a chunk delivered together with EOF,
  EOF, an error; an exhausted script means that the call blocks.  **Writers** are scripts of what successive `Write` calls do.
* **Handlers** are opaque identities for routing.  For chains they are arbitrary: a running handler may at each step
  work, call `Next`, call `Abort`, return or panic, depending on anything.  For stores they are arbitrary interaction trees
  (`Prog`) of store operations.
* **Goroutines** are small-step machines over a shared state; a schedule is an arbitrary sequence of labels.  Atomic steps
  are single channel, mutex-protected or `sync.Map` operations.
* **Time** is abstract in `Model/Watch`: a timer of a `select` may fire at any moment, which covers every real timing.
  `Model/Timed` adds a clock; `Model/Session` adds to that the goroutine of each TCP connection and those it
  starts; `Model/Bytewise` follows one such goroutine from `Read` to `Read`.
* **Loop variables**: go.mod says `go 1.12`, so `for _, v := range` has one variable for the whole loop.

Simplifications per module:

* `Mux`: sequential registration (README: register before listening); the mutex is left out.
* `Register`: registration and dispatch by several goroutines, access by access, with the mutex; `Use` and `UnUse` are given one middleware
  (with several, while none of them panics, they do what calls with one each do that follow each other in one goroutine),
  `OnMessage` is not set, the loop of `checkPrepare` is one access.
* `ConnLoop`: memory exhaustion (an announced length of up to 2^31-1 is simply allocated) is not modelled.
* `Chain`: handlers do not call the exported `Reset`/`ResetOffset`; `ChainReset` has chains whose handlers do.
* `Requests`: the messages of one pipe group, handled one after another, are separate requests (more schedules than real); stores start
  empty, i.e. what `OnConnect` and the heartbeat watcher put into the store of a connection is left out (`Callbacks` has the former).
* `Pool`: a critical section with one map access is one atomic action, possible while nobody holds the mutex (justified by
  C94: `Model/Locks` has the single steps, and every execution of it is one of `Pool`); a waiting writer
  of the RWMutex does not stop new readers (more schedules than real); request contexts made by `copyContext` share all
  pointers used here with their connection's context.
* `Watch`: `CloseConn` is one step (its interleavings are in `Pool`); handlers store nothing under "tcpx-heart-beat-channel".
* `Control`: the goroutines of `Start` are given the record of their own iteration (the shared variable is the subject of C65);
  `net.Listen` fails if an open listener has the same network and address, and may fail at any time.
* `Udp`: `ReadFrom` cuts off datagrams longer than the buffer, as on POSIX systems.
* `Race`: results of system calls, `select`, loop counts are free choices; callbacks use the context only while they run.
* `Callbacks`: calls of several goroutines come one at a time, in any order; contexts of callbacks have no handlers.
* `ConnRun`: the length of the chain found for a message is arbitrary; `OnClose` is one event; a handler called directly is a chain of one.
* `Serve`: which listener is opened with which certificate; `net.Listen`, `tls.Listen`, `net.ListenPacket` fail for the networks they do not
  know, and may fail at any time.
* `Python`: the libraries json and protobuf are parameters; sockets are left out.
* `Chat`: what `Bind` makes of a body is part of the message; each handler is a goroutine from the start, scheduled at any time.
* `Login`: the guard's replies, printing are single actions; the result of `HeaderOf` is given; `login` is arbitrary.
* `Answer`: what a reply writes is one action of the request; `Write` takes the whole buffer (C83 has failing writes).
* `AuthExample`: what `Bind` makes of a message is part of the message; each message is a goroutine from the start, scheduled at any time.
* `MyMarshal`: the handlers' printing is their result.  `PackDetail`: the libraries are left out (their bytes are given).
* `Counter`: the plain read of the counter is atomic; answers are written in any order; each request is a goroutine from the start, scheduled at any time.
* `HeartbeatExample`: each message is a goroutine from the start, scheduled at any time.
* `Graceful`: network tcp only; `net.Listen` succeeds only where no listener is open, and may fail at any time; the kernel lets clients in while
  a listener is open; the goroutines of a call of `Start` share its loop variable; connections are not followed.
* `Session`: a message is a number and what its handlers do to connections any list of calls; reading a message is one step, possible once all
  of it has arrived (`Bytewise` goes read by read); a piped group is one message; handlers do not panic (C59).
* `Bytewise`: the ways reading can fail are not told apart, and a connection on which reading has failed goes on failing; a `Read` that
  returns no error returns at least one byte.
* `Validate`: a request is a stream with any spare capacity and a name; HTTP and gin are left out.
* `ExampleClients`: what is printed is a list; `json.Unmarshal` is a parameter; `ReadString` fails at the end of the input only.
* `OnlineOffline`: the standard output is a connection nobody closes. `LoginClient`: `json` is a parameter; a body is a map of texts. `Hello`: the texts are
  values of `V`; what the handlers print is left out; a `Write` of the server takes the whole frame.
* `Client`: one `net.Conn.Write` is not interleaved with another (documented by package net).

## 3. What is modelled

| file | modelled (module) | not modelled |
|---|---|---|
| packx.go | all functions (`Packx`, `Reader`, `PackType`) | — |
| message.go | all (`Packx`) | — |
| marshaller.go | `GetMarshallerByMarshalName`, `MarshalName`s (`Packx`) | the codecs themselves: parameters |
| messageID.go, header-const-key.go, router-type.go | constants used (`Packx`, `Requests`) | — |
| anchor.go, mux.go, url-mux.go, routeInfo.go | all that decides routing (`Mux`, `Alias`); recorded places and a `URLMux` on its own (`Where`); mutexes (`Register`) | `runtime.Caller`, layout of messages |
| context.go | `copyContext`, constructors, stores, user names, `Online/Offline/CloseConn`, replies, `Bind*`, `RawStream`, `ClientIP`, `Next/Abort/Reset/ResetOffset`, heartbeat and auth signals, `routerType`, URL pattern replies, deadline setters, `InitReaderAndWriter` (`Requests`, `Pool`, `Client`, `PackType`, `Strings`, `Chain`, `ChainTrace`, `ChainReset`, `Watch`, `Deadlines`, `Callbacks`) | — |
| tcpx.go | configuration and registration, `ListenAndServe*` for tcp, raw and udp, dispatch, watchers, `Stop/Start/Restart`, `isPipe`, `BeforeExit`, `LoadTLSFile` (`Mux`, `ConnLoop`, `ConnRun`, `Raw`, `Udp`, `UdpAnswer`, `Watch`, `Lifecycle`, `Control`, `Deadlines`, `Exit`, `Serve`) | `ListenAndServeHTTP/GRPC` (stubs), KCP (commented out), TLS itself, logging |
| client-pool.go | all (`Pool`, `Locks`) | — |
| utils.go | `In`, `WriteConn`, `WriteJSON`, `BindJSON`, `PipeJSON`, `TCPCallOnceJSON`, `Recv`, `headerGetString`, `write`, `Defer` (also for `CloseChanel`: `Defer` with a handler that does nothing) (`Strings`, `Client`, `PackType`, `Exit`, `Unused`) | `Debug`, `MD5`, `TCPConnect`, TOML helpers |
| pack-type.go | all (`PackType`) | — |
| all-language-clients/python/protocol.py | `pack`, `unpack` (`Python`) | sockets |
| tls.go | `newListener` (`Serve`) | TLS itself |
| examples/modules/chat/server/main.go | all (`Chat`) | — |
| examples/modules/middleware/{anchor,router}-middleware/main.go | all: the servers (`Login`, `LoginServer`), what the clients send (`LoginServer`) and receive (`LoginClient`) | dialling, printing |
| examples/sayHello/server/main.go | registration, listening calls, which calls its handlers make on the connection (`SayHello`), their replies (`Hello`), `OnMessage`, as if installed (`HelloOnMessage`) | what the handlers print |
| examples/sayHello/client/main.go | what it sends and prints (`Hello`) | `smartPrint` |
| examples/modules/url-pattern/{server/server.go,client.go} | registration, the handler, the client's loop (`Answer`) | printing, dialling |
| examples/modules/auth/server/main.go | all (`AuthExample`) | MD5 itself: a parameter |
| examples/modules/pack-detail/*/{encode,decode}/main.go | all (`PackDetail`) | the libraries: their bytes are given |
| examples/modules/my-marshal/{server/main.go,client/main.go,marshaller/marshaller.go} | all (`MyMarshal`, `MyMarshalClient`) | dialling |
| examples/modules/middleware/global-middleware/{main.go,client/main.go} | all (`Counter`), the client (`CounterClient`, `CounterSend`) | data race of the plain read; dialling |
| examples/modules/heartbeat/{server/server.go,client/client.go} | all (`HeartbeatExample`, `HeartbeatClient`) | dialling, the client's clock |
| all-language-clients/main.go | the handler (`Validate`) | HTTP, gin |
| examples/modules/raw/{server/server.go,client/client.go} | all (`RawExample`, `RawClient`) | dialling |
| examples/modules/auth/client/main.go | all (`AuthClient`; `Recv`: `RawClient`) | dialling; `MD5` (a parameter) |
| examples/modules/graceful/graceful-restart/main.go, graceful-stop/main.go | all (`Graceful`, `Watch`) | the clients |
| examples/modules/chat/client_{1,2}/main.go, online-offline/client/client.go, graceful/*/client/client.go | receiving; which lines the chat clients send (`ExampleClients`) | dialling, packing what is sent (C81), the order of prints of several goroutines |
| examples/modules/online-offline/server/server.go | all (`OnlineOffline`) | — |
| examples/modules/helloworld/{server/server.go,client/main.go} | all (`HelloWorld`) | dialling |
| examples/modules/tls/{server,client}/main.go | all (`TlsExample`) | reading the PEM files, certificates, dialling; TLS is a transparent stream |
| log.go | all (`Log`) | the place of the call, which errorx adds |
| request.go | all (`Unused`) | — |

Out of scope throughout: direct use of exported struct fields by user code, memory exhaustion, registration while serving (except in C145, C146),
aliasing of the variadic slices handed to registration functions (except in C97, `Model/Alias`), data races in the sense of the Go memory model (every
modelled access is taken to be atomic), except as said in C94 (`Model/Locks`, where accesses take time), C145, C146 (`Model/Register`) and C95, C96
(`Model/Race`, which has only the accesses; a race is a state in which two goroutines are about to make conflicting accesses).

## 4. Properties: how they are proved

* C01–C06, C13 (pack/unpack), C71, C72: `Model/Packx`; algebraic round-trip laws over big-endian words and slices.
  Built messages on shared connections (C72) are in `Props/Built`.
* C07–C10, C12, C14, C17 (framing): `Model/Reader`; induction over reader scripts, refinement to `Spec.stream`.
* C11: exact characterisation of the set of inputs on which an accessor panics.
* C15, C16, C18, C19, C82, C83: `Model/Client`; induction over write scripts.
* C20–C24, C55–C57, C59: `Model/ConnLoop`, the connection goroutine as a function of the reader script; decimal printing
  and `Atoi` on characters; refinement to the list of messages the stream contains (`Spec/Dispatch`).
* C25–C33, C41, C42: `Model/Mux`, state machine over registration calls; invariants and refinement to a specification by
  history (`Spec/Routing`).
* C34–C37, C49, C50: `Model/Requests`, interleaved requests over shared stores; invariants over all schedules.
* C38–C40, C78: `Model/Chain`, `Model/Raw`; invariants over all reachable configurations, well-founded termination measure.
* C43–C48, C62: `Model/Pool`; invariants over all schedules, linearizability by refinement to an atomic pool (C44).
* C51–C54, C61, C63, C64: `Model/Watch`, labelled transition system of watchers, user code, `Stop` and accepting; invariants
  relating states to the trace seen from outside, and progress statements "whatever is scheduled in between".
* C58, C74, C75: `Model/Udp`, the read loop over datagrams.
* C60, C64–C68, C73: `Model/Lifecycle`, sequential life cycle; C79, C80: `Model/Control`, interleaved control calls.
* C84–C86, C90, C91: `Model/Timed`, the watchers with a clock; invariants bounding the clocks of each watcher, for runs assumed
  prompt (`Spec/Timed`) or for all runs.
* C87–C89: `Model/Exit`, the goroutines of `BeforeExit`, `Defer`, results of listening calls.  C92: `Model/ChainReset`.
* C93: `Model/Requests` with arbitrary code per request.  C94: `Model/Locks`, forward simulation into `Model/Pool`.
* C95, C96: `Model/Race`; lock discipline and ownership as predicates on code, preserved by every step.
* C97: `Model/Alias`, slices over arrays in memory; ownership of arrays as an invariant.
* C98: `Model/Python` against the codec of `Model/Packx`.
* C99–C101: `Model/Callbacks`; invariants over all sequences of calls on a context and its copies, and over chains begun on copies.
* C102, C103, C104: `Model/ChainTrace`, chains with their events; `Model/ConnRun`, the connection goroutine with the goroutines it starts.
  C108: the same with C56; lexicographic termination measure.
* C105: the specification by history of C32 and C78.  C106, C107: `Model/Serve`; invariants over all sequences of calls.
* C109, C110: `Model/Chat`, the handlers of the example as goroutines of `Model/Pool`; C111, C112: `Model/ChainTrace`, `Model/Login`.
* C113, C114: `Model/Where`, the registration model with the places of calls; C115: `Model/Watch`, `Model/Timed`; C116, C117: `Model/SayHello`.
* C118: `Model/Timed`: the promptness that timed properties assume can be kept in every situation, so they are not vacuous.
* C119: `Model/Answer` over `Model/Requests`; an invariant tying what a request still has to send to what it has sent.
* C120: `Model/Log`; induction over the settings.
* C121, C122: `Model/AuthExample` over `Model/Timed` and `Model/Mux`.
* C123, C124: `Model/PackDetail`, `Model/ConnLoop`, `Model/Udp`; C125: `Model/MyMarshal`; C126: `Model/Counter`, `Model/CounterClient`, invariants over all schedules.
* C127: `Model/HeartbeatExample` over `Model/Timed` and `Model/Mux`.
* C128: `Model/Timed`; invariant: channels are replaced in the first `4 * d` only, and what has not been heard of since is on its way;
  feasibility by a measure of what watchers and calls have still to do.
* C130: `Model/Watch`; C131, C132: `Model/Graceful`, an invariant for every place the controlling goroutine can be at.
* C133: `Model/Validate` on top of the unpacking of C02-C07; a request is a stream with any spare capacity and a name.
* C134–C139: `Model/Session`; every run of it is a run of `Model/Timed` with the same events (`session_sim`: started goroutines are taken to
  have been there from the start), which transfers C86, C91, C115, C128; invariants for the goroutine of a connection and its clock.
* C144: `Model/Bytewise`; what the loop has still to do from where it stands, given the rest of the stream (`resume`), carried through every step;
  then arrival times are sorted, so what is old enough is a prefix of what has been read.
* C145, C146: `Model/Register`; invariants over all schedules: who holds the mutex, how often an id has been registered, what a dispatch under way
  has read so far, which index every middleware, id and pattern got (a history of marks); a sum over the goroutines that decreases with every step.
  With `UnUse` among the calls (`Props/RegisterUnUse`): invariants of every anchor, in the map, in the list and in the hand of a call, with respect to
  one index; the state of a key only one goroutine names (`Spec/Period`).
* C143: `Model/Session`; a measure of what the goroutines have still to do, and punctuality as an invariant of every step but the passing of time.
* C140–C142: `Model/ExampleClients` on top of the framing of C08, C09 and the accessors of C02, C11; induction over messages.
* C147: `Model/OnlineOffline` over `Model/Pool`, invariants over all schedules; C148: `Model/LoginClient`, induction over answers;
  C149: `Model/Hello` over `Model/Requests`, from C81 and the invariant of C119.
* C150: `Model/AuthClient`, from C81 and C121.
* C151: `Model/HelloWorld`, from C81; an invariant over all schedules of the goroutines of all connections.
* C152: `Model/UdpAnswer`, the loop of `Model/Udp` with the addresses of senders; every datagram has its own stores in `Model/Requests`, so the argument of C119 goes through without requiring that messages are routed alike.
* C153: `Model/TlsExample`, from C106, C81 and C35.
* C155: `Model/Chat` and `Model/ExampleClients`, from C109, C110 and C140.
* C154: `Model/Client`; with C16 the replies of a Context.
* C160: `Model/LoginServer` over `Model/Requests`, from C81, the invariant of C119 and the receiving client of C148.
* C161: `Model/Packx`, from C81 and the routing specification of C34.
* C69, C70: `Model/Strings`, string functions on character lists.
* C76, C77: `Model/Deadlines`.
* C81: composition of packing, the wire, the connection loop, routing, chain and `Bind`.

## 5. Disagreements between code and properties

Each line: property, behaviour of the code, place in `/repo`, theorem.

* C11, C34, C58 — a frame announcing a header of 2^31-16 bytes or more makes the accessors slice with a negative bound and
  panic; on UDP nothing recovers it and the process dies (packx.go:217-228): `C11_header_panic_violated`,
  `C34_huge_header_violated`, `C58_huge_header_violated`; a body length misread: `C11_body_misread_violated`.
* C12 — an announced length of 2^31 or more is negative as int32 and `make` panics (packx.go:459-489):
  `C12_negative_length_violated`.
* C17 — bytes returned together with io.EOF are dropped (packx.go:491-510): `C17_eof_with_data_violated`.
* C18 — after a short write `WriteConn` sends the whole buffer again (utils.go:99-117): `C18_short_write_violated`.
* C19 — a nil id makes `PipeJSON` panic (utils.go:146-198): `C19_nil_id_violated`.
* C22, C56 — a pipe group interrupted by the end of the stream is dispatched with nil contexts, and a group interrupted by an
  oversized frame is dispatched though refused (tcpx.go:552-606): `C22_disconnect_violated`, `C22_garbage_violated`,
  `C56_interrupted_group_violated`, `C56_smuggled_violated`.
* C25 — a refused second `AddHandler` still installs its middlewares (tcpx.go:329-344): `C25_middleware_violated`.
* C27 — middlewares of a freed id stay (tcpx.go:239-253): `C27_leftover_middleware_violated`.
* C28 — a middleware key used again after `UnUse` also covers what was registered in between (anchor.go, tcpx.go:257-318):
  `C28_reuse_violated`, `C28_reuse_function_violated`.
* C30 — id 0 counts as heartbeat and auth id of an unconfigured server, so global middleware is skipped
  (tcpx.go:890-946): `C30_id_zero_violated`.
* C33, C41 — `Any` with several handlers registers them twice and before the lock check (mux.go:72-82, tcpx.go:346-360,
  url-mux.go:41-70): `C33_doubled_violated`, `C41_any_violated`, `C41_addHandler_violated`.
* C35, C36, C37, C49, C50, C81 — `copyContext` gives every request of a TCP connection the same store, and the router type
  is cached in it (context.go:79-128, 691-730): `C35_tcp_violated`, `C36_tcp_shared_violated`, `C37_tcp_violated`,
  `C49_request_overwrites_violated`, `C50_forged_violated`, `C81_mixed_violated`.
* C39, C78 — the abort mark is the index 2019, so longer chains are cut (context.go:551-588): `C39_long_chain_violated`,
  `C78_long_chain_violated`.
* C42 — rewriting the heartbeat handler removes the handler of id 0 of an unconfigured server, and a taken id panics after
  the old handler is gone (tcpx.go:239-253): `C42_unconfigured_violated`, `C42_taken_violated`.
* C43 — a non-string under "tcpx-username" makes `CloseConn` panic half-way (context.go:276-302, 370-380):
  `C43_forged_name_violated`.
* C46, C47 — the pool removes by name, not by connection (client-pool.go:44-51, context.go:131-175):
  `C46_two_names_violated`, `C46_online_races_violated`, `C47_same_name_violated`.
* C51 — a panic in `OnHeartbeatLoss` ends the watcher without closing (tcpx.go:1027-1070); a heartbeat sent while watcher and
  handler both make the channel is lost (context.go:621-637): `C51_callback_panics_violated`, `C51_lost_beat_violated`.
* C52 — every datagram starts a heartbeat watcher which closes the shared socket (tcpx.go:682-686):
  `C52_socket_closed_violated`.
* C54 — auth and heartbeat channels have capacity one and nobody empties them later (context.go:639-641, 672-678):
  `C54_auth_blocks_violated`, `C54_beat_blocks_violated`.
* C59 — handler goroutines do not recover (tcpx.go:853-999): `C59_handler_panic_violated`.
* C60 — `Stop` closes only networks named "tcp", "kcp", "udp" (tcpx.go:1150-1159): `C60_other_networks_violated`.
* C61 — with heartbeat on, `Stop(false)` makes watchers close their connections (tcpx.go:1040-1043): `C61_heartbeat_violated`.
* C62 — `closeAllConnection` holds the pool's lock while `CloseConn` asks for it (tcpx.go:1176-1184): `C62_deadlock_violated`.
* C64 — the broadcast channel is closed once and never made anew (tcpx.go:1169-1172): `C64_new_connection_violated`,
  `C64_second_stop_violated`.
* C65 — the goroutines of `Start` share the loop variable (tcpx.go:1196-1209): `C65_shared_variable_violated`.
* C69 — pattern "%" panics (utils.go:29-52): `C69_single_percent_violated`.
* C70 — every IPv6 peer is reported as 127.0.0.1 (context.go:528-549): `C70_ipv6_violated`.
* C71 — `Set` on a message with nil header panics (message.go:52-57): `C71_nil_header_violated`.
* C73 — an accept error or a panic in `OnConnect` ends the accept loop while the state stays "running" (tcpx.go:515-608):
  `C73_loop_dies_violated`.
* C74 — a closed UDP socket is read again and again (tcpx.go:662-681): `C74_spins_violated`.
* C76 — the separate deadlines overwrite the common one (tcpx.go:527-529): `C76_no_effect_violated`.
* C77 — a UDP context sets the deadline of the server's socket (context.go:306-345): `C77_shared_socket_violated`.
* C79, C80 — check and change of the state are separate critical sections (tcpx.go:1140-1167, 489-514):
  `C79_both_succeed_violated`, `C79_panics_violated`, `C80_takes_effect_violated`, `C80_refused_violated`,
  `C80_wrong_state_violated`.
* C83 — a failed half-written reply is followed by the next one (context.go:505-521): `C83_partial_write_violated`.
* C85 — a handler that came before the watcher had made the heartbeat channel may replace it late, and its signals are not seen in
  time (context.go:619-637): `C85_slow_handler_violated`.
* C87 — a panicking callback leaves a process that no SIGINT, SIGTERM or SIGQUIT ends; the signal channel is unbuffered, so a signal
  before the receive is lost; with two calls the first to finish ends the process; a signal before the
  goroutine has registered ends the process at once (tcpx.go:1119-1135): `C87_panic_violated`, `C87_lost_signal_violated`,
  `C87_two_calls_violated`, `C87_early_signal_violated`.
* C88 — handlers are not told of `panic(nil)`, and their own panics escape (utils.go:55-68): `C88_nil_violated`,
  `C88_handler_violated`.
* C89 — for UDP a failed listen panics, and the call never returns (tcpx.go:633-715): `C89_udp_violated`.
* C90 — only `ListenAndServeTCP` starts auth watchers (tcpx.go:463-464, 547-550, 684-686): `C90_raw_violated`,
  `C90_datagram_violated`.
* C91 — the broadcast watcher of a datagram is never ended (tcpx.go:684): `C91_datagram_violated`.
* C92 — `Reset` in a handler makes `Next` index an emptied list, `ResetOffset` makes it start again (context.go:559-582):
  `C92_reset_violated`, `C92_resetOffset_violated`.
* C95 — `Start` reads the list of listener records without the mutex, and `Stop(true)` replaces the pool without any
  (tcpx.go:1196, 1185, 456, 534, 688): `C95_properties_violated`, `C95_pool_violated`.
* C96 — the heartbeat watcher copies the context of a connection that is just being read into; the watchers of a datagram are started
  before its context is complete and use its store while `Reset` replaces it (tcpx.go:1054, 684-691, context.go:575):
  `C96_loss_violated`, `C96_datagram_violated`, `C96_datagram_pool_violated`.
* C97 — `Any` keeps the slice it is handed and appends to it in place (url-mux.go:49-57): two patterns registered with
  `append(base, h)...` may share their handlers, and elements of the caller's array are overwritten: `C97_url_violated`,
  `C97_set_violated`, `C97_caller_violated`.
* C98 — the Python client packs and reads ids as unsigned numbers and does not notice missing bytes (protocol.py:27, 45-48):
  `C98_negative_violated`, `C98_big_id_violated`, `C98_truncated_violated`.
* C99 — `copyContext` copies the offset, which `Next` or `Abort` in `OnConnect` has moved (context.go:95, 552-569):
  `C99_next_violated`, `C99_abort_violated`.
* C100 — a copy of a datagram's context has no store (context.go:92, 208, tcpx.go:1054): `C100_loss_violated`.
* C103 — every separate message has its own goroutine (tcpx.go:600, 602): `C103_overtaken_violated`.
* C104 — nobody waits for these goroutines before `OnClose` (tcpx.go:552-605): `C104_late_violated`.
* C105 — `OnMessage` and `HandleRaw` run all middlewares without looking at their ranges (tcpx.go:879-881, 1006-1008):
  `C105_onMessage_violated`, `C105_raw_violated`.
* C106 — `ListenAndServeRaw` ignores the TLS configuration (tcpx.go:429): `C106_raw_violated`.
* C107 — `Start` knows only network and address of a listener (tcpx.go:1204): `C107_raw_violated`, `C107_buffer_violated`.
* C109 — the chat handler sends the receiver's name as `from_user` (examples/modules/chat/server/main.go:55): `C109_sender_violated`.
* C110 — a receiver counts as online until `CloseConn` has ended; the error of `SendToUsername` is dropped; a body that `Bind` refuses
  ends the process (examples/modules/chat/server/main.go:48-56): `C110_lost_violated`, `C110_crash_violated`.
* C117 — the sayHello server listens on kcp, which `ListenAndServe` refuses, and panics on the error; its rewritten heartbeat handler
  never calls `RecvHeartBeat` (examples/sayHello/server/main.go): `C117_kcp_violated`, `C117_heartbeat_violated`.
* C120 — `Println` does not use the `*log.Logger` whose flags `SetLogFlags` sets (log.go:30-42, 56-58): `C120_flags_violated`.
* C122 — the fields are joined without a separator before hashing (examples/modules/auth/server/main.go:41-43): `C122_moved_violated`.
* C124 — `isPipe` insists on a header that is JSON, so a TCP server ends the connection at a message without header
  (tcpx.go:576-580, 1231-1234): `C124_tcp_violated`.  So over TCP such a message is never routed by id (C34).
* C125 — on a message that announces a longer body than it has, `Bind` panics while `BodyBytesOf` reports an error: `C125_overlong_violated`.
* C126 — the counter is an int32: `C126_wraps_violated`.
* C129 — the raw example takes what one `Read` gives for a message (examples/modules/raw/server/server.go:22-28): `C129_messages_violated`.
* C130 — without broadcast signals and pool, `Stop(true)` closes no connection (tcpx.go:1169-1188): `C130_default_violated`, `C130_same_violated`.
* C132 — `Stop` does not wait for listening calls between `net.Listen` and `openState` (tcpx.go:500-514, 1140-1160): an endpoint may stay open
  for ever after `Stop`, or the state may say running with nothing open, so that `Start` is refused: `C132_late_violated`, `C132_dead_violated`,
  `C132_error_violated`.
* C133 — the validating program (all-language-clients/main.go:34-86) does not check a stream's lengths against the stream: some streams
  get no answer because the handler panics, others are called valid though they are no frame: `C133_aborted_violated`,
  `C133_accepted_violated`.
* C135 — the loop of a connection does not look at authorisation (tcpx.go:564-605): until the auth watcher closes the connection, messages
  of an unauthorised one are handled like any other: `C135_routes_violated`.
* C141 — the chat clients ignore the error of `ReadString` (examples/modules/chat/client_1/main.go:44): at the end of the input they send
  empty messages without end, and they drop a last text of one byte: `C141_end_violated`, `C141_last_violated`.
* C142 — the clients of online-offline and the graceful examples take one `Read` for one message
  (examples/modules/online-offline/client/client.go:38-46): `C142_together_violated`, `C142_pieces_violated`, `C142_crash_violated`.
* C145 — `Use` and `UnUse` access `MiddlewareAnchorMap` (tcpx.go:281-284, 310) and `Any` the map of patterns (url-mux.go:49-64) without the
  mutex of the mux; `AddHandler` is three critical sections (tcpx.go:329-344), so two calls for one id can mix:
  `C145_use_violated`, `C145_any_violated`, `C145_mixture_violated`.  Since `Use` looks the key up outside of the critical section in which it
  adds the anchor, two calls with one key may both return, one middleware being dropped: `C145_use_twice_violated`.  `RewriteHeartBeatHandler` reads
  the old id, removes it and sets the new one in separate steps (tcpx.go:239-251): `C145_rewrite_violated`.
* C146 — dispatch reads the mux without its mutex (tcpx.go:897-937); between the handler and its anchor an id has no anchor, and
  dispatch panics (mux.go:107-111); nothing sets `AllowAdd` to false though mux.go:86 says that `ListenAndServe` locks the mux:
  `C146_race_violated`, `C146_window_violated`, `C146_url_window_violated`, `C146_locked_violated`.  Since `Use` after `UnUse` changes the
  anchor in the map only and `UnUse` copies it to the list (tcpx.go:283-284, 313-314), ending a middleware put in use again makes it guard ids
  that it did not guard: `C146_again_violated`.  While `RewriteHeartBeatHandler` runs, the heartbeat has no handler: `C146_rewrite_violated`.
* C147 — the handler ignores the error of `Online` (examples/modules/online-offline/server/server.go:29-30) and prints before it calls `Offline`
  (:34-35): `C147_empty_violated`, `C147_early_violated`.
* C148 — `login` answers a body it cannot decode with the id of a success (examples/modules/middleware/anchor-middleware/main.go:57), and the
  client shows an empty token (client/main.go:63-73): `C148_reason_violated`.
* C150 — `ValidClient` has the secret "hello2222" instead of "hello" (examples/modules/auth/client/main.go:23), and the write of its message is
  commented out (:45): `C150_valid_violated`.
* C156 — `write` sets `slice` to the whole buffer at the start of each turn of its loop (utils.go:274), which undoes `slice = slice[n:]` (:283):
  `C156_short_write_violated`.

## 6. Trusted base

* The Lean 4.33.0 kernel (and the elaborator only in so far as it prints the statements one reads).
* Axioms: at most `propext`, `Classical.choice`, `Quot.sound`; the list per theorem is in `AXIOMS.md`, made by
  `tools/axioms.sh` from `Lean.collectAxioms`.  No axioms are added; there is no `sorry`, `admit`, `native_decide`,
  `bv_decide`, `unsafe`, `implemented_by` or `extern` in the project.
* That the model says what the Go code does: by reading; every definition cites the lines it renders.
* The behaviour of the Go run time and libraries as rendered in `Model/Go.lean` and in the modelling decisions above:
  slices, maps, channels, `select`, `sync.Mutex`, `sync.Map`, `defer`/`recover`, `io.Reader`, `net.Conn`, `strconv.Atoi`.
