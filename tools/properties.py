#!/usr/bin/env python3
"""Generates /verif/properties.jsonl (one JSON object per line) from the table below."""
import json, os
P = []
def p(title, statement, quantifier, why, *anchors):
    P.append(dict(id="C%02d" % (len(P)+1), title=title, statement=statement,
                  quantifier=quantifier, why_tests_cant=why, anchors=list(anchors)))

# ---------------------------------------------------------------- wire format
p("Packed frame has the documented layout",
  "Whenever Pack / PackWithMarshaller succeeds, the returned bytes are exactly: 4-byte big-endian count of the bytes that follow, 4-byte big-endian message id, 4-byte big-endian header length, 4-byte big-endian body length, the JSON of the header, the marshalled body.",
  "every int32 message id, every header, every body and marshaller whose total size fits the 32-bit length field",
  "the id, sizes and contents are unbounded; a test fixes a handful of ids and bodies and never a negative id together with large sizes",
  "packx.go:PackWithMarshaller", "packx.go:Packx.Pack", "README.md#pack")
p("Frame accessors recover what was packed",
  "On a packed frame (of less than 2^31 bytes) LengthOf, MessageIDOf, HeaderLengthOf, BodyLengthOf, HeaderBytesOf and BodyBytesOf return the packed length, id, header length, body length, header bytes and body bytes, even if further bytes follow the frame.",
  "every message id (negative included), header bytes and body bytes of together less than 2 GiB, trailing bytes",
  "holds for all sizes and all ids; a sample cannot show that no size or sign corrupts a field",
  "packx.go:LengthOf", "packx.go:MessageIDOf", "packx.go:HeaderLengthOf", "packx.go:BodyLengthOf", "packx.go:HeaderBytesOf", "packx.go:BodyBytesOf")
p("Unpack inverts Pack",
  "Unpacking a packed message with the same marshaller yields the same message id, the decoded header and the body value, for every marshaller that decodes its own encoding, and also when the buffer continues with other data; a value whose encoding is empty is the one left in a fresh destination.",
  "every message of less than 4 GiB when packed, every marshaller, destination and trailing data",
  "quantifies over all marshallers (user supplied) and all bodies",
  "packx.go:PackWithMarshaller", "packx.go:UnpackWithMarshaller", "packx.go:Packx.Unpack")
p("Signal frames carry no body",
  "A message with a nil body (including PackStuff(id) and PackHeartbeat()) packs to a frame with body length 0, and unpacking it succeeds and leaves the destination value untouched.",
  "every message id, header of less than 4 GiB when encoded, and destination value",
  "needs all ids and all prior destination contents",
  "packx.go:PackStuff", "packx.go:PackHeartbeat", "packx.go:UnpackWithMarshaller")
p("PackWithBody carries the given bytes verbatim",
  "PackWithBody(id, body, headers...) equals Pack(id, v, headers...) whenever the marshaller turns v into body, and BodyBytesOf returns body unchanged.",
  "every id, body byte string and header list, of together less than 2 GiB",
  "all byte strings, including ones that are not valid encodings",
  "packx.go:Packx.PackWithBody", "packx.go:PackWithMarshallerAndBody")
p("Several header maps merge, last one wins",
  "When Pack is given several header maps, a key of the encoded header has the value given by the last map that contains the key, and no other key appears.",
  "every list of header maps",
  "all overlaps of arbitrarily many maps, and every map iteration order",
  "packx.go:Packx.Pack", "packx.go:Packx.PackWithBody")
p("Frames are self-delimiting",
  "Concatenated packed frames can be cut back into exactly the original frames; two different sequences of frames never produce the same byte stream.",
  "every finite sequence of packed messages, each less than 4 GiB",
  "unique decodability is a statement about all pairs of sequences",
  "packx.go:FirstBlockOfBytes", "packx.go:FirstBlockOf")
p("Reading a block does not depend on fragmentation",
  "FirstBlockOf(reader) returns the same block and leaves the same bytes unread however the transport splits the stream into reads (including empty reads; the end of the stream reported apart from data, see C17), and it consumes exactly 4 + length bytes; a length of 2^31 or more makes it panic, again however the stream is split (see C12).",
  "every byte stream and every way of splitting it into read results",
  "exponentially many fragmentations; tests use one",
  "packx.go:UnpackToBlockFromReader", "packx.go:readUntil")
p("A truncated stream never yields a block",
  "If the stream ends or fails before 4 + length bytes have arrived, length being less than 2^31, FirstBlockOf and UnPackFromReader return an error and no block; when the stream has ended the error is io.EOF.",
  "every truncation point of every frame that announces less than 2 GiB (for others see C12) and every fragmentation",
  "every crash point of the sender",
  "packx.go:UnpackToBlockFromReader", "packx.go:readUntil")
p("The message size limit is enforced before reading the payload",
  "With SetMaxBytePerMessage(n), n > 0, no block with more than n payload bytes is ever returned, a frame announcing more than n (and less than 2^31) bytes is rejected after its 4 length bytes only, and a frame announcing at most n bytes is read exactly as without a limit; n <= 0 means no limit.",
  "every limit, announced length, stream and fragmentation",
  "adversarial lengths over the whole 32-bit range",
  "packx.go:UnpackToBlockFromReaderLimitMaxLengthOfByte", "packx.go:FirstBlockOfLimitMaxByte", "tcpx.go:SetMaxBytePerMessage")
p("Accessors are total on arbitrary bytes",
  "For any byte string whatsoever, LengthOf, MessageIDOf, HeaderLengthOf, BodyLengthOf, HeaderBytesOf and BodyBytesOf return either an error or a sub-slice of the input; they never panic.",
  "every byte string",
  "attacker-controlled input space",
  "packx.go:HeaderBytesOf", "packx.go:BodyBytesOf", "packx.go:HeaderOf")
p("An announced length never crashes the reader",
  "Whatever 4 length bytes arrive, FirstBlockOf / Recv / FirstBlockOfLimitMaxByte returns a block or an error, it never panics in the caller.",
  "every 32-bit announced length and every continuation of the stream",
  "needs the whole 32-bit range, half of which is misread as negative",
  "packx.go:UnpackToBlockFromReader", "utils.go:Recv")
p("Unpack never misreads",
  "If Unpack returns successfully, the header was decoded from exactly the declared header bytes, the body from exactly the declared body bytes that follow, inside the buffer, and the id is the declared id, for any input bytes, declared lengths and spare capacity of the slice.",
  "every byte slice (with any spare capacity), marshaller and destination",
  "32-bit wrap-around and slice capacity corner cases are not reachable by sampling",
  "packx.go:UnpackWithMarshaller")
p("FirstBlockOfBytes returns an exact prefix or an error",
  "FirstBlockOfBytes(buf) fails exactly when buf has fewer than 16 bytes or fewer than 4 + length bytes; otherwise it returns precisely the first 4 + length bytes. It never panics.",
  "every byte string",
  "every announced length against every buffer length",
  "packx.go:FirstBlockOfBytes")
p("Marshaller names are resolved consistently",
  "PackWithMarshallerName, UnpackWithMarshallerName and GetMarshallerByMarshalName accept exactly the same names (json, xml, toml/tml, yaml/yml, protobuf/proto), resolve a name to the same marshaller, and reject every other name without output.",
  "every string used as marshaller name",
  "all strings",
  "packx.go:PackWithMarshallerName", "packx.go:UnpackWithMarshallerName", "marshaller.go:GetMarshallerByMarshalName")
p("Format-specific replies use the requested format",
  "ctx.JSON / XML / TOML / YAML / ProtoBuf put on the wire a single frame with the requested id whose body is the source encoded by a marshaller with the requested name, whatever marshaller the server was built with, and write nothing if encoding fails.",
  "every server marshaller, id, value and headers that give less than 4 GiB",
  "all combinations of server marshaller and reply format, user-supplied marshallers included",
  "context.go:commonReply", "context.go:JSON", "context.go:ProtoBuf")
p("Data delivered together with end-of-stream is not lost",
  "If the transport reports the last bytes of a frame together with io.EOF (as io.Reader allows and TLS connections do), the frame is still returned.",
  "every stream and fragmentation",
  "depends on the exact way the last read is reported",
  "packx.go:readUntil")
p("WriteConn transmits the buffer exactly once",
  "WriteConn(buf, conn) with nil error has transmitted exactly buf, for every connection, including ones that accept fewer bytes than asked per call.",
  "every buffer and every sequence of per-call accepted counts",
  "all short-write patterns",
  "utils.go:WriteConn")
# ---------------------------------------------------------------- pipes
p("PipeJSON writes one well-formed group",
  "PipeJSON(conn, id1, v1, ..., idn, vn) writes, in one call, the n frames in order where exactly the first one carries the pipe marker 'enable;n'; if any argument is ill-typed or cannot be encoded nothing is written and an error is returned; with no arguments nothing is written.",
  "every argument list",
  "all lengths and all positions of a bad argument",
  "utils.go:PipeJSON")
p("A piped group is received whole and in order",
  "A TCP server that receives the bytes of a PipeJSON call, in any fragmentation and followed by any further traffic, forms one group of exactly those n messages in order and does not swallow or split the following message.",
  "every n from 1 to 2^45, message contents below 2 GiB and the limit of the server, fragmentation, following traffic",
  "round trip through decimal count, JSON header, framing, any fragmentation",
  "utils.go:PipeJSON", "tcpx.go:isPipe", "tcpx.go:ListenAndServeTCP")
p("Piped messages are handled strictly one after another",
  "The handlers of the messages of a piped group run sequentially in the order sent: no handler of message i+1 starts before message i is finished.",
  "every group, registration and schedule",
  "ordering over all schedules",
  "tcpx.go:handlePipe", "tcpx.go:ListenAndServeTCP")
p("An incomplete piped group cannot crash the server",
  "A client that announces a piped group and then disconnects, stalls or sends garbage before the group is complete can at most lose its own connection.",
  "every announced count and every prefix of the group",
  "every crash point of the client",
  "tcpx.go:ListenAndServeTCP", "tcpx.go:handlePipe", "tcpx.go:handleMiddleware")
p("A non-positive pipe count is refused",
  "A message whose pipe marker announces zero or a negative number of messages is not dispatched to any handler and its connection is closed; the server keeps running.",
  "every count <= 0 and every surrounding traffic",
  "all integers",
  "tcpx.go:isPipe", "tcpx.go:ListenAndServeTCP")
p("Malformed pipe markers are refused",
  "A pipe marker that is not a string, not of the form a;b, or whose count is not a decimal int closes the connection without dispatching; a well-formed marker whose first part is not 'enable' is ignored and the message handled normally.",
  "every header and marker string",
  "all strings",
  "tcpx.go:isPipe")
# ---------------------------------------------------------------- routing
p("A message id has at most one handler",
  "Registering a second handler for a message id panics and leaves the first handler, its middlewares and every other route as they were.",
  "every registration history",
  "all histories, including ones continuing after a recovered panic",
  "tcpx.go:AddHandler", "mux.go:AddHandleFunc")
p("Messages are routed to their own handler",
  "A message-id message runs the handler registered for its id, exactly one routed handler; a message whose id has no handler runs nothing.",
  "every registration history and every message id",
  "all histories and ids",
  "tcpx.go:handleMessageIDHandlers", "tcpx.go:AddHandler")
p("Middleware order is global, anchor, self, handler",
  "For a routed message the chain is: all global middlewares in registration order, then the anchor middlewares in effect in order of first Use, then the handler's own middlewares in the order given to AddHandler, then the handler.",
  "every registration history and every registered id",
  "all interleavings of UseGlobal / Use / UnUse / AddHandler",
  "tcpx.go:handleMessageIDHandlers", "mux.go", "markdowns/have-fun.md")
p("Anchor middleware covers exactly the handlers registered between Use and UnUse",
  "An anchor middleware applies to a handler if and only if the handler was registered while the middleware was in use: after a Use of its key and before the next UnUse of that key (or with no later UnUse).",
  "every registration history and every handler",
  "all interleavings of Use / UnUse / AddHandler / Any, including re-use of a key",
  "anchor.go:Contains", "tcpx.go:Use", "tcpx.go:UnUse", "mux.go:ReplaceMiddlewareAnchor")
p("Use / UnUse discipline is enforced and startup accepts what it allowed",
  "Use of a key already in use panics, as does Use with arguments that are not pairs of key and middleware, and UnUse of a key not in use; none of these changes which middlewares later apply to which handlers, except that the pairs and keys of the call that come before the refused one count as calls of their own; and after any history of registrations ListenAndServe's validity check passes.",
  "every registration history, including recovered panics",
  "all histories",
  "anchor.go:callUse", "anchor.go:callUnUse", "anchor.go:checkValidBeforeRun", "tcpx.go:checkPrepare")
p("Global middleware guards every handler",
  "No routed handler (other than the heartbeat and auth handlers when explicitly configured to bypass middleware) runs without all global middlewares being ahead of it in the chain.",
  "every registration history, configuration and message",
  "all ids and configurations; the failing id is a zero value nobody tests",
  "tcpx.go:handleMessageIDHandlers", "tcpx.go:HeartBeatMode", "tcpx.go:WithAuthDetail")
p("Heartbeat and auth bypass only when configured",
  "The heartbeat (auth) handler runs alone, without any middleware, exactly when its through-middleware flag is false; with the flag true it runs behind the ordinary chain.",
  "every registration history and configuration",
  "all configurations",
  "tcpx.go:handleMessageIDHandlers", "tcpx.go:HeartBeatModeDetail", "tcpx.go:WithAuthDetail")
p("OnMessage replaces routing",
  "When OnMessage is set every message runs all global middlewares, all anchor middlewares ever used (whether or not UnUsed) and OnMessage, and never a routed handler, whatever its id or header.",
  "every registration history and message",
  "all histories",
  "tcpx.go:handleOnMessage", "tcpx.go:handleMiddleware")
p("Handlers given to Any run once each",
  "After Any(pattern, h1, ..., hn) a message for the pattern runs globals, anchors in effect and then h1 ... hn, each exactly once.",
  "every registration history, pattern and handler list",
  "all handler list lengths",
  "tcpx.go:Any", "url-mux.go:AddURLPatternHandler", "tcpx.go:handleURLPatternHandlers")
p("Router type is decided by the message header",
  "A message is routed by URL pattern exactly when its header has Router-Type = URL_PATTERN; it is routed by message id when the header is missing, undecodable, lacks the key, has a non-string value or says MESSAGE_ID; any other string runs no handler.",
  "every message header",
  "all headers",
  "context.go:routerType", "tcpx.go:handleMiddleware")
p("Routing of a message does not depend on earlier messages of the connection",
  "Each message is routed according to its own header, whatever messages came before it on the connection and however their handlers are scheduled.",
  "every history of messages on a connection and every schedule of their handlers",
  "histories and schedules",
  "context.go:RouterType", "context.go:setRouterType", "context.go:copyContext")
p("Per-request values are private to the request",
  "A value stored with SetCtxPerRequest is visible to the handlers of the same request and to no other request, on the same connection or another one.",
  "every history of requests, keys and values, every schedule",
  "histories and schedules",
  "context.go:SetCtxPerRequest", "context.go:copyContext")
p("URL-pattern replies carry the pattern of the request answered",
  "JSONURLPattern / ProtobufURLPattern / GetURLPattern use the URL pattern of the message being handled.",
  "every history of messages on a connection",
  "depends on history",
  "context.go:GetURLPattern", "context.go:JSONURLPattern")
p("Every handler of a chain runs at most once, in order",
  "For a chain of handlers that call Next and Abort arbitrarily (nested, repeated), handlers start in chain order and each starts at most once, and the chain always terminates if the handlers do.",
  "every chain length and every behaviour of every handler with respect to Next/Abort",
  "unbounded nesting",
  "context.go:Next", "context.go:Abort")
p("Without Abort every handler of a chain runs",
  "If no handler aborts or panics, every handler of the chain runs (exactly once), whether or not handlers call Next.",
  "every chain length and every behaviour without Abort",
  "chain length is unbounded; the failing length exceeds 2019",
  "context.go:Next", "context.go:isAbort")
p("Abort prevents every later handler",
  "Once a handler calls Abort, no handler that has not yet started runs, even if Next is called afterwards.",
  "every chain and every behaviour",
  "unbounded nesting of Next around Abort",
  "context.go:Abort", "context.go:Next", "context.go:isAbort")
p("A locked mux accepts no new routes",
  "After Mux.AllowAdd is set to false neither AddHandler nor Any adds or changes a route.",
  "every registration history before and after locking",
  "all histories",
  "mux.go:AddHandleFunc", "mux.go:Any", "tcpx.go:Any", "url-mux.go:AddURLPatternHandler")
p("Rewriting the heartbeat handler affects no other route",
  "RewriteHeartBeatHandler(id, f) makes f the handler of id, removes the old heartbeat handler, and leaves every other route unchanged.",
  "every configuration and registration history",
  "all configurations, including heartbeat never configured",
  "tcpx.go:RewriteHeartBeatHandler", "tcpx.go:removeHandler")
# ---------------------------------------------------------------- contexts, pool
p("Closing a connection is idempotent and safe from any goroutine",
  "Any number of CloseConn calls on a connection, by any goroutines in any interleaving, never panic; once one has completed the connection is closed, its end channel is closed and IsOffline is true for ever.",
  "every number of callers and every schedule",
  "schedules",
  "context.go:CloseConn", "utils.go:CloseChanel", "context.go:IsOffline")
p("The pool is a last-writer-wins map of online users",
  "After any history of pool operations GetClientPool(u) returns the context of the latest Online(u, .) not followed by an Offline/Delete of u, and nil if there is none.",
  "every history of pool operations",
  "unbounded histories",
  "client-pool.go")
p("Empty or pool-less Online is refused",
  "ctx.Online(\"\") and ctx.Online / ctx.Offline without a pool return an error and change no pool; ctx.Offline before Online returns an error and changes no pool.",
  "every state",
  "all states",
  "context.go:Online", "context.go:Offline")
p("A closed connection is not left in the pool",
  "After CloseConn on a context completes no pool entry refers to it.",
  "every history of Online/Offline/CloseConn calls",
  "histories such as Online under two names",
  "context.go:CloseConn", "context.go:Online", "client-pool.go:Offline")
p("Closing an old connection does not log out a newer one",
  "If a user goes online again from a new connection under the same name, closing the old connection leaves the new one reachable under that name.",
  "every history and schedule",
  "order of close and re-online",
  "context.go:CloseConn", "context.go:Offline", "client-pool.go:Offline")
p("SendToUsername reaches only a live, current session",
  "SendToUsername(u, ...) either writes exactly one frame to the connection most recently put online as u, that connection not being offline, or writes nothing and returns an error.",
  "every history of pool operations and closes",
  "histories",
  "context.go:SendToUsername", "context.go:SendToConn")
p("Reserved keys are protected and per-connection values are shared",
  "SetCtxPerConn refuses (panics) exactly the string keys starting with 'tcpx-' and then changes nothing; otherwise GetCtxPerConn of that key returns the value last stored by any request of the connection.",
  "every key, value and history",
  "all keys and histories",
  "context.go:SetCtxPerConn", "context.go:GetCtxPerConn")
p("The username of a connection cannot be forged by handlers",
  "The name returned by ctx.Username() is always the one last set with SetUsername / Online on that connection, whatever keys handlers store with SetCtxPerConn or SetCtxPerRequest.",
  "every history of context operations",
  "histories and keys",
  "context.go:Username", "context.go:SetCtxPerRequest", "context.go:SetCtxPerConn")
# ---------------------------------------------------------------- watchers
p("Heartbeat loss is three consecutive silent intervals",
  "With heartbeat on, the watcher closes a TCP connection for heartbeat loss exactly when three intervals in a row elapse without a heartbeat; each heartbeat restarts the count; the loss callback runs once, before the close.",
  "every sequence of heartbeats, timeouts and signals",
  "unbounded sequences",
  "tcpx.go:heartBeatWatch")
p("A UDP datagram cannot shut the server socket down",
  "With heartbeat on, the UDP server keeps its socket open as long as clients keep sending heartbeats.",
  "every sequence of datagrams and timeouts",
  "timing and history",
  "tcpx.go:ListenAndServeUDP", "tcpx.go:heartBeatWatch", "context.go:CloseConn")
p("Auth decides the fate of the connection once",
  "With auth on, the auth watcher closes the connection on deadline or on RecvAuthDeny, leaves it open on RecvAuthPass, and only the first of these counts.",
  "every sequence of auth events",
  "event orders",
  "tcpx.go:authWatch", "context.go:RecvAuthPass", "context.go:RecvAuthDeny")
p("Auth and heartbeat signals never block the handler",
  "RecvAuthPass / RecvAuthDeny / RecvHeartBeat return promptly whatever has been signalled before.",
  "every number of signals and watcher states",
  "counts of repeated messages",
  "context.go:RecvAuthPass", "context.go:RecvHeartBeat", "tcpx.go:authWatch")
p("OnClose runs exactly once per connection, before it is closed by the server loop",
  "For every accepted TCP connection, however its read loop ends (end of stream, read error, bad frame, panic in the loop), OnClose runs exactly once, then CloseConn, and the panic does not escape.",
  "every input stream and every way of ending",
  "all exit paths",
  "tcpx.go:ListenAndServeTCP")
p("Every complete message is dispatched exactly once, in arrival order",
  "Every complete frame with a decodable header that arrives before the first bad frame is handed to exactly one handler goroutine (alone or inside its piped group), goroutines are started in arrival order, and nothing else is dispatched.",
  "every stream and fragmentation",
  "all streams",
  "tcpx.go:ListenAndServeTCP")
p("No single TCP message can crash the server process",
  "For every byte stream received, framework code run for a message that is not part of a piped group never panics outside a recover.",
  "every byte stream and registration history",
  "attacker-controlled input",
  "tcpx.go:handleMiddleware", "tcpx.go:ListenAndServeTCP", "packx.go:HeaderOf")
p("No UDP datagram can crash the server process",
  "For every datagram received the UDP server ignores it or dispatches it; framework code never panics outside a recover.",
  "every datagram",
  "attacker-controlled input",
  "tcpx.go:ListenAndServeUDP", "context.go:routerType", "packx.go:HeaderBytesOf")
p("A panicking handler affects only its own message",
  "A panic in a message handler does not terminate the server process.",
  "every handler and message",
  "every panic point",
  "tcpx.go:ListenAndServeTCP", "tcpx.go:handleMiddleware")
# ---------------------------------------------------------------- server life cycle
p("Stop closes every listener",
  "After Stop, every listener registered by this server (tcp, tcp4, tcp6, unix, udp, udp4, ...) has been closed and the state is stopped; a second Stop returns an error and changes nothing.",
  "every set of listeners",
  "all networks",
  "tcpx.go:Stop", "tcpx.go:fillProperty")
p("Stop(false) leaves connections alone",
  "Stop(false) closes no established connection and removes nobody from the pool.",
  "every server state",
  "all states",
  "tcpx.go:Stop")
p("Stop(true) without broadcast signals closes all pooled connections",
  "With the built-in pool and without broadcast signals, after Stop(true) every pooled connection is eventually closed and removed, and pool operations do not block for ever.",
  "every pool content and every schedule",
  "deadlock freedom over schedules",
  "tcpx.go:closeAllConnection", "context.go:CloseConn", "client-pool.go")
p("Stop(true) with broadcast signals closes all connections",
  "With broadcast signals on, once Stop(true) has been called every TCP connection whose watcher is then scheduled is closed, in every schedule, and no connection is closed by its watcher before that.",
  "every number of connections and every schedule",
  "schedules",
  "tcpx.go:closeAllConnection", "tcpx.go:broadcastSignalWatch")
p("A restarted server accepts and keeps new connections",
  "After Restart(true) with broadcast signals, new connections are not closed by the shutdown of the previous run, and a later Stop(true) works again.",
  "every history of stops and starts",
  "histories",
  "tcpx.go:Restart", "tcpx.go:closeAllConnection", "tcpx.go:WithBroadCastSignal")
p("Start restarts every listener",
  "Start on a stopped server listens again on every (network, address) pair the server was listening on.",
  "every list of listeners and every schedule of the started goroutines",
  "goroutine scheduling against the loop variable",
  "tcpx.go:Start")
p("Stop and Start refuse the wrong state",
  "Stop on a stopped server and Start on a running one return an error and change nothing; Restart on a stopped server fails without running the beforeStart callbacks.",
  "every server state",
  "all states and histories",
  "tcpx.go:Stop", "tcpx.go:Start", "tcpx.go:Restart")
p("One listener record per endpoint",
  "After any history of listens there is at most one record per (network, address), it holds the most recent listener, and records keep the order in which endpoints were first used.",
  "every history of listens",
  "histories",
  "tcpx.go:fillProperty")
p("ListenAndServe selects the transport by network name",
  "ListenAndServe serves TCP exactly for tcp, tcp4, tcp6, unix, unixpacket, UDP exactly for udp, udp4, udp6, unixgram and names starting with 'ip', and returns an error for every other name.",
  "every network string",
  "all strings",
  "tcpx.go:ListenAndServe", "utils.go:In")
p("In implements exact and wildcard matching",
  "In(s, patterns) is true exactly if some pattern without % equals s, or some pattern %x% / %x / x% has x occurring in / ending / starting s; it terminates normally for every pattern list.",
  "every string and pattern list",
  "all strings",
  "utils.go:In")
p("ClientIP is the address of the peer",
  "ctx.ClientIP() returns the host part of the peer's address for every IPv4 and IPv6 peer.",
  "every peer address",
  "all addresses",
  "context.go:ClientIP")
p("Message headers behave as a map",
  "msg.Get(k) returns what was last Set for k and nil for absent keys or a nil header; Set on one key changes no other key; Set works for every message.",
  "every message, key and value",
  "all histories",
  "message.go:Get", "message.go:Set")
p("Built messages are routed where they say",
  "A message built with NewMessage(id, v) is routed by message id to id and one built with NewURLPatternMessage(p, v) is routed to pattern p, for every marshaller of the body.",
  "every id, pattern, body and marshaller",
  "all ids and patterns, through encode and decode",
  "message.go:NewMessage", "message.go:NewURLPatternMessage", "context.go:routerType", "packx.go:URLPatternOf")
p("An accept error does not silently end the server",
  "If accepting a connection fails or OnConnect panics, the server keeps accepting, or its state says stopped so that Start can restart it.",
  "every sequence of accept results",
  "fault sequences",
  "tcpx.go:ListenAndServeTCP")
p("A UDP server whose socket can no longer be read ends",
  "If every further read of the UDP socket fails, the read loop of ListenAndServeUDP ends (or stops consuming the processor) even if the server was not stopped.",
  "every sequence of read results",
  "unbounded fault sequences",
  "tcpx.go:ListenAndServeUDP", "tcpx.go:readUDP")
p("One datagram is one message",
  "For every datagram received before the server ends, exactly its first frame is dispatched if the datagram holds it completely within the configured buffer, otherwise nothing; datagrams are dispatched in the order of arrival, and failed reads in between lose nothing.",
  "every sequence of datagrams and read errors, every buffer size",
  "all datagrams and sequences",
  "tcpx.go:ListenAndServeUDP", "tcpx.go:readUDP", "packx.go:FirstBlockOfBytes")
p("Deadlines configured on the server apply to new sockets",
  "After any sequence of SetDeadline, SetReadDeadline and SetWriteDeadline on the server, a new connection has the read (write) deadline that was last asked for by SetDeadline or SetReadDeadline (SetWriteDeadline).",
  "every sequence of setter calls",
  "all call sequences",
  "tcpx.go:SetDeadline", "tcpx.go:SetReadDeadline", "tcpx.go:SetWriteDeadline", "tcpx.go:ListenAndServeTCP")
p("The deadline setters of a context affect only its own peer",
  "SetDeadline, SetReadDeadline and SetWriteDeadline of a context set the deadline for the traffic of its own peer and change nothing for any other peer.",
  "every pair of contexts of a server, every call",
  "all pairs of connections",
  "context.go:SetDeadline", "context.go:SetReadDeadline", "context.go:SetWriteDeadline")
p("A raw connection runs its chain once and is then closed",
  "A connection of ListenAndServeRaw calls the global middlewares, all anchor middlewares ever used, then HandleRaw, in this order and each at most once (all of them unless one aborts or panics); afterwards OnClose is called once, then the connection is closed, and no panic ends the process.",
  "every registration history, every behaviour of handlers and OnClose",
  "all handler behaviours and panics",
  "tcpx.go:ListenAndServeRaw", "tcpx.go:handleRaw", "context.go:Next")
p("Overlapping calls of Stop do not disturb each other",
  "However calls of Stop, Start and ListenAndServe overlap, at most one call of Stop per period of running returns nil, and none panics.",
  "every interleaving of any number of control calls",
  "interleavings of control calls are not reproducible in tests",
  "tcpx.go:Stop", "tcpx.go:closeAllConnection", "tcpx.go:openState", "tcpx.go:stopState")
p("Stop takes effect on listening calls begun before it",
  "Once Stop has returned nil, the server stays stopped and accepts no connection until another call that listens is begun; and Stop is not refused if a call begun before it is still going to accept connections.",
  "every interleaving of any number of control calls",
  "interleavings of control calls are not reproducible in tests",
  "tcpx.go:Stop", "tcpx.go:Start", "tcpx.go:ListenAndServeTCP", "tcpx.go:fillProperty", "tcpx.go:openState")
p("What a client packs and sends is what the addressed handlers bind",
  "Any number of messages packed by a client and sent over a connection start one request each, in order, for every fragmentation of the bytes; along every schedule each request is given exactly once to the handlers registered for the id or pattern the client addressed, and there MessageIDOf, HeaderOf, RawStream and Bind return what the client packed.",
  "every list of messages, marshaller, fragmentation, server registration and interleaving of requests",
  "the composition of packing, fragmentation, framing, concurrency and routing cannot be covered by sampling",
  "packx.go:PackWithMarshaller", "tcpx.go:ListenAndServeTCP", "tcpx.go:handleMiddleware", "context.go:Bind", "context.go:BindWithMarshaller", "context.go:RawStream")
p("Client functions send one frame and read frames one by one",
  "WriteJSON and TCPCallOnceJSON hand exactly one frame with the given id and body to the connection or report an error; TCPCallOnceJSON always closes its connection; successive calls of Recv return the successive frames; the methods of PackType return what the sender packed.",
  "every message below 4 GiB (below 2 GiB where it is read again), every outcome of dialling and writing, every fragmentation",
  "all outcomes and fragmentations",
  "utils.go:WriteJSON", "utils.go:TCPCallOnceJSON", "utils.go:Recv", "pack-type.go:BindJSON", "pack-type.go:BindXML", "pack-type.go:URLPattern", "pack-type.go:MessageID")
p("Replies of concurrent handlers are not mixed up",
  "Whatever replies the handlers of a connection make concurrently, the peer receives exactly the frames of the replies that reported success, each whole, one after the other.",
  "every set and order of replies, every outcome of the writes",
  "partial writes and interleavings are not reproducible in tests",
  "context.go:commonReply", "context.go:replyBuf", "context.go:JSON")
p("Loss of heartbeat is detected on time",
  "No connection is closed for loss of heartbeat before three intervals have passed since it was accepted or its watcher last received a heartbeat; and if the watcher is never more than d late, a connection still open has been heard of within the last three intervals and 14 d, unless the loss callback panicked.",
  "every run of connections, watchers and user goroutines, with any delays; every interval and d",
  "timing of goroutines cannot be controlled in tests",
  "tcpx.go:heartBeatWatch", "context.go:RecvHeartBeat")
p("Heartbeats in time keep a connection",
  "If the watcher is never more than d late (d less than an interval) and a call of RecvHeartBeat returns at least every g, with g + d less than three intervals, the connection is not closed for loss of heartbeat.",
  "every run of connections, watchers and user goroutines, with any delays; every interval, g and d",
  "timing of goroutines cannot be controlled in tests",
  "tcpx.go:heartBeatWatch", "context.go:RecvHeartBeat")
p("The auth deadline is kept",
  "No connection is closed for the auth deadline before the deadline has passed since it was accepted; if the auth watcher is never more than d late, a TCP connection open for longer than the deadline and 3 d has been let in, no connection is closed for the deadline for which RecvAuthPass or RecvAuthDeny had returned more than 2 d before it, and one still open 3 d after such a call returned has been let in.",
  "every run of connections, watchers and user goroutines, with any delays; every deadline and d",
  "timing of goroutines cannot be controlled in tests",
  "tcpx.go:authWatch", "context.go:RecvAuthPass", "context.go:RecvAuthDeny")
p("Callbacks before exit run before the process exits",
  "When a process that called BeforeExit receives SIGINT, SIGTERM or SIGQUIT, all callbacks are called, in order, each once, and then the process exits; no callback is called before a signal arrives.",
  "every number of calls and callbacks, every behaviour of the callbacks, every schedule of signals and goroutines",
  "signals at every moment, including between registration and reception",
  "tcpx.go:BeforeExit")
p("Defer hands every panic to every handler",
  "Defer(f, handlers...) returns normally whatever f does; if f panics all handlers are called in order, otherwise none.",
  "every f and every list of handlers",
  "all behaviours of f and of the handlers",
  "utils.go:Defer", "utils.go:CloseChanel")
p("A listening call returns an error exactly if it cannot listen",
  "ListenAndServe returns an error if the network is unknown or listening fails, and otherwise returns nil once the server has been stopped or its listener fails; it does not panic.",
  "every network name, every outcome of listening, every sequence of accept results",
  "all outcomes",
  "tcpx.go:ListenAndServe", "tcpx.go:ListenAndServeTCP", "tcpx.go:ListenAndServeUDP")
p("With auth on, every connection must authorise",
  "With auth on, a connection accepted by any kind of server for which neither RecvAuthPass nor RecvAuthDeny is called is closed soon after the deadline.",
  "every run of connections, watchers and user goroutines, with any delays; every deadline; TCP, raw and UDP",
  "timing of goroutines cannot be controlled in tests",
  "tcpx.go:authWatch", "tcpx.go:WithAuthDetail", "tcpx.go:ListenAndServeRaw", "tcpx.go:ListenAndServeUDP")
p("The watchers of a connection end with it",
  "If goroutines are never more than d late (d less than a heartbeat interval), then 6 d after a connection was closed or last sent a heartbeat none of its watching goroutines is left, and those of a datagram end when it has been handled.",
  "every run of connections, watchers and user goroutines, with any delays; every interval, deadline and d",
  "leaked goroutines over all schedules",
  "tcpx.go:heartBeatWatch", "tcpx.go:broadcastSignalWatch", "tcpx.go:authWatch", "context.go:CloseConn")
p("No context method can derail the chain",
  "Whatever methods of their context handlers call, the chain indexes no handler out of range, runs each handler at most once and ends, provided every handler makes finitely many calls.",
  "every chain, every behaviour of handlers including calls of Reset and ResetOffset",
  "all executions",
  "context.go:Next", "context.go:Reset", "context.go:ResetOffset")
p("Reset gives a request a fresh store",
  "After ctx.Reset(), GetCtxPerRequest returns exactly what this request has stored since (on UDP GetCtxPerConn too), and on TCP GetCtxPerConn still returns what was stored for the connection, to which SetCtxPerRequest no longer adds.",
  "every number of concurrent requests running any code on any connections, every schedule",
  "all interleavings",
  "context.go:Reset", "context.go:SetCtxPerRequest", "context.go:GetCtxPerRequest", "context.go:GetCtxPerConn")
p("The mutexes of pools and contexts exclude overlapping accesses",
  "In no execution do two goroutines access the map of a client pool, or the state of a user, at the same time if one of them writes; no mutex is unlocked by a goroutine that does not hold it; and every execution gives results that are possible when each pool call and state access happens at one instant.",
  "every number of goroutines making any pool, context and shutdown calls; every schedule of the single steps of locking, accessing and unlocking",
  "all interleavings; the race detector sees only the executions of a test run",
  "client-pool.go:SetClientPool", "client-pool.go:GetClientPool", "client-pool.go:DeleteFromClientPool", "context.go:CloseConn", "context.go:IsOffline", "tcpx.go:closeAllConnection")
p("The fields of a server are free of data races",
  "No two goroutines can access the state, the listener records, their listeners or the pool of a server at the same moment with one of them writing.",
  "every number of goroutines making any sequences of State, ListenAndServe, Stop, Start and Restart calls, with the goroutines these start; every schedule of single accesses",
  "all interleavings; the race detector sees only the executions of a test run",
  "tcpx.go:State", "tcpx.go:openState", "tcpx.go:stopState", "tcpx.go:fillProperty", "tcpx.go:Stop", "tcpx.go:Start", "tcpx.go:closeAllConnection")
p("The server's own goroutines do not race on a context",
  "The goroutines a server starts for a connection or datagram (reading, watching, handling) never access a field of its context, or of a request's context, at the same moment with one of them writing.",
  "every configuration, every number of messages and piped groups, every schedule of single accesses; TCP, raw and UDP",
  "all interleavings; the race detector sees only the executions of a test run",
  "context.go:copyContext", "context.go:Reset", "context.go:CloseConn", "tcpx.go:heartBeatWatch", "tcpx.go:ListenAndServeTCP", "tcpx.go:ListenAndServeUDP")
p("Registration takes its handlers by value",
  "A route runs the handlers and middlewares that were in the slice when it was handed to AddHandler, UseGlobal or Any; what the caller does with its slices afterwards changes no route, and registration changes no slice of the caller.",
  "every sequence of operations on slices (new, assign, re-slice, append, set an element) and registration calls by the caller; every capacity append may choose",
  "all sequences of slice operations; aliasing shows only for certain capacities",
  "mux.go:AddMessageIDSelfMiddleware", "mux.go:AddGlobalMiddleware", "url-mux.go:AddURLPatternHandler", "tcpx.go:Any")
p("The Python client and the Go code exchange frames",
  "For every int32 message id, what the Python client's pack makes is unpacked by the Go code with the same id and as much header and body as Go's libraries read from the bytes written, and vice versa; neither side accepts a frame that lacks bytes.",
  "every id, header and body, every serializer behaviour, any bytes following the frame",
  "all ids and payloads; two languages",
  "all-language-clients/python/protocol.py:pack", "all-language-clients/python/protocol.py:unpack", "packx.go:UnpackWithMarshaller", "packx.go:PackWithMarshaller")
p("What OnConnect does with its context does not change the chains of messages",
  "Whatever methods of its context OnConnect calls, a message of the connection (or HandleRaw) runs all its handlers in order unless one of them aborts or panics.",
  "every sequence of method calls on the connection's context and its copies, every chain, every behaviour of handlers",
  "all sequences of calls and all executions",
  "context.go:copyContext", "context.go:Next", "context.go:Abort", "tcpx.go:ListenAndServeTCP", "tcpx.go:ListenAndServeRaw")
p("Every context handed to user code has working stores",
  "On every context that callbacks and handlers are given, the store methods never panic (except SetCtxPerConn on reserved keys), and on connections GetCtxPerConn returns in all of them what was last stored for the connection.",
  "every sequence of method calls on the context of a connection or datagram and on copies made at any time",
  "all sequences of calls",
  "context.go:copyContext", "context.go:NewUDPContext", "context.go:SetCtxPerConn", "context.go:GetCtxPerConn", "context.go:SetUsername", "tcpx.go:heartBeatWatch")
p("HandleRaw's reader and writer are its connection",
  "The ConnReader and ConnWriter of the context given to HandleRaw are the accepted connection, whatever OnConnect did; on UDP InitReaderAndWriter returns an error and panics never.",
  "every sequence of method calls on the context of a connection or datagram and on copies made at any time",
  "all sequences of calls",
  "context.go:InitReaderAndWriter", "context.go:copyContext", "tcpx.go:ListenAndServeRaw")
p("Middlewares wrap the rest of the chain",
  "Handlers of a chain are nested: what runs between a handler's call of Next and its return are whole calls of later handlers, code after Next runs when the rest of the chain has returned, and every handler that ran has returned when the chain is done.",
  "every chain, every behaviour of handlers (work, Next, Abort, return, panic at any point), every execution",
  "all executions",
  "context.go:Next", "context.go:Abort")
p("Messages of a connection are handled in order of arrival",
  "When a handler is called for a message of a connection, the handlers of all messages received before on that connection have returned.",
  "every stream, every number of messages, every chain length and behaviour of handlers, every interleaving of the goroutines",
  "all interleavings",
  "tcpx.go:ListenAndServeTCP", "tcpx.go:handlePipe")
p("Nothing of a connection is handled after its OnClose",
  "Once OnClose has been called for a connection, no handler is called for any of its messages.",
  "every stream, every behaviour of handlers, every interleaving of the goroutines",
  "all interleavings",
  "tcpx.go:ListenAndServeTCP")
p("OnMessage and HandleRaw run only the middlewares in use",
  "A middleware ended with UnUse is not run before OnMessage or HandleRaw.",
  "every sequence of registration calls, every message, every execution of a chain",
  "all registration histories",
  "tcpx.go:handleOnMessage", "tcpx.go:handleRaw", "tcpx.go:UnUse")
p("With a certificate every stream listener speaks TLS",
  "A listener opened on a stream network speaks TLS with the certificate of the last successful LoadTLSFile, if there is one; a failed LoadTLSFile changes nothing.",
  "every sequence of LoadTLSFile and listening calls, each of which may fail, and of the listening calls made by Start",
  "all sequences of calls",
  "tcpx.go:LoadTLSFile", "tls.go:newListener", "tcpx.go:ListenAndServeTCP", "tcpx.go:ListenAndServeRaw")
p("A server started again serves its endpoints as before",
  "Start opens, for each endpoint, a listener for the same purpose (messages, HandleRaw, datagrams with the given buffer size) as the listener last opened there.",
  "every sequence of LoadTLSFile and listening calls, each of which may fail, and of the listening calls made by Start",
  "all sequences of calls",
  "tcpx.go:Start", "tcpx.go:fillProperty", "tcpx.go:ListenAndServe", "tcpx.go:ListenAndServeRaw", "tcpx.go:ListenAndServeUDP")
p("Every message of a connection is handled once, to the end",
  "If every handler makes finitely many actions, the goroutines of a connection come to an end; then, unless the process has ended, each complete message received before one that is refused has had its chain called once and in order, the whole of it (at most 2019 handlers) if no handler aborted, and all handlers called have returned.",
  "every stream and fragmentation, every chain length, every behaviour of handlers, every interleaving of the goroutines",
  "all interleavings and all executions to their ends",
  "tcpx.go:ListenAndServeTCP", "tcpx.go:handlePipe", "tcpx.go:handleMiddleware", "context.go:Next")
p("A chat message reaches the user it is addressed to, under its sender's name",
  "On the chat server of the examples, a text is written at most once, to a connection that is online under the name the message is addressed to, and names its sender; nobody else receives it.",
  "any number of users logging in, logging out, writing and leaving, every interleaving of the goroutines",
  "all interleavings",
  "examples/modules/chat/server/main.go:send", "context.go:SendToUsername", "client-pool.go:GetClientPool")
p("A sender is told when its chat message is not delivered",
  "On the chat server of the examples, the handler of a message to a user either writes the text to that user's connection or writes to the sender that the user is offline.",
  "any number of users logging in, logging out, writing and leaving, every interleaving of the goroutines, every request body",
  "all interleavings",
  "examples/modules/chat/server/main.go:send", "context.go:IsOnline", "context.go:CloseConn")
p("A handler runs only if every handler before it has let it through",
  "When a handler of a chain is called, nobody has called Abort, and every handler before it has called Next or has returned; a handler that does neither before an Abort keeps all later handlers from running.",
  "chains of every length, every behaviour of handlers, every execution",
  "all executions",
  "context.go:Next", "context.go:Abort", "tcpx.go:handleMiddleware")
p("The guarded login of the examples needs the key",
  "On the servers of the two middleware examples, login runs only for a message with id 1 whose header holds the key, and then exactly once (if it neither aborts nor panics).",
  "every message however routed, every header or failure to read it, every behaviour of login, every execution of the chain",
  "all headers and executions",
  "examples/modules/middleware/anchor-middleware/main.go:beforeLogin", "examples/modules/middleware/router-middleware/main.go:beforeLogin", "tcpx.go:Use", "tcpx.go:AddHandler", "context.go:Abort")
p("A refused Use or UnUse says where the earlier calls were made",
  "When Use or UnUse panics because a key is, or is not, in use, its message ends in the places of all Use calls of that key that returned, in the order of the calls, and then of all UnUse calls of it that returned; only an UnUse of a key never used may say nothing but that.",
  "every sequence of registration calls at any places",
  "all registration histories",
  "anchor.go:callUse", "anchor.go:callUnUse", "tcpx.go:Use", "tcpx.go:UnUse", "routeInfo.go:Location")
p("A URL mux on its own refuses conflicts and late registrations",
  "On a URLMux made with NewURLMux, AddURLPatternHandler after LockWrite returns an error and changes nothing; after PanicOnExistRouter, registering a pattern again panics and names its own place and all places where the pattern was registered; otherwise the handlers of a pattern are kept in the order of the calls.",
  "every sequence of calls on the mux, at any places",
  "all histories of calls",
  "url-mux.go:AddURLPatternHandler", "url-mux.go:LockWrite", "url-mux.go:PanicOnExistRouter", "routeInfo.go:Location")
p("A heartbeat counts once, and for its own connection only",
  "The watcher of a connection never receives more heartbeats than calls of RecvHeartBeat have returned on that connection; so a connection without such calls is closed in time, whatever others send.",
  "any number of connections and calls, every interleaving, every passing of time",
  "all interleavings and delays",
  "context.go:RecvHeartBeat", "tcpx.go:heartBeatWatch", "context.go:HeartBeatChan")
p("The sayHello server routes each message as its comments say",
  "On the server of the sayHello example, a message is handled by the chain its comments name for its id (global middleware, anchored middleware, routed middleware, handler), and a message with another id, or with a URL pattern, by nothing.",
  "every message, however routed",
  "all ids and patterns",
  "examples/sayHello/server/main.go:main", "tcpx.go:Use", "tcpx.go:AddHandler", "tcpx.go:RewriteHeartBeatHandler")
p("The sayHello server serves its clients",
  "The listening calls of the sayHello example do not end the process as long as its ports can be opened, and a client that sends heartbeats is kept.",
  "every sequence of accepted connections, every client, every interleaving",
  "all executions",
  "examples/sayHello/server/main.go:main", "tcpx.go:ListenAndServe", "tcpx.go:RewriteHeartBeatHandler", "tcpx.go:heartBeatWatch")
p("The watchers can always keep up",
  "However a run has gone in which no watcher was more than d late, it can go on by steps of watchers alone so that any given time passes and none is late: a lost heartbeat, a passed deadline, a received signal and the end of a connection can always be acted on.",
  "any number of connections and calls, every run, every d and every interval",
  "all runs",
  "tcpx.go:heartBeatWatch", "tcpx.go:broadcastSignalWatch", "tcpx.go:authWatch")
p("Every message that asks for an answer gets exactly one",
  "What a server sends over a connection whose messages are routed alike and whose handlers answer once are the answers of distinct messages, whole and one after the other, and a message whose handling returned has been answered; on the url-pattern example, each login whose body can be bound gets the token exactly once, no other message gets it, and the client prints it once per answer.",
  "any number of messages below 2 GiB and the limit of the server, every fragmentation, every handler that answers once on each of its paths, every interleaving with each other and with other connections",
  "all interleavings and all messages",
  "examples/modules/url-pattern/server/server.go:login", "examples/modules/url-pattern/client.go:Recv", "context.go:JSONURLPattern", "context.go:replyBuf", "tcpx.go:handleMiddleware")
p("The logger prints as it is set",
  "In debug mode a call of Println prints its arguments with a blank between them, in any other mode it prints nothing, whatever was set before; and the flags given to SetLogFlags take effect.",
  "any sequence of settings, any arguments",
  "all sequences of settings",
  "log.go:Println", "log.go:SetLogMode", "log.go:SetLogFlags")
p("The auth example keeps those who sign and closes the others",
  "On the server of the auth example, a connection still open thirty seconds (and three times the lateness of its watcher) after it was accepted has sent a signed message that was handled; one with a wrongly signed message and no signed one is closed as soon as that message has been handled; one with a signed message handled in time and no wrongly signed one is never closed for want of authorisation.",
  "any number of connections and messages, every interleaving, every passing of time, every hash function",
  "all messages, interleavings and delays",
  "examples/modules/auth/server/main.go:main", "examples/modules/auth/server/main.go:Encrypt", "tcpx.go:WithAuthDetail", "tcpx.go:authWatch", "context.go:RecvAuthPass", "context.go:RecvAuthDeny")
p("A signature of the auth example is good for its own fields only",
  "If the server of the auth example lets in two messages with the same signature, they have the same fields (as long as no two texts have the same hash).",
  "all messages, every hash function",
  "all texts",
  "examples/modules/auth/server/main.go:Encrypt", "examples/modules/auth/server/main.go:main")
p("The encoders and decoders of the pack-detail examples speak the protocol",
  "What the example encoders print for an id, a header and a body is the documented frame, the same bytes Pack makes; the example decoders take every such frame apart, whatever follows it: its length, id, lengths, header and body.",
  "every id, header and body of together less than 4 GiB, every rest of the buffer",
  "all ids and contents",
  "examples/modules/pack-detail/json/encode/main.go:main", "examples/modules/pack-detail/json/decode/main.go:main", "packx.go:PackWithMarshaller")
p("A message need not have a header or a body",
  "As examples/modules/pack-detail/README.md says, a message may have a header length and a body length of 0: it can be unpacked, and a server dispatches it by its id.",
  "every id, body, marshaller, fragmentation, and server without OnMessage",
  "all frames, fragmentations and servers",
  "examples/modules/pack-detail/README.md", "packx.go:UnpackWithMarshaller", "tcpx.go:isPipe", "tcpx.go:ListenAndServeTCP", "tcpx.go:ListenAndServeUDP")
p("The my-marshal example prints the body that was sent",
  "On the server of the my-marshal example each of the messages 22, 23 and 24 runs its own handler, no other message runs any, and the three ways in which they read a message come to the same: what was packed is printed with its id, and what cannot be read is reported as an error.",
  "every message and every body",
  "all messages",
  "examples/modules/my-marshal/server/main.go:main", "examples/modules/my-marshal/marshaller/marshaller.go:Unmarshal", "context.go:Bind", "context.go:BindWithMarshaller", "packx.go:UnpackWithMarshaller")
p("The request counter of the global-middleware example counts",
  "The number a request of the global-middleware example is told is at least the number of answers given so far and at most the number of requests counted, no earlier answer was greater, and no request is answered twice. The example's client prints what it is told, once for each of its requests that was handled; what it writes makes one request, which is told one number.",
  "any number of requests of any kind, every interleaving, every order and fragmentation of the answers",
  "all interleavings",
  "examples/modules/middleware/global-middleware/main.go:main", "examples/modules/middleware/global-middleware/client/main.go:main", "examples/modules/middleware/global-middleware/client/main.go:Recv", "tcpx.go:UseGlobal")
p("The heartbeat example keeps those who send heartbeats and closes the others",
  "On the server of the heartbeat example, a connection from which no message with id 1392 comes is closed within thirty seconds of being accepted (and fourteen times the lateness of its watcher), whatever else it sends; a connection still open has been heard of within that time; one whose heartbeats are handled at least every twenty seconds, with no goroutine more than d late and 6 d less than ten seconds, is not closed for loss of heartbeat. Each write of the example's client is such a heartbeat, in whatever pieces it arrives.",
  "any number of connections and messages (below 2 GiB and the limit of the server), every fragmentation, every interleaving, every passing of time",
  "all messages, interleavings and delays",
  "examples/modules/heartbeat/server/server.go:main", "examples/modules/heartbeat/client/client.go:main", "tcpx.go:HeartBeatModeDetail", "tcpx.go:heartBeatWatch", "context.go:RecvHeartBeat")
p("Heartbeats handled in time keep a connection",
  "If neither the watcher of a connection nor a call of RecvHeartBeat (except to wait for room in the channel) is ever more than d late, and RecvHeartBeat is called for the connection at least every g, with g + 6 d less than three intervals, it is not closed for loss of heartbeat, whoever makes the heartbeat channel; and in any situation the server can go on so that none is late.",
  "every run of connections, watchers and user goroutines, with any delays; every interval, g and d",
  "timing of goroutines cannot be controlled in tests",
  "tcpx.go:heartBeatWatch", "context.go:RecvHeartBeat", "context.go:HeartBeatChan")
p("The raw example receives every byte and answers every message",
  "The handler of the raw example receives exactly the bytes sent, in order, in pieces of at most 500 bytes, answers each piece once before taking the next, and returns exactly when the stream ends; before it the global and the anchored middleware run once each, after it the connection is closed. Each message of the client gets one answer, which the client prints.",
  "every stream of bytes and every fragmentation, in both directions",
  "all fragmentations",
  "examples/modules/raw/server/server.go:main", "examples/modules/raw/client/client.go:Recv", "tcpx.go:ListenAndServeRaw", "tcpx.go:handleRaw")
p("Stop(true) closes every connection",
  "After Stop(true) every connection of the server is closed by the server, as markdowns/graceful.md and the README of the graceful-stop example say, whatever the settings of the server.",
  "every setting, every number of connections, every interleaving of watchers, user code and control calls",
  "all settings and interleavings",
  "markdowns/graceful.md:Graceful", "examples/modules/graceful/graceful-stop/README.md:result", "tcpx.go:Stop", "tcpx.go:closeAllConnection")
p("The graceful-restart example accepts, refuses, and accepts again",
  "A client of a server with one endpoint, whose user code calls Stop and Start in turn as often as it likes, is let in and accepted from the moment the server listens until the next Stop, is refused from the return of Stop until the next Start, and, if no system call fails, is let in again within two steps of the listening goroutine after Start has returned.",
  "every number of stops and starts, every interleaving of the goroutines of the server and of clients that connect",
  "interleavings of control calls and clients are not reproducible in tests",
  "examples/modules/graceful/graceful-restart/main.go:main", "examples/modules/graceful/graceful-restart/README.md:result", "tcpx.go:Stop", "tcpx.go:Start", "tcpx.go:ListenAndServeTCP")
p("Clients are refused at every endpoint once Stop has returned, and Start can bring the endpoints back",
  "When Stop has returned nil, and until another listening call is made, clients are refused at every endpoint of the server, for ever; when it has returned an error no client is let in either; and a Start after it is not refused.",
  "any number of endpoints and control calls, every interleaving with clients that connect",
  "interleavings of control calls and clients are not reproducible in tests",
  "tcpx.go:Stop", "tcpx.go:Start", "tcpx.go:ListenAndServeTCP", "tcpx.go:fillProperty", "tcpx.go:openState")
p("The validating program accepts exactly the well-formed streams",
  "A stream posted to the validating program with the name of a marshaller is answered with 200 and the message it carries exactly if it is one frame whose header decodes as JSON and whose body decodes by that marshaller; every other request is answered with 400. In particular what the Go client posts for each format is accepted, showing the user it was made from.",
  "every stream, every marshaller name, every codec",
  "all streams",
  "all-language-clients/main.go:main", "all-language-clients/go/main.go:main", "packx.go:UnpackWithMarshallerName")
p("A closed connection is served no more, and its goroutine ends",
  "Once a TCP connection has been closed by the server, by whomever (a watcher, user code, Stop), no message of it is read; its goroutine calls OnClose exactly once and goes on to CloseConn, and within 3 * d of the closing there is nothing left for it but these, if it is never more than d late. As long as the connection is open its messages are read in the order they arrived, none left out, and each is given a goroutine of its own, in that order.",
  "every run of any number of connections, handlers, watchers, clients and control calls, whatever the handlers do to connections",
  "interleavings of the goroutine of a connection, its handlers and its watchers",
  "tcpx.go:ListenAndServeTCP", "tcpx.go:heartBeatWatch", "context.go:CloseConn")
p("An unauthorised connection can use no route",
  "With authorisation in use, a message of a connection is handled only after the connection has been authorised (README-CN.md 2.9: otherwise it can use no route of the server, and is killed).",
  "every run of any number of connections, handlers, watchers and clients, every deadline",
  "interleavings of the goroutine of a connection, its handlers and its auth watcher",
  "README-CN.md:2.9", "tcpx.go:ListenAndServeTCP", "tcpx.go:auth")
p("A client that sends heartbeats keeps its connection",
  "If on a TCP connection a message whose handlers call RecvHeartBeat first arrives at least every g, with g + 9 * d less than three intervals, and the client neither hangs up nor sends what the loop does not take, then the connection is not closed for loss of heartbeat, if the goroutines concerned are never more than d late.",
  "every run of any number of connections, handlers, watchers and clients, every interval",
  "timing and interleavings of reading, handling and watching",
  "tcpx.go:ListenAndServeTCP", "tcpx.go:heartBeatWatch", "context.go:RecvHeartBeat")
p("A client that sends no heartbeats is closed, with all that belongs to it",
  "A TCP connection for which no call of RecvHeartBeat has returned is closed within three intervals and 14 * d of being accepted; 6 * d later its goroutine has called OnClose, exactly once, and has nothing left but CloseConn, and none of its watchers is left; if none of these goroutines is ever more than d late and the loss callback does not panic.",
  "every run of any number of connections, handlers, watchers and clients, every interval",
  "timing and interleavings of reading, handling and watching",
  "tcpx.go:ListenAndServeTCP", "tcpx.go:heartBeatWatch", "context.go:CloseConn")
p("A client that hangs up leaves nothing behind",
  "A TCP connection whose client hangs up (or which breaks) at t is closed by the server by t + 6 * d, after OnClose has been called for it, exactly once; and 6 * d after that, or after its watcher last received a heartbeat, none of its watchers is left; if none of these goroutines is ever more than d late and OnClose does nothing to connections.",
  "every run of any number of connections, handlers, watchers and clients, every interval",
  "timing and interleavings of reading, handling and watching",
  "tcpx.go:ListenAndServeTCP", "tcpx.go:heartBeatWatch", "context.go:CloseConn")
p("Every message is handled soon after it arrives",
  "As long as a TCP connection is open and its client has not hung up, a goroutine has been started for every message that arrived more than 2 * d ago, in the order of arrival and with nothing in between, if the goroutine of the connection is never more than d late and takes all that arrives; whatever the handlers, the watchers and other connections do.",
  "every run of any number of connections, handlers, watchers and clients",
  "timing and interleavings of reading, handling and watching",
  "tcpx.go:ListenAndServeTCP")
p("A chat client shows every message",
  "A client of the chat example shows every message the server sends to it, once, in order and under the name given in it, however the bytes are cut up on the way and whatever part of a further message follows; then it waits, or ends if the connection has ended.",
  "every sequence of messages below 2 GiB, every fragmentation, every JSON library",
  "all fragmentations of all streams",
  "examples/modules/chat/client_1/main.go:Recv", "packx.go:FirstBlockOf", "packx.go:BodyBytesOf", "packx.go:MessageIDOf")
p("A chat client sends what is typed",
  "A client of the chat example sends every line typed that is not empty, once and in order, and nothing else.",
  "every sequence of lines, every end of the input, any number of turns of the loop",
  "unbounded sequences of turns",
  "examples/modules/chat/client_1/main.go:main")
p("The clients of the other examples print every message",
  "The clients of the examples online-offline, graceful-stop and graceful-restart print the body of every message they receive, in order, however the bytes are cut up on the way.",
  "every sequence of messages, every fragmentation, every content of the buffer",
  "all fragmentations of all streams",
  "examples/modules/online-offline/client/client.go:Recv", "examples/modules/graceful/graceful-stop/client/client.go:Recv", "packx.go:BodyBytesOf")

p("The server is never stuck, and only time makes it late",
  "Whatever the clients, the handlers and the watchers of a server have done, its goroutines can go on by themselves, without time passing, until every TCP connection is done with: closed by the server with OnClose called once if set, or still open with every message that arrived read and its goroutine started. Nothing but the passing of time makes any of them late, and they can always go on so that any time passes and none of them is.",
  "every run of any number of connections, handlers, watchers and clients; every lateness allowed",
  "absence of deadlock over all interleavings",
  "tcpx.go:ListenAndServeTCP", "tcpx.go:heartBeatWatch", "tcpx.go:broadcastSignalWatch", "context.go:RecvHeartBeat", "context.go:CloseConn")

p("Bytes that arrive in any pieces at any times are read as if they had come at once, and in time",
  "However the bytes of a TCP connection are cut up, whenever they arrive and however many each Read returns: at every moment the goroutines started are those called for by the frames read so far, in order, none before its last byte has arrived; the goroutines called for by the frames that have arrived completely by T have been started by T + 2 * d, and 4 * d after the connection was closed, by whomever, the loop is left, if the goroutine of the connection is never more than d late. It is never stuck, and only time makes it late.",
  "every sequence and timing of arrivals, every result of every Read, every JSON library, every limit",
  "all fragmentations and timings of all streams",
  "tcpx.go:ListenAndServeTCP", "packx.go:readUntil", "packx.go:UnpackToBlockFromReaderLimitMaxLengthOfByte", "packx.go:FirstBlockOfLimitMaxByte")

p("Several goroutines may register handlers and middlewares at the same time",
  "However the steps of several goroutines that register handlers, middlewares and URL patterns are mixed: no two of them access the same memory at once with one of them writing, none of them is stuck, and all calls end. Of several calls of AddHandler for one id exactly one returns and the others panic; afterwards a message with the id is given to what the call that returned gave for it, behind all global middlewares, those of each goroutine in its order, and the middlewares in use: among them all that the same goroutine has put in use before. A URL pattern registered by one call has the handlers of that call, behind the same middlewares. Of two calls of Use with one key the second panics.",
  "every number of goroutines, every sequence of calls of each, every schedule of their single memory accesses",
  "all interleavings of all registrations",
  "tcpx.go:AddHandler", "tcpx.go:UseGlobal", "tcpx.go:Use", "tcpx.go:Any", "mux.go:AddHandleFunc", "mux.go:AddMessageIDSelfMiddleware", "mux.go:AddMessageIDAnchor", "mux.go:AddGlobalMiddleware", "url-mux.go:AddURLPatternHandler")
p("Registration and the handling of messages do not disturb each other",
  "After ListenAndServe the mux is locked, as the message of AddHandleFunc says, or else registration while messages are handled does no harm: dispatching messages at the same time never clashes with it, does not panic, gives a message with an id or URL pattern registered before to what it was given to before, and never gives a message to a handler without the middlewares that guard it.",
  "every number of goroutines registering and dispatching, every schedule of their single memory accesses",
  "all interleavings of registration and dispatch",
  "tcpx.go:handleMessageIDHandlers", "tcpx.go:handleURLPatternHandlers", "tcpx.go:AddHandler", "mux.go:AddHandleFunc", "tcpx.go:ListenAndServe", "mux.go:AnchorIndexOfMessageID")

p("The online-offline example prints what has happened",
  "However the messages to the server of the online-offline example are handled: when it prints `online success` the user of the message has been put online on its connection, and when it prints `offline success` the user has been taken out; when the handler of a logout is over, nobody has been online under the name of its connection at some time since the handler began, or the connection had no name.",
  "every number of connections, logins, logouts and closings, every schedule of their handlers",
  "all interleavings of handlers and closings; the output is not checked by tests",
  "examples/modules/online-offline/server/server.go:online", "examples/modules/online-offline/server/server.go:offline", "context.go:Online", "context.go:Offline")

p("A client of the guarded login shows the token or the reason",
  "A client of the middleware examples shows, for every answer of the server, once and in order, the token if the login has succeeded and otherwise the reason why it was refused, however the bytes of the answers are cut up on the way.",
  "every list of requests and results of decoding them, every fragmentation of the answers, every end of the connection",
  "all requests, errors and fragmentations",
  "examples/modules/middleware/anchor-middleware/client/main.go:Recv", "examples/modules/middleware/router-middleware/client/main.go:Recv", "examples/modules/middleware/anchor-middleware/main.go:login", "examples/modules/middleware/anchor-middleware/main.go:beforeLogin")

p("The sayHello server answers its clients, and the client prints the answers",
  "Over a connection of the sayHello server, along every schedule, each message with id 1, 3 or 5 whose body is a text is answered exactly once, with id 2, 4 or 6 and the text of its handler, each protobuf request with id 11 with id 12, and nothing else is sent. The client of the example, which writes its message n times, prints the answer n times, whatever pieces the bytes come in, and nothing else.",
  "all lists of messages below 2 GiB and the limit of the server, bodies, header entries (other than the pipe marker) and marshallers, fragmentations in both directions, schedules and other connections",
  "the requests of a connection run as goroutines of their own whose replies can be interleaved in any order; a test sees one order",
  "examples/sayHello/server/main.go:SayHello", "examples/sayHello/server/main.go:SayGoodBye", "examples/sayHello/server/main.go:SayName", "examples/sayHello/server/main.go:SayHelloProtobuf", "examples/sayHello/client/main.go:main", "context.go:Reply", "context.go:ProtoBuf")

p("The clients of the auth example have the fates their comments say",
  "Of the clients of the auth example, the one with the right credentials (ValidClient) is let in and stays connected; the one that signs with another secret (InvalidClient) receives the text that its signature is wrong, and its connection is closed at once; the one that sends nothing (ClientAuthTimeout) is disconnected after thirty seconds. Each prints all that the server sends it, and ends when the connection does.",
  "every hash, every codec of credentials, every fragmentation in both directions, every interleaving and timing of the server in which the auth watcher is prompt, all other connections",
  "all timings around the deadline of thirty seconds, beside any other connections",
  "examples/modules/auth/client/main.go:ValidClient", "examples/modules/auth/client/main.go:InvalidClient", "examples/modules/auth/client/main.go:ClientAuthTimeout", "examples/modules/auth/client/main.go:Recv", "examples/modules/auth/client/main.go:Encrypt", "examples/modules/auth/server/main.go:main")

p("The helloworld server prints every text its clients send",
  "The server of the helloworld example prints every text its clients send with PackWithMarshaller, each once and whole, and prints nothing else, however many clients and messages there are and whatever pieces the bytes arrive in; messages are given to OnMessage whatever their id or header says.",
  "every number of clients, every list of texts of each (below 2 GiB when packed), every fragmentation and end of the connections, every order in which the goroutines of the messages run",
  "all texts, fragmentations and interleavings",
  "examples/modules/helloworld/server/server.go:main", "examples/modules/helloworld/client/main.go:main", "tcpx.go:handleOnMessage", "context.go:Bind", "packx.go:PackWithMarshaller")

p("A UDP server answers every message once, to its sender",
  "Datagrams reach a UDP server from any senders. Handling starts for each datagram that holds a message, with that message and the address of its sender. If the handlers of each message send one answer or none, then along every schedule what the server sends are the answers of distinct messages, whole, each to the sender of its message, and nothing else; and every message that is owed an answer and whose handling has returned has been answered. Messages by id and by URL pattern can be mixed freely. So the sayHello server answers, over UDP, each message that asks for it.",
  "all datagrams and senders, buffer sizes, registrations and handlers, schedules, and other requests running beside them",
  "the answers to datagrams of different senders can be interleaved in any order; a test sees one order",
  "tcpx.go:ListenAndServeUDP", "tcpx.go:ReadAllUDP", "context.go:NewUDPContext", "context.go:replyBuf", "tcpx.go:handleMiddleware")

p("The tls example listens with its certificate only, and runs its handler once for every client",
  "The server of the tls example listens with the certificate it has loaded and never without one. Each client of the example, whatever pieces its bytes arrive in, has its message given once to the handler for \"/login/\" and to nothing else; its connection then ends, and handling it does not panic.",
  "every outcome of loading the certificate and of listening, every number of clients, every fragmentation, every schedule, beside any other connections",
  "all fragmentations and interleavings of any number of clients",
  "examples/modules/tls/server/main.go:main", "examples/modules/tls/client/main.go:main", "tcpx.go:LoadTLSFile", "tls.go:newListener", "message.go:NewURLPatternMessage")
p("Reply uses the server's marshaller, ReplyWithMarshaller the one it is given",
  "ctx.Reply puts on the wire a single frame with the requested id whose header is the merge of the header arguments and whose body is the source encoded by the server's own marshaller; ctx.ReplyWithMarshaller uses the marshaller it is given, JSON if that is nil. If header or source cannot be encoded nothing is written; in that case, and if the connection fails, an error is returned.",
  "every marshaller, id, value and headers that give less than 4 GiB, every behaviour of the connection",
  "all combinations of user-supplied marshallers, headers and connection failures",
  "context.go:Reply", "context.go:ReplyWithMarshaller", "context.go:commonReplyWithMarshaller", "context.go:replyBuf", "packx.go:NewPackx")
p("What a chat client shows was written to its user, and every message to a user who is online is shown",
  "In the chat example, a client shows exactly one line for each message that has arrived whole, in the order in which they were written to it, and every line is due to a different message to a user: it is the text of a message addressed to a name under which this client was online while the message was handled, or says that a user to whom this client has written is offline. A message to a user who is online, handled without interruption, is the next line that this user's client shows.",
  "any number of users logging in, logging out, writing and leaving, every interleaving of the goroutines of the server, every fragmentation of the bytes on the way",
  "all interleavings of handlers and all fragmentations, from the handlers of one process to the lines of another",
  "examples/modules/chat/server/main.go:send", "examples/modules/chat/client_1/main.go:Recv", "context.go:SendToUsername", "context.go:SendToConn", "client-pool.go:GetClientPool")

p("The internal write function transmits the buffer exactly once",
  "write(conn, buf) with nil error has transmitted exactly buf, for every connection, including ones that accept fewer bytes than asked per call; it writes nothing for an empty buffer, never reports success with fewer bytes transmitted than the buffer has, and stops at the first error of Write and returns it.",
  "every buffer and every sequence of per-call accepted counts and failures",
  "all short-write patterns; nothing in the repository calls the function",
  "utils.go:write")
p("A Request keeps the last value set under each key",
  "After any calls of Set on a Request, also one whose header map is nil, each key holds the value last set under it, other keys are as before, and the URL and the body are unchanged; a new Request has the URL and reader it was made of and no header.",
  "every request, every sequence of keys and values",
  "all sequences of keys; nothing in the repository calls these functions",
  "request.go:NewRequest", "request.go:Set")
p("The OnMessage function of the sayHello example answers ids 7 and 9 and nothing else",
  "In the sayHello server with its OnMessage function in use, every message, whatever router type its header asks for, goes through the global and both other middlewares (also the one ended by UnUse) and then to OnMessage, once. A message with id 7 is answered with a message 8 and one with id 9 with a message 10, once each, whether or not its body can be bound; no other message is answered, and no handling panics.",
  "every list of messages below 2 GiB and the limit of the server with any ids, headers (without pipe marker), bodies and marshallers, every fragmentation, every schedule, beside any other connections",
  "all interleavings of the messages of several connections; the example has the function's use commented out",
  "examples/sayHello/server/main.go:OnMessage", "tcpx.go:handleOnMessage", "context.go:Reply", "context.go:JSON", "packx.go:MessageIDOf")
p("The server of the my-marshal example prints what its client sends, each message by its own handler",
  "Of the three messages that the client of the my-marshal example writes, those that have arrived whole, and nothing else, start the handling of a message on the server, whatever part of the bytes arrives. Each is given once to the handler of its own id and to no other, which prints this id and the text sent, and does not panic, although the three handlers decode the body in three different ways.",
  "every text (below 2 GiB and the limit of the server when packed), every part of the client's bytes and every fragmentation of it, every schedule, beside any other connections",
  "all cuts of the stream and all interleavings, for three ways of decoding a body with a marshaller of the user",
  "examples/modules/my-marshal/client/main.go:main", "examples/modules/my-marshal/server/main.go:main", "examples/modules/my-marshal/marshaller/marshaller.go:ByteMarshaller", "context.go:Bind", "packx.go:PackWithMarshaller")
p("The guarded login answers every message as its key and its body deserve, and its client is shown the token",
  "Every message sent to the login of the two middleware examples is answered once, whole, and without a panic: with id 403 and the text for a missing key if its sender put no Authorization into the header, with id 403 and the text for a wrong key if the value there is anything but the secret key, with the token if the key is right and the body can be bound, and otherwise with the error text. No other bytes leave the server on this connection. The message of the examples' own client is answered with the token, and the client, in whatever pieces the answer reaches it, shows this token once and nothing else.",
  "every list of messages with id 1 below 2 GiB and the limit of the server with any headers (without routing entries and pipe marker), bodies and marshallers, every fragmentation, every schedule, beside any other connections, both servers; a Write takes a whole answer",
  "all interleavings of the messages of several connections, for all header values of all types",
  "examples/modules/middleware/anchor-middleware/main.go:beforeLogin", "examples/modules/middleware/anchor-middleware/main.go:login", "examples/modules/middleware/router-middleware/main.go:main", "examples/modules/middleware/anchor-middleware/client/main.go:main", "examples/modules/middleware/anchor-middleware/client/main.go:Recv", "context.go:JSON", "context.go:Bind", "packx.go:HeaderOf")
p("RouteTypeOf and URLPatternOf tell what the sender put into the header, and where the message goes",
  "Of every packed message RouteTypeOf and URLPatternOf return the text that its sender put into the header under Router-Type and Router-Pattern-Value, the empty text if there is nothing, and an error if what is there is no text. This agrees with how a server routes the message: by its id if the type is MESSAGE_ID or is no text, by the pattern told if the type is URL_PATTERN (and to no handler if the pattern is no text), and as an unknown type for any other type that is not empty. An empty answer leaves open whether the type is missing (then the id decides) or is the empty text (which is unknown).",
  "every packed message below 2 GiB with any id, header (without pipe marker), body and marshaller, whatever bytes follow it in memory",
  "all header values of all types through encode and decode",
  "packx.go:RouteTypeOf", "packx.go:URLPatternOf", "utils.go:headerGetString", "context.go:routerType", "message.go:NewMessage", "message.go:NewURLPatternMessage")

out = os.path.join(os.path.dirname(os.path.abspath(__file__)), "..", "properties.jsonl")
with open(out, "w") as f:
    for q in P:
        f.write(json.dumps(q) + "\n")
