{"id": "C01", "title": "Packed frame has the documented layout", "statement": "Whenever Pack / PackWithMarshaller succeeds, the returned bytes are exactly: 4-byte big-endian count of the bytes that follow, 4-byte big-endian message id, 4-byte big-endian header length, 4-byte big-endian body length, the JSON of the header, the marshalled body.", "quantifier": "every int32 message id, every header, every body and marshaller whose total size fits the 32-bit length field", "why_tests_cant": "the id, sizes and contents are unbounded; a test fixes a handful of ids and bodies and never a negative id together with large sizes", "anchors": ["packx.go:PackWithMarshaller", "packx.go:Packx.Pack", "README.md#pack"]}
{"id": "C02", "title": "Frame accessors recover what was packed", "statement": "On a packed frame (of less than 2^31 bytes) LengthOf, MessageIDOf, HeaderLengthOf, BodyLengthOf, HeaderBytesOf and BodyBytesOf return the packed length, id, header length, body length, header bytes and body bytes, even if further bytes follow the frame.", "quantifier": "every message id (negative included), header bytes and body bytes of together less than 2 GiB, trailing bytes", "why_tests_cant": "holds for all sizes and all ids; a sample cannot show that no size or sign corrupts a field", "anchors": ["packx.go:LengthOf", "packx.go:MessageIDOf", "packx.go:HeaderLengthOf", "packx.go:BodyLengthOf", "packx.go:HeaderBytesOf", "packx.go:BodyBytesOf"]}
{"id": "C03", "title": "Unpack inverts Pack", "statement": "Unpacking a packed message with the same marshaller yields the same message id, the decoded header and the body value, for every marshaller that decodes its own encoding, and also when the buffer continues with other data; a value whose encoding is empty is the one left in a fresh destination.", "quantifier": "every message of less than 4 GiB when packed, every marshaller, destination and trailing data", "why_tests_cant": "quantifies over all marshallers (user supplied) and all bodies", "anchors": ["packx.go:PackWithMarshaller", "packx.go:UnpackWithMarshaller", "packx.go:Packx.Unpack"]}
{"id": "C04", "title": "Signal frames carry no body", "statement": "A message with a nil body (including PackStuff(id) and PackHeartbeat()) packs to a frame with body length 0, and unpacking it succeeds and leaves the destination value untouched.", "quantifier": "every message id, header of less than 4 GiB when encoded, and destination value", "why_tests_cant": "needs all ids and all prior destination contents", "anchors": ["packx.go:PackStuff", "packx.go:PackHeartbeat", "packx.go:UnpackWithMarshaller"]}
{"id": "C05", "title": "PackWithBody carries the given bytes verbatim", "statement": "PackWithBody(id, body, headers...) equals Pack(id, v, headers...) whenever the marshaller turns v into body, and BodyBytesOf returns body unchanged.", "quantifier": "every id, body byte string and header list, of together less than 2 GiB", "why_tests_cant": "all byte strings, including ones that are not valid encodings", "anchors": ["packx.go:Packx.PackWithBody", "packx.go:PackWithMarshallerAndBody"]}
{"id": "C06", "title": "Several header maps merge, last one wins", "statement": "When Pack is given several header maps, a key of the encoded header has the value given by the last map that contains the key, and no other key appears.", "quantifier": "every list of header maps", "why_tests_cant": "all overlaps of arbitrarily many maps, and every map iteration order", "anchors": ["packx.go:Packx.Pack", "packx.go:Packx.PackWithBody"]}
{"id": "C07", "title": "Frames are self-delimiting", "statement": "Concatenated packed frames can be cut back into exactly the original frames; two different sequences of frames never produce the same byte stream.", "quantifier": "every finite sequence of packed messages, each less than 4 GiB", "why_tests_cant": "unique decodability is a statement about all pairs of sequences", "anchors": ["packx.go:FirstBlockOfBytes", "packx.go:FirstBlockOf"]}
{"id": "C08", "title": "Reading a block does not depend on fragmentation", "statement": "FirstBlockOf(reader) returns the same block and leaves the same bytes unread however the transport splits the stream into reads (including empty reads; the end of the stream reported apart from data, see C17), and it consumes exactly 4 + length bytes; a length of 2^31 or more makes it panic, again however the stream is split (see C12).", "quantifier": "every byte stream and every way of splitting it into read results", "why_tests_cant": "exponentially many fragmentations; tests use one", "anchors": ["packx.go:UnpackToBlockFromReader", "packx.go:readUntil"]}
{"id": "C09", "title": "A truncated stream never yields a block", "statement": "If the stream ends or fails before 4 + length bytes have arrived, length being less than 2^31, FirstBlockOf and UnPackFromReader return an error and no block; when the stream has ended the error is io.EOF.", "quantifier": "every truncation point of every frame that announces less than 2 GiB (for others see C12) and every fragmentation", "why_tests_cant": "every crash point of the sender", "anchors": ["packx.go:UnpackToBlockFromReader", "packx.go:readUntil"]}
{"id": "C10", "title": "The message size limit is enforced before reading the payload", "statement": "With SetMaxBytePerMessage(n), n > 0, no block with more than n payload bytes is ever returned, a frame announcing more than n (and less than 2^31) bytes is rejected after its 4 length bytes only, and a frame announcing at most n bytes is read exactly as without a limit; n <= 0 means no limit.", "quantifier": "every limit, announced length, stream and fragmentation", "why_tests_cant": "adversarial lengths over the whole 32-bit range", "anchors": ["packx.go:UnpackToBlockFromReaderLimitMaxLengthOfByte", "packx.go:FirstBlockOfLimitMaxByte", "tcpx.go:SetMaxBytePerMessage"]}
{"id": "C11", "title": "Accessors are total on arbitrary bytes", "statement": "For any byte string whatsoever, LengthOf, MessageIDOf, HeaderLengthOf, BodyLengthOf, HeaderBytesOf and BodyBytesOf return either an error or a sub-slice of the input; they never panic.", "quantifier": "every byte string", "why_tests_cant": "attacker-controlled input space", "anchors": ["packx.go:HeaderBytesOf", "packx.go:BodyBytesOf", "packx.go:HeaderOf"]}
{"id": "C12", "title": "An announced length never crashes the reader", "statement": "Whatever 4 length bytes arrive, FirstBlockOf / Recv / FirstBlockOfLimitMaxByte returns a block or an error, it never panics in the caller.", "quantifier": "every 32-bit announced length and every continuation of the stream", "why_tests_cant": "needs the whole 32-bit range, half of which is misread as negative", "anchors": ["packx.go:UnpackToBlockFromReader", "utils.go:Recv"]}
{"id": "C13", "title": "Unpack never misreads", "statement": "If Unpack returns successfully, the header was decoded from exactly the declared header bytes, the body from exactly the declared body bytes that follow, inside the buffer, and the id is the declared id, for any input bytes, declared lengths and spare capacity of the slice.", "quantifier": "every byte slice (with any spare capacity), marshaller and destination", "why_tests_cant": "32-bit wrap-around and slice capacity corner cases are not reachable by sampling", "anchors": ["packx.go:UnpackWithMarshaller"]}
{"id": "C14", "title": "FirstBlockOfBytes returns an exact prefix or an error", "statement": "FirstBlockOfBytes(buf) fails exactly when buf has fewer than 16 bytes or fewer than 4 + length bytes; otherwise it returns precisely the first 4 + length bytes. It never panics.", "quantifier": "every byte string", "why_tests_cant": "every announced length against every buffer length", "anchors": ["packx.go:FirstBlockOfBytes"]}
{"id": "C15", "title": "Marshaller names are resolved consistently", "statement": "PackWithMarshallerName, UnpackWithMarshallerName and GetMarshallerByMarshalName accept exactly the same names (json, xml, toml/tml, yaml/yml, protobuf/proto), resolve a name to the same marshaller, and reject every other name without output.", "quantifier": "every string used as marshaller name", "why_tests_cant": "all strings", "anchors": ["packx.go:PackWithMarshallerName", "packx.go:UnpackWithMarshallerName", "marshaller.go:GetMarshallerByMarshalName"]}
{"id": "C16", "title": "Format-specific replies use the requested format", "statement": "ctx.JSON / XML / TOML / YAML / ProtoBuf put on the wire a single frame with the requested id whose body is the source encoded by a marshaller with the requested name, whatever marshaller the server was built with, and write nothing if encoding fails.", "quantifier": "every server marshaller, id, value and headers that give less than 4 GiB", "why_tests_cant": "all combinations of server marshaller and reply format, user-supplied marshallers included", "anchors": ["context.go:commonReply", "context.go:JSON", "context.go:ProtoBuf"]}
{"id": "C17", "title": "Data delivered together with end-of-stream is not lost", "statement": "If the transport reports the last bytes of a frame together with io.EOF (as io.Reader allows and TLS connections do), the frame is still returned.", "quantifier": "every stream and fragmentation", "why_tests_cant": "depends on the exact way the last read is reported", "anchors": ["packx.go:readUntil"]}
{"id": "C18", "title": "WriteConn transmits the buffer exactly once", "statement": "WriteConn(buf, conn) with nil error has transmitted exactly buf, for every connection, including ones that accept fewer bytes than asked per call.", "quantifier": "every buffer and every sequence of per-call accepted counts", "why_tests_cant": "all short-write patterns", "anchors": ["utils.go:WriteConn"]}
{"id": "C19", "title": "PipeJSON writes one well-formed group", "statement": "PipeJSON(conn, id1, v1, ..., idn, vn) writes, in one call, the n frames in order where exactly the first one carries the pipe marker 'enable;n'; if any argument is ill-typed or cannot be encoded nothing is written and an error is returned; with no arguments nothing is written.", "quantifier": "every argument list", "why_tests_cant": "all lengths and all positions of a bad argument", "anchors": ["utils.go:PipeJSON"]}
{"id": "C20", "title": "A piped group is received whole and in order", "statement": "A TCP server that receives the bytes of a PipeJSON call, in any fragmentation and followed by any further traffic, forms one group of exactly those n messages in order and does not swallow or split the following message.", "quantifier": "every n from 1 to 2^45, message contents below 2 GiB and the limit of the server, fragmentation, following traffic", "why_tests_cant": "round trip through decimal count, JSON header, framing, any fragmentation", "anchors": ["utils.go:PipeJSON", "tcpx.go:isPipe", "tcpx.go:ListenAndServeTCP"]}
{"id": "C21", "title": "Piped messages are handled strictly one after another", "statement": "The handlers of the messages of a piped group run sequentially in the order sent: no handler of message i+1 starts before message i is finished.", "quantifier": "every group, registration and schedule", "why_tests_cant": "ordering over all schedules", "anchors": ["tcpx.go:handlePipe", "tcpx.go:ListenAndServeTCP"]}
{"id": "C22", "title": "An incomplete piped group cannot crash the server", "statement": "A client that announces a piped group and then disconnects, stalls or sends garbage before the group is complete can at most lose its own connection.", "quantifier": "every announced count and every prefix of the group", "why_tests_cant": "every crash point of the client", "anchors": ["tcpx.go:ListenAndServeTCP", "tcpx.go:handlePipe", "tcpx.go:handleMiddleware"]}
{"id": "C23", "title": "A non-positive pipe count is refused", "statement": "A message whose pipe marker announces zero or a negative number of messages is not dispatched to any handler and its connection is closed; the server keeps running.", "quantifier": "every count <= 0 and every surrounding traffic", "why_tests_cant": "all integers", "anchors": ["tcpx.go:isPipe", "tcpx.go:ListenAndServeTCP"]}
{"id": "C24", "title": "Malformed pipe markers are refused", "statement": "A pipe marker that is not a string, not of the form a;b, or whose count is not a decimal int closes the connection without dispatching; a well-formed marker whose first part is not 'enable' is ignored and the message handled normally.", "quantifier": "every header and marker string", "why_tests_cant": "all strings", "anchors": ["tcpx.go:isPipe"]}
{"id": "C25", "title": "A message id has at most one handler", "statement": "Registering a second handler for a message id panics and leaves the first handler, its middlewares and every other route as they were.", "quantifier": "every registration history", "why_tests_cant": "all histories, including ones continuing after a recovered panic", "anchors": ["tcpx.go:AddHandler", "mux.go:AddHandleFunc"]}
{"id": "C26", "title": "Messages are routed to their own handler", "statement": "A message-id message runs the handler registered for its id, exactly one routed handler; a message whose id has no handler runs nothing.", "quantifier": "every registration history and every message id", "why_tests_cant": "all histories and ids", "anchors": ["tcpx.go:handleMessageIDHandlers", "tcpx.go:AddHandler"]}
{"id": "C27", "title": "Middleware order is global, anchor, self, handler", "statement": "For a routed message the chain is: all global middlewares in registration order, then the anchor middlewares in effect in order of first Use, then the handler's own middlewares in the order given to AddHandler, then the handler.", "quantifier": "every registration history and every registered id", "why_tests_cant": "all interleavings of UseGlobal / Use / UnUse / AddHandler", "anchors": ["tcpx.go:handleMessageIDHandlers", "mux.go", "markdowns/have-fun.md"]}
{"id": "C28", "title": "Anchor middleware covers exactly the handlers registered between Use and UnUse", "statement": "An anchor middleware applies to a handler if and only if the handler was registered while the middleware was in use: after a Use of its key and before the next UnUse of that key (or with no later UnUse).", "quantifier": "every registration history and every handler", "why_tests_cant": "all interleavings of Use / UnUse / AddHandler / Any, including re-use of a key", "anchors": ["anchor.go:Contains", "tcpx.go:Use", "tcpx.go:UnUse", "mux.go:ReplaceMiddlewareAnchor"]}
{"id": "C29", "title": "Use / UnUse discipline is enforced and startup accepts what it allowed", "statement": "Use of a key already in use panics, as does Use with arguments that are not pairs of key and middleware, and UnUse of a key not in use; none of these changes which middlewares later apply to which handlers, except that the pairs and keys of the call that come before the refused one count as calls of their own; and after any history of registrations ListenAndServe's validity check passes.", "quantifier": "every registration history, including recovered panics", "why_tests_cant": "all histories", "anchors": ["anchor.go:callUse", "anchor.go:callUnUse", "anchor.go:checkValidBeforeRun", "tcpx.go:checkPrepare"]}
{"id": "C30", "title": "Global middleware guards every handler", "statement": "No routed handler (other than the heartbeat and auth handlers when explicitly configured to bypass middleware) runs without all global middlewares being ahead of it in the chain.", "quantifier": "every registration history, configuration and message", "why_tests_cant": "all ids and configurations; the failing id is a zero value nobody tests", "anchors": ["tcpx.go:handleMessageIDHandlers", "tcpx.go:HeartBeatMode", "tcpx.go:WithAuthDetail"]}
{"id": "C31", "title": "Heartbeat and auth bypass only when configured", "statement": "The heartbeat (auth) handler runs alone, without any middleware, exactly when its through-middleware flag is false; with the flag true it runs behind the ordinary chain.", "quantifier": "every registration history and configuration", "why_tests_cant": "all configurations", "anchors": ["tcpx.go:handleMessageIDHandlers", "tcpx.go:HeartBeatModeDetail", "tcpx.go:WithAuthDetail"]}
{"id": "C32", "title": "OnMessage replaces routing", "statement": "When OnMessage is set every message runs all global middlewares, all anchor middlewares ever used (whether or not UnUsed) and OnMessage, and never a routed handler, whatever its id or header.", "quantifier": "every registration history and message", "why_tests_cant": "all histories", "anchors": ["tcpx.go:handleOnMessage", "tcpx.go:handleMiddleware"]}
{"id": "C33", "title": "Handlers given to Any run once each", "statement": "After Any(pattern, h1, ..., hn) a message for the pattern runs globals, anchors in effect and then h1 ... hn, each exactly once.", "quantifier": "every registration history, pattern and handler list", "why_tests_cant": "all handler list lengths", "anchors": ["tcpx.go:Any", "url-mux.go:AddURLPatternHandler", "tcpx.go:handleURLPatternHandlers"]}
{"id": "C34", "title": "Router type is decided by the message header", "statement": "A message is routed by URL pattern exactly when its header has Router-Type = URL_PATTERN; it is routed by message id when the header is missing, undecodable, lacks the key, has a non-string value or says MESSAGE_ID; any other string runs no handler.", "quantifier": "every message header", "why_tests_cant": "all headers", "anchors": ["context.go:routerType", "tcpx.go:handleMiddleware"]}
{"id": "C35", "title": "Routing of a message does not depend on earlier messages of the connection", "statement": "Each message is routed according to its own header, whatever messages came before it on the connection and however their handlers are scheduled.", "quantifier": "every history of messages on a connection and every schedule of their handlers", "why_tests_cant": "histories and schedules", "anchors": ["context.go:RouterType", "context.go:setRouterType", "context.go:copyContext"]}
{"id": "C36", "title": "Per-request values are private to the request", "statement": "A value stored with SetCtxPerRequest is visible to the handlers of the same request and to no other request, on the same connection or another one.", "quantifier": "every history of requests, keys and values, every schedule", "why_tests_cant": "histories and schedules", "anchors": ["context.go:SetCtxPerRequest", "context.go:copyContext"]}
{"id": "C37", "title": "URL-pattern replies carry the pattern of the request answered", "statement": "JSONURLPattern / ProtobufURLPattern / GetURLPattern use the URL pattern of the message being handled.", "quantifier": "every history of messages on a connection", "why_tests_cant": "depends on history", "anchors": ["context.go:GetURLPattern", "context.go:JSONURLPattern"]}
{"id": "C38", "title": "Every handler of a chain runs at most once, in order", "statement": "For a chain of handlers that call Next and Abort arbitrarily (nested, repeated), handlers start in chain order and each starts at most once, and the chain always terminates if the handlers do.", "quantifier": "every chain length and every behaviour of every handler with respect to Next/Abort", "why_tests_cant": "unbounded nesting", "anchors": ["context.go:Next", "context.go:Abort"]}
{"id": "C39", "title": "Without Abort every handler of a chain runs", "statement": "If no handler aborts or panics, every handler of the chain runs (exactly once), whether or not handlers call Next.", "quantifier": "every chain length and every behaviour without Abort", "why_tests_cant": "chain length is unbounded; the failing length exceeds 2019", "anchors": ["context.go:Next", "context.go:isAbort"]}
{"id": "C40", "title": "Abort prevents every later handler", "statement": "Once a handler calls Abort, no handler that has not yet started runs, even if Next is called afterwards.", "quantifier": "every chain and every behaviour", "why_tests_cant": "unbounded nesting of Next around Abort", "anchors": ["context.go:Abort", "context.go:Next", "context.go:isAbort"]}
{"id": "C41", "title": "A locked mux accepts no new routes", "statement": "After Mux.AllowAdd is set to false neither AddHandler nor Any adds or changes a route.", "quantifier": "every registration history before and after locking", "why_tests_cant": "all histories", "anchors": ["mux.go:AddHandleFunc", "mux.go:Any", "tcpx.go:Any", "url-mux.go:AddURLPatternHandler"]}
{"id": "C42", "title": "Rewriting the heartbeat handler affects no other route", "statement": "RewriteHeartBeatHandler(id, f) makes f the handler of id, removes the old heartbeat handler, and leaves every other route unchanged.", "quantifier": "every configuration and registration history", "why_tests_cant": "all configurations, including heartbeat never configured", "anchors": ["tcpx.go:RewriteHeartBeatHandler", "tcpx.go:removeHandler"]}
{"id": "C43", "title": "Closing a connection is idempotent and safe from any goroutine", "statement": "Any number of CloseConn calls on a connection, by any goroutines in any interleaving, never panic; once one has completed the connection is closed, its end channel is closed and IsOffline is true for ever.", "quantifier": "every number of callers and every schedule", "why_tests_cant": "schedules", "anchors": ["context.go:CloseConn", "utils.go:CloseChanel", "context.go:IsOffline"]}
{"id": "C44", "title": "The pool is a last-writer-wins map of online users", "statement": "After any history of pool operations GetClientPool(u) returns the context of the latest Online(u, .) not followed by an Offline/Delete of u, and nil if there is none.", "quantifier": "every history of pool operations", "why_tests_cant": "unbounded histories", "anchors": ["client-pool.go"]}
{"id": "C45", "title": "Empty or pool-less Online is refused", "statement": "ctx.Online(\"\") and ctx.Online / ctx.Offline without a pool return an error and change no pool; ctx.Offline before Online returns an error and changes no pool.", "quantifier": "every state", "why_tests_cant": "all states", "anchors": ["context.go:Online", "context.go:Offline"]}
{"id": "C46", "title": "A closed connection is not left in the pool", "statement": "After CloseConn on a context completes no pool entry refers to it.", "quantifier": "every history of Online/Offline/CloseConn calls", "why_tests_cant": "histories such as Online under two names", "anchors": ["context.go:CloseConn", "context.go:Online", "client-pool.go:Offline"]}
{"id": "C47", "title": "Closing an old connection does not log out a newer one", "statement": "If a user goes online again from a new connection under the same name, closing the old connection leaves the new one reachable under that name.", "quantifier": "every history and schedule", "why_tests_cant": "order of close and re-online", "anchors": ["context.go:CloseConn", "context.go:Offline", "client-pool.go:Offline"]}
{"id": "C48", "title": "SendToUsername reaches only a live, current session", "statement": "SendToUsername(u, ...) either writes exactly one frame to the connection most recently put online as u, that connection not being offline, or writes nothing and returns an error.", "quantifier": "every history of pool operations and closes", "why_tests_cant": "histories", "anchors": ["context.go:SendToUsername", "context.go:SendToConn"]}
{"id": "C49", "title": "Reserved keys are protected and per-connection values are shared", "statement": "SetCtxPerConn refuses (panics) exactly the string keys starting with 'tcpx-' and then changes nothing; otherwise GetCtxPerConn of that key returns the value last stored by any request of the connection.", "quantifier": "every key, value and history", "why_tests_cant": "all keys and histories", "anchors": ["context.go:SetCtxPerConn", "context.go:GetCtxPerConn"]}
{"id": "C50", "title": "The username of a connection cannot be forged by handlers", "statement": "The name returned by ctx.Username() is always the one last set with SetUsername / Online on that connection, whatever keys handlers store with SetCtxPerConn or SetCtxPerRequest.", "quantifier": "every history of context operations", "why_tests_cant": "histories and keys", "anchors": ["context.go:Username", "context.go:SetCtxPerRequest", "context.go:SetCtxPerConn"]}
{"id": "C51", "title": "Heartbeat loss is three consecutive silent intervals", "statement": "With heartbeat on, the watcher closes a TCP connection for heartbeat loss exactly when three intervals in a row elapse without a heartbeat; each heartbeat restarts the count; the loss callback runs once, before the close.", "quantifier": "every sequence of heartbeats, timeouts and signals", "why_tests_cant": "unbounded sequences", "anchors": ["tcpx.go:heartBeatWatch"]}
{"id": "C52", "title": "A UDP datagram cannot shut the server socket down", "statement": "With heartbeat on, the UDP server keeps its socket open as long as clients keep sending heartbeats.", "quantifier": "every sequence of datagrams and timeouts", "why_tests_cant": "timing and history", "anchors": ["tcpx.go:ListenAndServeUDP", "tcpx.go:heartBeatWatch", "context.go:CloseConn"]}
{"id": "C53", "title": "Auth decides the fate of the connection once", "statement": "With auth on, the auth watcher closes the connection on deadline or on RecvAuthDeny, leaves it open on RecvAuthPass, and only the first of these counts.", "quantifier": "every sequence of auth events", "why_tests_cant": "event orders", "anchors": ["tcpx.go:authWatch", "context.go:RecvAuthPass", "context.go:RecvAuthDeny"]}
{"id": "C54", "title": "Auth and heartbeat signals never block the handler", "statement": "RecvAuthPass / RecvAuthDeny / RecvHeartBeat return promptly whatever has been signalled before.", "quantifier": "every number of signals and watcher states", "why_tests_cant": "counts of repeated messages", "anchors": ["context.go:RecvAuthPass", "context.go:RecvHeartBeat", "tcpx.go:authWatch"]}
{"id": "C55", "title": "OnClose runs exactly once per connection, before it is closed by the server loop", "statement": "For every accepted TCP connection, however its read loop ends (end of stream, read error, bad frame, panic in the loop), OnClose runs exactly once, then CloseConn, and the panic does not escape.", "quantifier": "every input stream and every way of ending", "why_tests_cant": "all exit paths", "anchors": ["tcpx.go:ListenAndServeTCP"]}
{"id": "C56", "title": "Every complete message is dispatched exactly once, in arrival order", "statement": "Every complete frame with a decodable header that arrives before the first bad frame is handed to exactly one handler goroutine (alone or inside its piped group), goroutines are started in arrival order, and nothing else is dispatched.", "quantifier": "every stream and fragmentation", "why_tests_cant": "all streams", "anchors": ["tcpx.go:ListenAndServeTCP"]}
{"id": "C57", "title": "No single TCP message can crash the server process", "statement": "For every byte stream received, framework code run for a message that is not part of a piped group never panics outside a recover.", "quantifier": "every byte stream and registration history", "why_tests_cant": "attacker-controlled input", "anchors": ["tcpx.go:handleMiddleware", "tcpx.go:ListenAndServeTCP", "packx.go:HeaderOf"]}
{"id": "C58", "title": "No UDP datagram can crash the server process", "statement": "For every datagram received the UDP server ignores it or dispatches it; framework code never panics outside a recover.", "quantifier": "every datagram", "why_tests_cant": "attacker-controlled input", "anchors": ["tcpx.go:ListenAndServeUDP", "context.go:routerType", "packx.go:HeaderBytesOf"]}
{"id": "C59", "title": "A panicking handler affects only its own message", "statement": "A panic in a message handler does not terminate the server process.", "quantifier": "every handler and message", "why_tests_cant": "every panic point", "anchors": ["tcpx.go:ListenAndServeTCP", "tcpx.go:handleMiddleware"]}
{"id": "C60", "title": "Stop closes every listener", "statement": "After Stop, every listener registered by this server (tcp, tcp4, tcp6, unix, udp, udp4, ...) has been closed and the state is stopped; a second Stop returns an error and changes nothing.", "quantifier": "every set of listeners", "why_tests_cant": "all networks", "anchors": ["tcpx.go:Stop", "tcpx.go:fillProperty"]}
{"id": "C61", "title": "Stop(false) leaves connections alone", "statement": "Stop(false) closes no established connection and removes nobody from the pool.", "quantifier": "every server state", "why_tests_cant": "all states", "anchors": ["tcpx.go:Stop"]}
{"id": "C62", "title": "Stop(true) without broadcast signals closes all pooled connections", "statement": "With the built-in pool and without broadcast signals, after Stop(true) every pooled connection is eventually closed and removed, and pool operations do not block for ever.", "quantifier": "every pool content and every schedule", "why_tests_cant": "deadlock freedom over schedules", "anchors": ["tcpx.go:closeAllConnection", "context.go:CloseConn", "client-pool.go"]}
{"id": "C63", "title": "Stop(true) with broadcast signals closes all connections", "statement": "With broadcast signals on, once Stop(true) has been called every TCP connection whose watcher is then scheduled is closed, in every schedule, and no connection is closed by its watcher before that.", "quantifier": "every number of connections and every schedule", "why_tests_cant": "schedules", "anchors": ["tcpx.go:closeAllConnection", "tcpx.go:broadcastSignalWatch"]}
{"id": "C64", "title": "A restarted server accepts and keeps new connections", "statement": "After Restart(true) with broadcast signals, new connections are not closed by the shutdown of the previous run, and a later Stop(true) works again.", "quantifier": "every history of stops and starts", "why_tests_cant": "histories", "anchors": ["tcpx.go:Restart", "tcpx.go:closeAllConnection", "tcpx.go:WithBroadCastSignal"]}
{"id": "C65", "title": "Start restarts every listener", "statement": "Start on a stopped server listens again on every (network, address) pair the server was listening on.", "quantifier": "every list of listeners and every schedule of the started goroutines", "why_tests_cant": "goroutine scheduling against the loop variable", "anchors": ["tcpx.go:Start"]}
{"id": "C66", "title": "Stop and Start refuse the wrong state", "statement": "Stop on a stopped server and Start on a running one return an error and change nothing; Restart on a stopped server fails without running the beforeStart callbacks.", "quantifier": "every server state", "why_tests_cant": "all states and histories", "anchors": ["tcpx.go:Stop", "tcpx.go:Start", "tcpx.go:Restart"]}
{"id": "C67", "title": "One listener record per endpoint", "statement": "After any history of listens there is at most one record per (network, address), it holds the most recent listener, and records keep the order in which endpoints were first used.", "quantifier": "every history of listens", "why_tests_cant": "histories", "anchors": ["tcpx.go:fillProperty"]}
{"id": "C68", "title": "ListenAndServe selects the transport by network name", "statement": "ListenAndServe serves TCP exactly for tcp, tcp4, tcp6, unix, unixpacket, UDP exactly for udp, udp4, udp6, unixgram and names starting with 'ip', and returns an error for every other name.", "quantifier": "every network string", "why_tests_cant": "all strings", "anchors": ["tcpx.go:ListenAndServe", "utils.go:In"]}
{"id": "C69", "title": "In implements exact and wildcard matching", "statement": "In(s, patterns) is true exactly if some pattern without % equals s, or some pattern %x% / %x / x% has x occurring in / ending / starting s; it terminates normally for every pattern list.", "quantifier": "every string and pattern list", "why_tests_cant": "all strings", "anchors": ["utils.go:In"]}
{"id": "C70", "title": "ClientIP is the address of the peer", "statement": "ctx.ClientIP() returns the host part of the peer's address for every IPv4 and IPv6 peer.", "quantifier": "every peer address", "why_tests_cant": "all addresses", "anchors": ["context.go:ClientIP"]}
{"id": "C71", "title": "Message headers behave as a map", "statement": "msg.Get(k) returns what was last Set for k and nil for absent keys or a nil header; Set on one key changes no other key; Set works for every message.", "quantifier": "every message, key and value", "why_tests_cant": "all histories", "anchors": ["message.go:Get", "message.go:Set"]}
{"id": "C72", "title": "Built messages are routed where they say", "statement": "A message built with NewMessage(id, v) is routed by message id to id and one built with NewURLPatternMessage(p, v) is routed to pattern p, for every marshaller of the body.", "quantifier": "every id, pattern, body and marshaller", "why_tests_cant": "all ids and patterns, through encode and decode", "anchors": ["message.go:NewMessage", "message.go:NewURLPatternMessage", "context.go:routerType", "packx.go:URLPatternOf"]}
{"id": "C73", "title": "An accept error does not silently end the server", "statement": "If accepting a connection fails or OnConnect panics, the server keeps accepting, or its state says stopped so that Start can restart it.", "quantifier": "every sequence of accept results", "why_tests_cant": "fault sequences", "anchors": ["tcpx.go:ListenAndServeTCP"]}
{"id": "C74", "title": "A UDP server whose socket can no longer be read ends", "statement": "If every further read of the UDP socket fails, the read loop of ListenAndServeUDP ends (or stops consuming the processor) even if the server was not stopped.", "quantifier": "every sequence of read results", "why_tests_cant": "unbounded fault sequences", "anchors": ["tcpx.go:ListenAndServeUDP", "tcpx.go:readUDP"]}
{"id": "C75", "title": "One datagram is one message", "statement": "For every datagram received before the server ends, exactly its first frame is dispatched if the datagram holds it completely within the configured buffer, otherwise nothing; datagrams are dispatched in the order of arrival, and failed reads in between lose nothing.", "quantifier": "every sequence of datagrams and read errors, every buffer size", "why_tests_cant": "all datagrams and sequences", "anchors": ["tcpx.go:ListenAndServeUDP", "tcpx.go:readUDP", "packx.go:FirstBlockOfBytes"]}
{"id": "C76", "title": "Deadlines configured on the server apply to new sockets", "statement": "After any sequence of SetDeadline, SetReadDeadline and SetWriteDeadline on the server, a new connection has the read (write) deadline that was last asked for by SetDeadline or SetReadDeadline (SetWriteDeadline).", "quantifier": "every sequence of setter calls", "why_tests_cant": "all call sequences", "anchors": ["tcpx.go:SetDeadline", "tcpx.go:SetReadDeadline", "tcpx.go:SetWriteDeadline", "tcpx.go:ListenAndServeTCP"]}
{"id": "C77", "title": "The deadline setters of a context affect only its own peer", "statement": "SetDeadline, SetReadDeadline and SetWriteDeadline of a context set the deadline for the traffic of its own peer and change nothing for any other peer.", "quantifier": "every pair of contexts of a server, every call", "why_tests_cant": "all pairs of connections", "anchors": ["context.go:SetDeadline", "context.go:SetReadDeadline", "context.go:SetWriteDeadline"]}
{"id": "C78", "title": "A raw connection runs its chain once and is then closed", "statement": "A connection of ListenAndServeRaw calls the global middlewares, all anchor middlewares ever used, then HandleRaw, in this order and each at most once (all of them unless one aborts or panics); afterwards OnClose is called once, then the connection is closed, and no panic ends the process.", "quantifier": "every registration history, every behaviour of handlers and OnClose", "why_tests_cant": "all handler behaviours and panics", "anchors": ["tcpx.go:ListenAndServeRaw", "tcpx.go:handleRaw", "context.go:Next"]}
{"id": "C79", "title": "Overlapping calls of Stop do not disturb each other", "statement": "However calls of Stop, Start and ListenAndServe overlap, at most one call of Stop per period of running returns nil, and none panics.", "quantifier": "every interleaving of any number of control calls", "why_tests_cant": "interleavings of control calls are not reproducible in tests", "anchors": ["tcpx.go:Stop", "tcpx.go:closeAllConnection", "tcpx.go:openState", "tcpx.go:stopState"]}
{"id": "C80", "title": "Stop takes effect on listening calls begun before it", "statement": "Once Stop has returned nil, the server stays stopped and accepts no connection until another call that listens is begun; and Stop is not refused if a call begun before it is still going to accept connections.", "quantifier": "every interleaving of any number of control calls", "why_tests_cant": "interleavings of control calls are not reproducible in tests", "anchors": ["tcpx.go:Stop", "tcpx.go:Start", "tcpx.go:ListenAndServeTCP", "tcpx.go:fillProperty", "tcpx.go:openState"]}
{"id": "C81", "title": "What a client packs and sends is what the addressed handlers bind", "statement": "Any number of messages packed by a client and sent over a connection start one request each, in order, for every fragmentation of the bytes; along every schedule each request is given exactly once to the handlers registered for the id or pattern the client addressed, and there MessageIDOf, HeaderOf, RawStream and Bind return what the client packed.", "quantifier": "every list of messages, marshaller, fragmentation, server registration and interleaving of requests", "why_tests_cant": "the composition of packing, fragmentation, framing, concurrency and routing cannot be covered by sampling", "anchors": ["packx.go:PackWithMarshaller", "tcpx.go:ListenAndServeTCP", "tcpx.go:handleMiddleware", "context.go:Bind", "context.go:BindWithMarshaller", "context.go:RawStream"]}
{"id": "C82", "title": "Client functions send one frame and read frames one by one", "statement": "WriteJSON and TCPCallOnceJSON hand exactly one frame with the given id and body to the connection or report an error; TCPCallOnceJSON always closes its connection; successive calls of Recv return the successive frames; the methods of PackType return what the sender packed.", "quantifier": "every message below 4 GiB (below 2 GiB where it is read again), every outcome of dialling and writing, every fragmentation", "why_tests_cant": "all outcomes and fragmentations", "anchors": ["utils.go:WriteJSON", "utils.go:TCPCallOnceJSON", "utils.go:Recv", "pack-type.go:BindJSON", "pack-type.go:BindXML", "pack-type.go:URLPattern", "pack-type.go:MessageID"]}
{"id": "C83", "title": "Replies of concurrent handlers are not mixed up", "statement": "Whatever replies the handlers of a connection make concurrently, the peer receives exactly the frames of the replies that reported success, each whole, one after the other.", "quantifier": "every set and order of replies, every outcome of the writes", "why_tests_cant": "partial writes and interleavings are not reproducible in tests", "anchors": ["context.go:commonReply", "context.go:replyBuf", "context.go:JSON"]}
{"id": "C84", "title": "Loss of heartbeat is detected on time", "statement": "No connection is closed for loss of heartbeat before three intervals have passed since it was accepted or its watcher last received a heartbeat; and if the watcher is never more than d late, a connection still open has been heard of within the last three intervals and 14 d, unless the loss callback panicked.", "quantifier": "every run of connections, watchers and user goroutines, with any delays; every interval and d", "why_tests_cant": "timing of goroutines cannot be controlled in tests", "anchors": ["tcpx.go:heartBeatWatch", "context.go:RecvHeartBeat"]}
{"id": "C85", "title": "Heartbeats in time keep a connection", "statement": "If the watcher is never more than d late (d less than an interval) and a call of RecvHeartBeat returns at least every g, with g + d less than three intervals, the connection is not closed for loss of heartbeat.", "quantifier": "every run of connections, watchers and user goroutines, with any delays; every interval, g and d", "why_tests_cant": "timing of goroutines cannot be controlled in tests", "anchors": ["tcpx.go:heartBeatWatch", "context.go:RecvHeartBeat"]}
{"id": "C86", "title": "The auth deadline is kept", "statement": "No connection is closed for the auth deadline before the deadline has passed since it was accepted; if the auth watcher is never more than d late, a TCP connection open for longer than the deadline and 3 d has been let in, no connection is closed for the deadline for which RecvAuthPass or RecvAuthDeny had returned more than 2 d before it, and one still open 3 d after such a call returned has been let in.", "quantifier": "every run of connections, watchers and user goroutines, with any delays; every deadline and d", "why_tests_cant": "timing of goroutines cannot be controlled in tests", "anchors": ["tcpx.go:authWatch", "context.go:RecvAuthPass", "context.go:RecvAuthDeny"]}
{"id": "C87", "title": "Callbacks before exit run before the process exits", "statement": "When a process that called BeforeExit receives SIGINT, SIGTERM or SIGQUIT, all callbacks are called, in order, each once, and then the process exits; no callback is called before a signal arrives.", "quantifier": "every number of calls and callbacks, every behaviour of the callbacks, every schedule of signals and goroutines", "why_tests_cant": "signals at every moment, including between registration and reception", "anchors": ["tcpx.go:BeforeExit"]}
{"id": "C88", "title": "Defer hands every panic to every handler", "statement": "Defer(f, handlers...) returns normally whatever f does; if f panics all handlers are called in order, otherwise none.", "quantifier": "every f and every list of handlers", "why_tests_cant": "all behaviours of f and of the handlers", "anchors": ["utils.go:Defer", "utils.go:CloseChanel"]}
{"id": "C89", "title": "A listening call returns an error exactly if it cannot listen", "statement": "ListenAndServe returns an error if the network is unknown or listening fails, and otherwise returns nil once the server has been stopped or its listener fails; it does not panic.", "quantifier": "every network name, every outcome of listening, every sequence of accept results", "why_tests_cant": "all outcomes", "anchors": ["tcpx.go:ListenAndServe", "tcpx.go:ListenAndServeTCP", "tcpx.go:ListenAndServeUDP"]}
{"id": "C90", "title": "With auth on, every connection must authorise", "statement": "With auth on, a connection accepted by any kind of server for which neither RecvAuthPass nor RecvAuthDeny is called is closed soon after the deadline.", "quantifier": "every run of connections, watchers and user goroutines, with any delays; every deadline; TCP, raw and UDP", "why_tests_cant": "timing of goroutines cannot be controlled in tests", "anchors": ["tcpx.go:authWatch", "tcpx.go:WithAuthDetail", "tcpx.go:ListenAndServeRaw", "tcpx.go:ListenAndServeUDP"]}
{"id": "C91", "title": "The watchers of a connection end with it", "statement": "If goroutines are never more than d late (d less than a heartbeat interval), then 6 d after a connection was closed or last sent a heartbeat none of its watching goroutines is left, and those of a datagram end when it has been handled.", "quantifier": "every run of connections, watchers and user goroutines, with any delays; every interval, deadline and d", "why_tests_cant": "leaked goroutines over all schedules", "anchors": ["tcpx.go:heartBeatWatch", "tcpx.go:broadcastSignalWatch", "tcpx.go:authWatch", "context.go:CloseConn"]}
{"id": "C92", "title": "No context method can derail the chain", "statement": "Whatever methods of their context handlers call, the chain indexes no handler out of range, runs each handler at most once and ends, provided every handler makes finitely many calls.", "quantifier": "every chain, every behaviour of handlers including calls of Reset and ResetOffset", "why_tests_cant": "all executions", "anchors": ["context.go:Next", "context.go:Reset", "context.go:ResetOffset"]}
{"id": "C93", "title": "Reset gives a request a fresh store", "statement": "After ctx.Reset(), GetCtxPerRequest returns exactly what this request has stored since (on UDP GetCtxPerConn too), and on TCP GetCtxPerConn still returns what was stored for the connection, to which SetCtxPerRequest no longer adds.", "quantifier": "every number of concurrent requests running any code on any connections, every schedule", "why_tests_cant": "all interleavings", "anchors": ["context.go:Reset", "context.go:SetCtxPerRequest", "context.go:GetCtxPerRequest", "context.go:GetCtxPerConn"]}
{"id": "C94", "title": "The mutexes of pools and contexts exclude overlapping accesses", "statement": "In no execution do two goroutines access the map of a client pool, or the state of a user, at the same time if one of them writes; no mutex is unlocked by a goroutine that does not hold it; and every execution gives results that are possible when each pool call and state access happens at one instant.", "quantifier": "every number of goroutines making any pool, context and shutdown calls; every schedule of the single steps of locking, accessing and unlocking", "why_tests_cant": "all interleavings; the race detector sees only the executions of a test run", "anchors": ["client-pool.go:SetClientPool", "client-pool.go:GetClientPool", "client-pool.go:DeleteFromClientPool", "context.go:CloseConn", "context.go:IsOffline", "tcpx.go:closeAllConnection"]}
{"id": "C95", "title": "The fields of a server are free of data races", "statement": "No two goroutines can access the state, the listener records, their listeners or the pool of a server at the same moment with one of them writing.", "quantifier": "every number of goroutines making any sequences of State, ListenAndServe, Stop, Start and Restart calls, with the goroutines these start; every schedule of single accesses", "why_tests_cant": "all interleavings; the race detector sees only the executions of a test run", "anchors": ["tcpx.go:State", "tcpx.go:openState", "tcpx.go:stopState", "tcpx.go:fillProperty", "tcpx.go:Stop", "tcpx.go:Start", "tcpx.go:closeAllConnection"]}
{"id": "C96", "title": "The server's own goroutines do not race on a context", "statement": "The goroutines a server starts for a connection or datagram (reading, watching, handling) never access a field of its context, or of a request's context, at the same moment with one of them writing.", "quantifier": "every configuration, every number of messages and piped groups, every schedule of single accesses; TCP, raw and UDP", "why_tests_cant": "all interleavings; the race detector sees only the executions of a test run", "anchors": ["context.go:copyContext", "context.go:Reset", "context.go:CloseConn", "tcpx.go:heartBeatWatch", "tcpx.go:ListenAndServeTCP", "tcpx.go:ListenAndServeUDP"]}
{"id": "C97", "title": "Registration takes its handlers by value", "statement": "A route runs the handlers and middlewares that were in the slice when it was handed to AddHandler, UseGlobal or Any; what the caller does with its slices afterwards changes no route, and registration changes no slice of the caller.", "quantifier": "every sequence of operations on slices (new, assign, re-slice, append, set an element) and registration calls by the caller; every capacity append may choose", "why_tests_cant": "all sequences of slice operations; aliasing shows only for certain capacities", "anchors": ["mux.go:AddMessageIDSelfMiddleware", "mux.go:AddGlobalMiddleware", "url-mux.go:AddURLPatternHandler", "tcpx.go:Any"]}
{"id": "C98", "title": "The Python client and the Go code exchange frames", "statement": "For every int32 message id, what the Python client's pack makes is unpacked by the Go code with the same id and as much header and body as Go's libraries read from the bytes written, and vice versa; neither side accepts a frame that lacks bytes.", "quantifier": "every id, header and body, every serializer behaviour, any bytes following the frame", "why_tests_cant": "all ids and payloads; two languages", "anchors": ["all-language-clients/python/protocol.py:pack", "all-language-clients/python/protocol.py:unpack", "packx.go:UnpackWithMarshaller", "packx.go:PackWithMarshaller"]}
{"id": "C99", "title": "What OnConnect does with its context does not change the chains of messages", "statement": "Whatever methods of its context OnConnect calls, a message of the connection (or HandleRaw) runs all its handlers in order unless one of them aborts or panics.", "quantifier": "every sequence of method calls on the connection's context and its copies, every chain, every behaviour of handlers", "why_tests_cant": "all sequences of calls and all executions", "anchors": ["context.go:copyContext", "context.go:Next", "context.go:Abort", "tcpx.go:ListenAndServeTCP", "tcpx.go:ListenAndServeRaw"]}
{"id": "C100", "title": "Every context handed to user code has working stores", "statement": "On every context that callbacks and handlers are given, the store methods never panic (except SetCtxPerConn on reserved keys), and on connections GetCtxPerConn returns in all of them what was last stored for the connection.", "quantifier": "every sequence of method calls on the context of a connection or datagram and on copies made at any time", "why_tests_cant": "all sequences of calls", "anchors": ["context.go:copyContext", "context.go:NewUDPContext", "context.go:SetCtxPerConn", "context.go:GetCtxPerConn", "context.go:SetUsername", "tcpx.go:heartBeatWatch"]}
{"id": "C101", "title": "HandleRaw's reader and writer are its connection", "statement": "The ConnReader and ConnWriter of the context given to HandleRaw are the accepted connection, whatever OnConnect did; on UDP InitReaderAndWriter returns an error and panics never.", "quantifier": "every sequence of method calls on the context of a connection or datagram and on copies made at any time", "why_tests_cant": "all sequences of calls", "anchors": ["context.go:InitReaderAndWriter", "context.go:copyContext", "tcpx.go:ListenAndServeRaw"]}
{"id": "C102", "title": "Middlewares wrap the rest of the chain", "statement": "Handlers of a chain are nested: what runs between a handler's call of Next and its return are whole calls of later handlers, code after Next runs when the rest of the chain has returned, and every handler that ran has returned when the chain is done.", "quantifier": "every chain, every behaviour of handlers (work, Next, Abort, return, panic at any point), every execution", "why_tests_cant": "all executions", "anchors": ["context.go:Next", "context.go:Abort"]}
{"id": "C103", "title": "Messages of a connection are handled in order of arrival", "statement": "When a handler is called for a message of a connection, the handlers of all messages received before on that connection have returned.", "quantifier": "every stream, every number of messages, every chain length and behaviour of handlers, every interleaving of the goroutines", "why_tests_cant": "all interleavings", "anchors": ["tcpx.go:ListenAndServeTCP", "tcpx.go:handlePipe"]}
{"id": "C104", "title": "Nothing of a connection is handled after its OnClose", "statement": "Once OnClose has been called for a connection, no handler is called for any of its messages.", "quantifier": "every stream, every behaviour of handlers, every interleaving of the goroutines", "why_tests_cant": "all interleavings", "anchors": ["tcpx.go:ListenAndServeTCP"]}
{"id": "C105", "title": "OnMessage and HandleRaw run only the middlewares in use", "statement": "A middleware ended with UnUse is not run before OnMessage or HandleRaw.", "quantifier": "every sequence of registration calls, every message, every execution of a chain", "why_tests_cant": "all registration histories", "anchors": ["tcpx.go:handleOnMessage", "tcpx.go:handleRaw", "tcpx.go:UnUse"]}
{"id": "C106", "title": "With a certificate every stream listener speaks TLS", "statement": "A listener opened on a stream network speaks TLS with the certificate of the last successful LoadTLSFile, if there is one; a failed LoadTLSFile changes nothing.", "quantifier": "every sequence of LoadTLSFile and listening calls, each of which may fail, and of the listening calls made by Start", "why_tests_cant": "all sequences of calls", "anchors": ["tcpx.go:LoadTLSFile", "tls.go:newListener", "tcpx.go:ListenAndServeTCP", "tcpx.go:ListenAndServeRaw"]}
{"id": "C107", "title": "A server started again serves its endpoints as before", "statement": "Start opens, for each endpoint, a listener for the same purpose (messages, HandleRaw, datagrams with the given buffer size) as the listener last opened there.", "quantifier": "every sequence of LoadTLSFile and listening calls, each of which may fail, and of the listening calls made by Start", "why_tests_cant": "all sequences of calls", "anchors": ["tcpx.go:Start", "tcpx.go:fillProperty", "tcpx.go:ListenAndServe", "tcpx.go:ListenAndServeRaw", "tcpx.go:ListenAndServeUDP"]}
{"id": "C108", "title": "Every message of a connection is handled once, to the end", "statement": "If every handler makes finitely many actions, the goroutines of a connection come to an end; then, unless the process has ended, each complete message received before one that is refused has had its chain called once and in order, the whole of it (at most 2019 handlers) if no handler aborted, and all handlers called have returned.", "quantifier": "every stream and fragmentation, every chain length, every behaviour of handlers, every interleaving of the goroutines", "why_tests_cant": "all interleavings and all executions to their ends", "anchors": ["tcpx.go:ListenAndServeTCP", "tcpx.go:handlePipe", "tcpx.go:handleMiddleware", "context.go:Next"]}
{"id": "C109", "title": "A chat message reaches the user it is addressed to, under its sender's name", "statement": "On the chat server of the examples, a text is written at most once, to a connection that is online under the name the message is addressed to, and names its sender; nobody else receives it.", "quantifier": "any number of users logging in, logging out, writing and leaving, every interleaving of the goroutines", "why_tests_cant": "all interleavings", "anchors": ["examples/modules/chat/server/main.go:send", "context.go:SendToUsername", "client-pool.go:GetClientPool"]}
{"id": "C110", "title": "A sender is told when its chat message is not delivered", "statement": "On the chat server of the examples, the handler of a message to a user either writes the text to that user's connection or writes to the sender that the user is offline.", "quantifier": "any number of users logging in, logging out, writing and leaving, every interleaving of the goroutines, every request body", "why_tests_cant": "all interleavings", "anchors": ["examples/modules/chat/server/main.go:send", "context.go:IsOnline", "context.go:CloseConn"]}
{"id": "C111", "title": "A handler runs only if every handler before it has let it through", "statement": "When a handler of a chain is called, nobody has called Abort, and every handler before it has called Next or has returned; a handler that does neither before an Abort keeps all later handlers from running.", "quantifier": "chains of every length, every behaviour of handlers, every execution", "why_tests_cant": "all executions", "anchors": ["context.go:Next", "context.go:Abort", "tcpx.go:handleMiddleware"]}
{"id": "C112", "title": "The guarded login of the examples needs the key", "statement": "On the servers of the two middleware examples, login runs only for a message with id 1 whose header holds the key, and then exactly once (if it neither aborts nor panics).", "quantifier": "every message however routed, every header or failure to read it, every behaviour of login, every execution of the chain", "why_tests_cant": "all headers and executions", "anchors": ["examples/modules/middleware/anchor-middleware/main.go:beforeLogin", "examples/modules/middleware/router-middleware/main.go:beforeLogin", "tcpx.go:Use", "tcpx.go:AddHandler", "context.go:Abort"]}
{"id": "C113", "title": "A refused Use or UnUse says where the earlier calls were made", "statement": "When Use or UnUse panics because a key is, or is not, in use, its message ends in the places of all Use calls of that key that returned, in the order of the calls, and then of all UnUse calls of it that returned; only an UnUse of a key never used may say nothing but that.", "quantifier": "every sequence of registration calls at any places", "why_tests_cant": "all registration histories", "anchors": ["anchor.go:callUse", "anchor.go:callUnUse", "tcpx.go:Use", "tcpx.go:UnUse", "routeInfo.go:Location"]}
{"id": "C114", "title": "A URL mux on its own refuses conflicts and late registrations", "statement": "On a URLMux made with NewURLMux, AddURLPatternHandler after LockWrite returns an error and changes nothing; after PanicOnExistRouter, registering a pattern again panics and names its own place and all places where the pattern was registered; otherwise the handlers of a pattern are kept in the order of the calls.", "quantifier": "every sequence of calls on the mux, at any places", "why_tests_cant": "all histories of calls", "anchors": ["url-mux.go:AddURLPatternHandler", "url-mux.go:LockWrite", "url-mux.go:PanicOnExistRouter", "routeInfo.go:Location"]}
{"id": "C115", "title": "A heartbeat counts once, and for its own connection only", "statement": "The watcher of a connection never receives more heartbeats than calls of RecvHeartBeat have returned on that connection; so a connection without such calls is closed in time, whatever others send.", "quantifier": "any number of connections and calls, every interleaving, every passing of time", "why_tests_cant": "all interleavings and delays", "anchors": ["context.go:RecvHeartBeat", "tcpx.go:heartBeatWatch", "context.go:HeartBeatChan"]}
{"id": "C116", "title": "The sayHello server routes each message as its comments say", "statement": "On the server of the sayHello example, a message is handled by the chain its comments name for its id (global middleware, anchored middleware, routed middleware, handler), and a message with another id, or with a URL pattern, by nothing.", "quantifier": "every message, however routed", "why_tests_cant": "all ids and patterns", "anchors": ["examples/sayHello/server/main.go:main", "tcpx.go:Use", "tcpx.go:AddHandler", "tcpx.go:RewriteHeartBeatHandler"]}
{"id": "C117", "title": "The sayHello server serves its clients", "statement": "The listening calls of the sayHello example do not end the process as long as its ports can be opened, and a client that sends heartbeats is kept.", "quantifier": "every sequence of accepted connections, every client, every interleaving", "why_tests_cant": "all executions", "anchors": ["examples/sayHello/server/main.go:main", "tcpx.go:ListenAndServe", "tcpx.go:RewriteHeartBeatHandler", "tcpx.go:heartBeatWatch"]}
{"id": "C118", "title": "The watchers can always keep up", "statement": "However a run has gone in which no watcher was more than d late, it can go on by steps of watchers alone so that any given time passes and none is late: a lost heartbeat, a passed deadline, a received signal and the end of a connection can always be acted on.", "quantifier": "any number of connections and calls, every run, every d and every interval", "why_tests_cant": "all runs", "anchors": ["tcpx.go:heartBeatWatch", "tcpx.go:broadcastSignalWatch", "tcpx.go:authWatch"]}
{"id": "C119", "title": "Every message that asks for an answer gets exactly one", "statement": "What a server sends over a connection whose messages are routed alike and whose handlers answer once are the answers of distinct messages, whole and one after the other, and a message whose handling returned has been answered; on the url-pattern example, each login whose body can be bound gets the token exactly once, no other message gets it, and the client prints it once per answer.", "quantifier": "any number of messages below 2 GiB and the limit of the server, every fragmentation, every handler that answers once on each of its paths, every interleaving with each other and with other connections", "why_tests_cant": "all interleavings and all messages", "anchors": ["examples/modules/url-pattern/server/server.go:login", "examples/modules/url-pattern/client.go:Recv", "context.go:JSONURLPattern", "context.go:replyBuf", "tcpx.go:handleMiddleware"]}
{"id": "C120", "title": "The logger prints as it is set", "statement": "In debug mode a call of Println prints its arguments with a blank between them, in any other mode it prints nothing, whatever was set before; and the flags given to SetLogFlags take effect.", "quantifier": "any sequence of settings, any arguments", "why_tests_cant": "all sequences of settings", "anchors": ["log.go:Println", "log.go:SetLogMode", "log.go:SetLogFlags"]}
{"id": "C121", "title": "The auth example keeps those who sign and closes the others", "statement": "On the server of the auth example, a connection still open thirty seconds (and three times the lateness of its watcher) after it was accepted has sent a signed message that was handled; one with a wrongly signed message and no signed one is closed as soon as that message has been handled; one with a signed message handled in time and no wrongly signed one is never closed for want of authorisation.", "quantifier": "any number of connections and messages, every interleaving, every passing of time, every hash function", "why_tests_cant": "all messages, interleavings and delays", "anchors": ["examples/modules/auth/server/main.go:main", "examples/modules/auth/server/main.go:Encrypt", "tcpx.go:WithAuthDetail", "tcpx.go:authWatch", "context.go:RecvAuthPass", "context.go:RecvAuthDeny"]}
{"id": "C122", "title": "A signature of the auth example is good for its own fields only", "statement": "If the server of the auth example lets in two messages with the same signature, they have the same fields (as long as no two texts have the same hash).", "quantifier": "all messages, every hash function", "why_tests_cant": "all texts", "anchors": ["examples/modules/auth/server/main.go:Encrypt", "examples/modules/auth/server/main.go:main"]}
{"id": "C123", "title": "The encoders and decoders of the pack-detail examples speak the protocol", "statement": "What the example encoders print for an id, a header and a body is the documented frame, the same bytes Pack makes; the example decoders take every such frame apart, whatever follows it: its length, id, lengths, header and body.", "quantifier": "every id, header and body of together less than 4 GiB, every rest of the buffer", "why_tests_cant": "all ids and contents", "anchors": ["examples/modules/pack-detail/json/encode/main.go:main", "examples/modules/pack-detail/json/decode/main.go:main", "packx.go:PackWithMarshaller"]}
{"id": "C124", "title": "A message need not have a header or a body", "statement": "As examples/modules/pack-detail/README.md says, a message may have a header length and a body length of 0: it can be unpacked, and a server dispatches it by its id.", "quantifier": "every id, body, marshaller, fragmentation, and server without OnMessage", "why_tests_cant": "all frames, fragmentations and servers", "anchors": ["examples/modules/pack-detail/README.md", "packx.go:UnpackWithMarshaller", "tcpx.go:isPipe", "tcpx.go:ListenAndServeTCP", "tcpx.go:ListenAndServeUDP"]}
{"id": "C125", "title": "The my-marshal example prints the body that was sent", "statement": "On the server of the my-marshal example each of the messages 22, 23 and 24 runs its own handler, no other message runs any, and the three ways in which they read a message come to the same: what was packed is printed with its id, and what cannot be read is reported as an error.", "quantifier": "every message and every body", "why_tests_cant": "all messages", "anchors": ["examples/modules/my-marshal/server/main.go:main", "examples/modules/my-marshal/marshaller/marshaller.go:Unmarshal", "context.go:Bind", "context.go:BindWithMarshaller", "packx.go:UnpackWithMarshaller"]}
{"id": "C126", "title": "The request counter of the global-middleware example counts", "statement": "The number a request of the global-middleware example is told is at least the number of answers given so far and at most the number of requests counted, no earlier answer was greater, and no request is answered twice. The example's client prints what it is told, once for each of its requests that was handled; what it writes makes one request, which is told one number.", "quantifier": "any number of requests of any kind, every interleaving, every order and fragmentation of the answers", "why_tests_cant": "all interleavings", "anchors": ["examples/modules/middleware/global-middleware/main.go:main", "examples/modules/middleware/global-middleware/client/main.go:main", "examples/modules/middleware/global-middleware/client/main.go:Recv", "tcpx.go:UseGlobal"]}
{"id": "C127", "title": "The heartbeat example keeps those who send heartbeats and closes the others", "statement": "On the server of the heartbeat example, a connection from which no message with id 1392 comes is closed within thirty seconds of being accepted (and fourteen times the lateness of its watcher), whatever else it sends; a connection still open has been heard of within that time; one whose heartbeats are handled at least every twenty seconds, with no goroutine more than d late and 6 d less than ten seconds, is not closed for loss of heartbeat. Each write of the example's client is such a heartbeat, in whatever pieces it arrives.", "quantifier": "any number of connections and messages (below 2 GiB and the limit of the server), every fragmentation, every interleaving, every passing of time", "why_tests_cant": "all messages, interleavings and delays", "anchors": ["examples/modules/heartbeat/server/server.go:main", "examples/modules/heartbeat/client/client.go:main", "tcpx.go:HeartBeatModeDetail", "tcpx.go:heartBeatWatch", "context.go:RecvHeartBeat"]}
{"id": "C128", "title": "Heartbeats handled in time keep a connection", "statement": "If neither the watcher of a connection nor a call of RecvHeartBeat (except to wait for room in the channel) is ever more than d late, and RecvHeartBeat is called for the connection at least every g, with g + 6 d less than three intervals, it is not closed for loss of heartbeat, whoever makes the heartbeat channel; and in any situation the server can go on so that none is late.", "quantifier": "every run of connections, watchers and user goroutines, with any delays; every interval, g and d", "why_tests_cant": "timing of goroutines cannot be controlled in tests", "anchors": ["tcpx.go:heartBeatWatch", "context.go:RecvHeartBeat", "context.go:HeartBeatChan"]}
{"id": "C129", "title": "The raw example receives every byte and answers every message", "statement": "The handler of the raw example receives exactly the bytes sent, in order, in pieces of at most 500 bytes, answers each piece once before taking the next, and returns exactly when the stream ends; before it the global and the anchored middleware run once each, after it the connection is closed. Each message of the client gets one answer, which the client prints.", "quantifier": "every stream of bytes and every fragmentation, in both directions", "why_tests_cant": "all fragmentations", "anchors": ["examples/modules/raw/server/server.go:main", "examples/modules/raw/client/client.go:Recv", "tcpx.go:ListenAndServeRaw", "tcpx.go:handleRaw"]}
{"id": "C130", "title": "Stop(true) closes every connection", "statement": "After Stop(true) every connection of the server is closed by the server, as markdowns/graceful.md and the README of the graceful-stop example say, whatever the settings of the server.", "quantifier": "every setting, every number of connections, every interleaving of watchers, user code and control calls", "why_tests_cant": "all settings and interleavings", "anchors": ["markdowns/graceful.md:Graceful", "examples/modules/graceful/graceful-stop/README.md:result", "tcpx.go:Stop", "tcpx.go:closeAllConnection"]}
{"id": "C131", "title": "The graceful-restart example accepts, refuses, and accepts again", "statement": "A client of a server with one endpoint, whose user code calls Stop and Start in turn as often as it likes, is let in and accepted from the moment the server listens until the next Stop, is refused from the return of Stop until the next Start, and, if no system call fails, is let in again within two steps of the listening goroutine after Start has returned.", "quantifier": "every number of stops and starts, every interleaving of the goroutines of the server and of clients that connect", "why_tests_cant": "interleavings of control calls and clients are not reproducible in tests", "anchors": ["examples/modules/graceful/graceful-restart/main.go:main", "examples/modules/graceful/graceful-restart/README.md:result", "tcpx.go:Stop", "tcpx.go:Start", "tcpx.go:ListenAndServeTCP"]}
{"id": "C132", "title": "Clients are refused at every endpoint once Stop has returned, and Start can bring the endpoints back", "statement": "When Stop has returned nil, and until another listening call is made, clients are refused at every endpoint of the server, for ever; when it has returned an error no client is let in either; and a Start after it is not refused.", "quantifier": "any number of endpoints and control calls, every interleaving with clients that connect", "why_tests_cant": "interleavings of control calls and clients are not reproducible in tests", "anchors": ["tcpx.go:Stop", "tcpx.go:Start", "tcpx.go:ListenAndServeTCP", "tcpx.go:fillProperty", "tcpx.go:openState"]}
{"id": "C133", "title": "The validating program accepts exactly the well-formed streams", "statement": "A stream posted to the validating program with the name of a marshaller is answered with 200 and the message it carries exactly if it is one frame whose header decodes as JSON and whose body decodes by that marshaller; every other request is answered with 400. In particular what the Go client posts for each format is accepted, showing the user it was made from.", "quantifier": "every stream, every marshaller name, every codec", "why_tests_cant": "all streams", "anchors": ["all-language-clients/main.go:main", "all-language-clients/go/main.go:main", "packx.go:UnpackWithMarshallerName"]}
{"id": "C134", "title": "A closed connection is served no more, and its goroutine ends", "statement": "Once a TCP connection has been closed by the server, by whomever (a watcher, user code, Stop), no message of it is read; its goroutine calls OnClose exactly once and goes on to CloseConn, and within 3 * d of the closing there is nothing left for it but these, if it is never more than d late. As long as the connection is open its messages are read in the order they arrived, none left out, and each is given a goroutine of its own, in that order.", "quantifier": "every run of any number of connections, handlers, watchers, clients and control calls, whatever the handlers do to connections", "why_tests_cant": "interleavings of the goroutine of a connection, its handlers and its watchers", "anchors": ["tcpx.go:ListenAndServeTCP", "tcpx.go:heartBeatWatch", "context.go:CloseConn"]}
{"id": "C135", "title": "An unauthorised connection can use no route", "statement": "With authorisation in use, a message of a connection is handled only after the connection has been authorised (README-CN.md 2.9: otherwise it can use no route of the server, and is killed).", "quantifier": "every run of any number of connections, handlers, watchers and clients, every deadline", "why_tests_cant": "interleavings of the goroutine of a connection, its handlers and its auth watcher", "anchors": ["README-CN.md:2.9", "tcpx.go:ListenAndServeTCP", "tcpx.go:auth"]}
{"id": "C136", "title": "A client that sends heartbeats keeps its connection", "statement": "If on a TCP connection a message whose handlers call RecvHeartBeat first arrives at least every g, with g + 9 * d less than three intervals, and the client neither hangs up nor sends what the loop does not take, then the connection is not closed for loss of heartbeat, if the goroutines concerned are never more than d late.", "quantifier": "every run of any number of connections, handlers, watchers and clients, every interval", "why_tests_cant": "timing and interleavings of reading, handling and watching", "anchors": ["tcpx.go:ListenAndServeTCP", "tcpx.go:heartBeatWatch", "context.go:RecvHeartBeat"]}
{"id": "C137", "title": "A client that sends no heartbeats is closed, with all that belongs to it", "statement": "A TCP connection for which no call of RecvHeartBeat has returned is closed within three intervals and 14 * d of being accepted; 6 * d later its goroutine has called OnClose, exactly once, and has nothing left but CloseConn, and none of its watchers is left; if none of these goroutines is ever more than d late and the loss callback does not panic.", "quantifier": "every run of any number of connections, handlers, watchers and clients, every interval", "why_tests_cant": "timing and interleavings of reading, handling and watching", "anchors": ["tcpx.go:ListenAndServeTCP", "tcpx.go:heartBeatWatch", "context.go:CloseConn"]}
{"id": "C138", "title": "A client that hangs up leaves nothing behind", "statement": "A TCP connection whose client hangs up (or which breaks) at t is closed by the server by t + 6 * d, after OnClose has been called for it, exactly once; and 6 * d after that, or after its watcher last received a heartbeat, none of its watchers is left; if none of these goroutines is ever more than d late and OnClose does nothing to connections.", "quantifier": "every run of any number of connections, handlers, watchers and clients, every interval", "why_tests_cant": "timing and interleavings of reading, handling and watching", "anchors": ["tcpx.go:ListenAndServeTCP", "tcpx.go:heartBeatWatch", "context.go:CloseConn"]}
{"id": "C139", "title": "Every message is handled soon after it arrives", "statement": "As long as a TCP connection is open and its client has not hung up, a goroutine has been started for every message that arrived more than 2 * d ago, in the order of arrival and with nothing in between, if the goroutine of the connection is never more than d late and takes all that arrives; whatever the handlers, the watchers and other connections do.", "quantifier": "every run of any number of connections, handlers, watchers and clients", "why_tests_cant": "timing and interleavings of reading, handling and watching", "anchors": ["tcpx.go:ListenAndServeTCP"]}
{"id": "C140", "title": "A chat client shows every message", "statement": "A client of the chat example shows every message the server sends to it, once, in order and under the name given in it, however the bytes are cut up on the way and whatever part of a further message follows; then it waits, or ends if the connection has ended.", "quantifier": "every sequence of messages below 2 GiB, every fragmentation, every JSON library", "why_tests_cant": "all fragmentations of all streams", "anchors": ["examples/modules/chat/client_1/main.go:Recv", "packx.go:FirstBlockOf", "packx.go:BodyBytesOf", "packx.go:MessageIDOf"]}
{"id": "C141", "title": "A chat client sends what is typed", "statement": "A client of the chat example sends every line typed that is not empty, once and in order, and nothing else.", "quantifier": "every sequence of lines, every end of the input, any number of turns of the loop", "why_tests_cant": "unbounded sequences of turns", "anchors": ["examples/modules/chat/client_1/main.go:main"]}
{"id": "C142", "title": "The clients of the other examples print every message", "statement": "The clients of the examples online-offline, graceful-stop and graceful-restart print the body of every message they receive, in order, however the bytes are cut up on the way.", "quantifier": "every sequence of messages, every fragmentation, every content of the buffer", "why_tests_cant": "all fragmentations of all streams", "anchors": ["examples/modules/online-offline/client/client.go:Recv", "examples/modules/graceful/graceful-stop/client/client.go:Recv", "packx.go:BodyBytesOf"]}
{"id": "C143", "title": "The server is never stuck, and only time makes it late", "statement": "Whatever the clients, the handlers and the watchers of a server have done, its goroutines can go on by themselves, without time passing, until every TCP connection is done with: closed by the server with OnClose called once if set, or still open with every message that arrived read and its goroutine started. Nothing but the passing of time makes any of them late, and they can always go on so that any time passes and none of them is.", "quantifier": "every run of any number of connections, handlers, watchers and clients; every lateness allowed", "why_tests_cant": "absence of deadlock over all interleavings", "anchors": ["tcpx.go:ListenAndServeTCP", "tcpx.go:heartBeatWatch", "tcpx.go:broadcastSignalWatch", "context.go:RecvHeartBeat", "context.go:CloseConn"]}
{"id": "C144", "title": "Bytes that arrive in any pieces at any times are read as if they had come at once, and in time", "statement": "However the bytes of a TCP connection are cut up, whenever they arrive and however many each Read returns: at every moment the goroutines started are those called for by the frames read so far, in order, none before its last byte has arrived; the goroutines called for by the frames that have arrived completely by T have been started by T + 2 * d, and 4 * d after the connection was closed, by whomever, the loop is left, if the goroutine of the connection is never more than d late. It is never stuck, and only time makes it late.", "quantifier": "every sequence and timing of arrivals, every result of every Read, every JSON library, every limit", "why_tests_cant": "all fragmentations and timings of all streams", "anchors": ["tcpx.go:ListenAndServeTCP", "packx.go:readUntil", "packx.go:UnpackToBlockFromReaderLimitMaxLengthOfByte", "packx.go:FirstBlockOfLimitMaxByte"]}
{"id": "C145", "title": "Several goroutines may register handlers and middlewares at the same time", "statement": "However the steps of several goroutines that register handlers, middlewares and URL patterns are mixed: no two of them access the same memory at once with one of them writing, none of them is stuck, and all calls end. Of several calls of AddHandler for one id exactly one returns and the others panic; afterwards a message with the id is given to what the call that returned gave for it, behind all global middlewares, those of each goroutine in its order, and the middlewares in use: among them all that the same goroutine has put in use before. A URL pattern registered by one call has the handlers of that call, behind the same middlewares. Of two calls of Use with one key the second panics.", "quantifier": "every number of goroutines, every sequence of calls of each, every schedule of their single memory accesses", "why_tests_cant": "all interleavings of all registrations", "anchors": ["tcpx.go:AddHandler", "tcpx.go:UseGlobal", "tcpx.go:Use", "tcpx.go:Any", "mux.go:AddHandleFunc", "mux.go:AddMessageIDSelfMiddleware", "mux.go:AddMessageIDAnchor", "mux.go:AddGlobalMiddleware", "url-mux.go:AddURLPatternHandler"]}
{"id": "C146", "title": "Registration and the handling of messages do not disturb each other", "statement": "After ListenAndServe the mux is locked, as the message of AddHandleFunc says, or else registration while messages are handled does no harm: dispatching messages at the same time never clashes with it, does not panic, gives a message with an id or URL pattern registered before to what it was given to before, and never gives a message to a handler without the middlewares that guard it.", "quantifier": "every number of goroutines registering and dispatching, every schedule of their single memory accesses", "why_tests_cant": "all interleavings of registration and dispatch", "anchors": ["tcpx.go:handleMessageIDHandlers", "tcpx.go:handleURLPatternHandlers", "tcpx.go:AddHandler", "mux.go:AddHandleFunc", "tcpx.go:ListenAndServe", "mux.go:AnchorIndexOfMessageID"]}
{"id": "C147", "title": "The online-offline example prints what has happened", "statement": "However the messages to the server of the online-offline example are handled: when it prints `online success` the user of the message has been put online on its connection, and when it prints `offline success` the user has been taken out; when the handler of a logout is over, nobody has been online under the name of its connection at some time since the handler began, or the connection had no name.", "quantifier": "every number of connections, logins, logouts and closings, every schedule of their handlers", "why_tests_cant": "all interleavings of handlers and closings; the output is not checked by tests", "anchors": ["examples/modules/online-offline/server/server.go:online", "examples/modules/online-offline/server/server.go:offline", "context.go:Online", "context.go:Offline"]}
{"id": "C148", "title": "A client of the guarded login shows the token or the reason", "statement": "A client of the middleware examples shows, for every answer of the server, once and in order, the token if the login has succeeded and otherwise the reason why it was refused, however the bytes of the answers are cut up on the way.", "quantifier": "every list of requests and results of decoding them, every fragmentation of the answers, every end of the connection", "why_tests_cant": "all requests, errors and fragmentations", "anchors": ["examples/modules/middleware/anchor-middleware/client/main.go:Recv", "examples/modules/middleware/router-middleware/client/main.go:Recv", "examples/modules/middleware/anchor-middleware/main.go:login", "examples/modules/middleware/anchor-middleware/main.go:beforeLogin"]}
{"id": "C149", "title": "The sayHello server answers its clients, and the client prints the answers", "statement": "Over a connection of the sayHello server, along every schedule, each message with id 1, 3 or 5 whose body is a text is answered exactly once, with id 2, 4 or 6 and the text of its handler, each protobuf request with id 11 with id 12, and nothing else is sent. The client of the example, which writes its message n times, prints the answer n times, whatever pieces the bytes come in, and nothing else.", "quantifier": "all lists of messages below 2 GiB and the limit of the server, bodies, header entries (other than the pipe marker) and marshallers, fragmentations in both directions, schedules and other connections", "why_tests_cant": "the requests of a connection run as goroutines of their own whose replies can be interleaved in any order; a test sees one order", "anchors": ["examples/sayHello/server/main.go:SayHello", "examples/sayHello/server/main.go:SayGoodBye", "examples/sayHello/server/main.go:SayName", "examples/sayHello/server/main.go:SayHelloProtobuf", "examples/sayHello/client/main.go:main", "context.go:Reply", "context.go:ProtoBuf"]}
{"id": "C150", "title": "The clients of the auth example have the fates their comments say", "statement": "Of the clients of the auth example, the one with the right credentials (ValidClient) is let in and stays connected; the one that signs with another secret (InvalidClient) receives the text that its signature is wrong, and its connection is closed at once; the one that sends nothing (ClientAuthTimeout) is disconnected after thirty seconds. Each prints all that the server sends it, and ends when the connection does.", "quantifier": "every hash, every codec of credentials, every fragmentation in both directions, every interleaving and timing of the server in which the auth watcher is prompt, all other connections", "why_tests_cant": "all timings around the deadline of thirty seconds, beside any other connections", "anchors": ["examples/modules/auth/client/main.go:ValidClient", "examples/modules/auth/client/main.go:InvalidClient", "examples/modules/auth/client/main.go:ClientAuthTimeout", "examples/modules/auth/client/main.go:Recv", "examples/modules/auth/client/main.go:Encrypt", "examples/modules/auth/server/main.go:main"]}
{"id": "C151", "title": "The helloworld server prints every text its clients send", "statement": "The server of the helloworld example prints every text its clients send with PackWithMarshaller, each once and whole, and prints nothing else, however many clients and messages there are and whatever pieces the bytes arrive in; messages are given to OnMessage whatever their id or header says.", "quantifier": "every number of clients, every list of texts of each (below 2 GiB when packed), every fragmentation and end of the connections, every order in which the goroutines of the messages run", "why_tests_cant": "all texts, fragmentations and interleavings", "anchors": ["examples/modules/helloworld/server/server.go:main", "examples/modules/helloworld/client/main.go:main", "tcpx.go:handleOnMessage", "context.go:Bind", "packx.go:PackWithMarshaller"]}
{"id": "C152", "title": "A UDP server answers every message once, to its sender", "statement": "Datagrams reach a UDP server from any senders. Handling starts for each datagram that holds a message, with that message and the address of its sender. If the handlers of each message send one answer or none, then along every schedule what the server sends are the answers of distinct messages, whole, each to the sender of its message, and nothing else; and every message that is owed an answer and whose handling has returned has been answered. Messages by id and by URL pattern can be mixed freely. So the sayHello server answers, over UDP, each message that asks for it.", "quantifier": "all datagrams and senders, buffer sizes, registrations and handlers, schedules, and other requests running beside them", "why_tests_cant": "the answers to datagrams of different senders can be interleaved in any order; a test sees one order", "anchors": ["tcpx.go:ListenAndServeUDP", "tcpx.go:ReadAllUDP", "context.go:NewUDPContext", "context.go:replyBuf", "tcpx.go:handleMiddleware"]}
{"id": "C153", "title": "The tls example listens with its certificate only, and runs its handler once for every client", "statement": "The server of the tls example listens with the certificate it has loaded and never without one. Each client of the example, whatever pieces its bytes arrive in, has its message given once to the handler for \"/login/\" and to nothing else; its connection then ends, and handling it does not panic.", "quantifier": "every outcome of loading the certificate and of listening, every number of clients, every fragmentation, every schedule, beside any other connections", "why_tests_cant": "all fragmentations and interleavings of any number of clients", "anchors": ["examples/modules/tls/server/main.go:main", "examples/modules/tls/client/main.go:main", "tcpx.go:LoadTLSFile", "tls.go:newListener", "message.go:NewURLPatternMessage"]}
{"id": "C154", "title": "Reply uses the server's marshaller, ReplyWithMarshaller the one it is given", "statement": "ctx.Reply puts on the wire a single frame with the requested id whose header is the merge of the header arguments and whose body is the source encoded by the server's own marshaller; ctx.ReplyWithMarshaller uses the marshaller it is given, JSON if that is nil. If header or source cannot be encoded nothing is written; in that case, and if the connection fails, an error is returned.", "quantifier": "every marshaller, id, value and headers that give less than 4 GiB, every behaviour of the connection", "why_tests_cant": "all combinations of user-supplied marshallers, headers and connection failures", "anchors": ["context.go:Reply", "context.go:ReplyWithMarshaller", "context.go:commonReplyWithMarshaller", "context.go:replyBuf", "packx.go:NewPackx"]}
{"id": "C155", "title": "What a chat client shows was written to its user, and every message to a user who is online is shown", "statement": "In the chat example, a client shows exactly one line for each message that has arrived whole, in the order in which they were written to it, and every line is due to a different message to a user: it is the text of a message addressed to a name under which this client was online while the message was handled, or says that a user to whom this client has written is offline. A message to a user who is online, handled without interruption, is the next line that this user's client shows.", "quantifier": "any number of users logging in, logging out, writing and leaving, every interleaving of the goroutines of the server, every fragmentation of the bytes on the way", "why_tests_cant": "all interleavings of handlers and all fragmentations, from the handlers of one process to the lines of another", "anchors": ["examples/modules/chat/server/main.go:send", "examples/modules/chat/client_1/main.go:Recv", "context.go:SendToUsername", "context.go:SendToConn", "client-pool.go:GetClientPool"]}
{"id": "C156", "title": "The internal write function transmits the buffer exactly once", "statement": "write(conn, buf) with nil error has transmitted exactly buf, for every connection, including ones that accept fewer bytes than asked per call; it writes nothing for an empty buffer, never reports success with fewer bytes transmitted than the buffer has, and stops at the first error of Write and returns it.", "quantifier": "every buffer and every sequence of per-call accepted counts and failures", "why_tests_cant": "all short-write patterns; nothing in the repository calls the function", "anchors": ["utils.go:write"]}
{"id": "C157", "title": "A Request keeps the last value set under each key", "statement": "After any calls of Set on a Request, also one whose header map is nil, each key holds the value last set under it, other keys are as before, and the URL and the body are unchanged; a new Request has the URL and reader it was made of and no header.", "quantifier": "every request, every sequence of keys and values", "why_tests_cant": "all sequences of keys; nothing in the repository calls these functions", "anchors": ["request.go:NewRequest", "request.go:Set"]}
{"id": "C158", "title": "The OnMessage function of the sayHello example answers ids 7 and 9 and nothing else", "statement": "In the sayHello server with its OnMessage function in use, every message, whatever router type its header asks for, goes through the global and both other middlewares (also the one ended by UnUse) and then to OnMessage, once. A message with id 7 is answered with a message 8 and one with id 9 with a message 10, once each, whether or not its body can be bound; no other message is answered, and no handling panics.", "quantifier": "every list of messages below 2 GiB and the limit of the server with any ids, headers (without pipe marker), bodies and marshallers, every fragmentation, every schedule, beside any other connections", "why_tests_cant": "all interleavings of the messages of several connections; the example has the function's use commented out", "anchors": ["examples/sayHello/server/main.go:OnMessage", "tcpx.go:handleOnMessage", "context.go:Reply", "context.go:JSON", "packx.go:MessageIDOf"]}
{"id": "C159", "title": "The server of the my-marshal example prints what its client sends, each message by its own handler", "statement": "Of the three messages that the client of the my-marshal example writes, those that have arrived whole, and nothing else, start the handling of a message on the server, whatever part of the bytes arrives. Each is given once to the handler of its own id and to no other, which prints this id and the text sent, and does not panic, although the three handlers decode the body in three different ways.", "quantifier": "every text (below 2 GiB and the limit of the server when packed), every part of the client's bytes and every fragmentation of it, every schedule, beside any other connections", "why_tests_cant": "all cuts of the stream and all interleavings, for three ways of decoding a body with a marshaller of the user", "anchors": ["examples/modules/my-marshal/client/main.go:main", "examples/modules/my-marshal/server/main.go:main", "examples/modules/my-marshal/marshaller/marshaller.go:ByteMarshaller", "context.go:Bind", "packx.go:PackWithMarshaller"]}
{"id": "C160", "title": "The guarded login answers every message as its key and its body deserve, and its client is shown the token", "statement": "Every message sent to the login of the two middleware examples is answered once, whole, and without a panic: with id 403 and the text for a missing key if its sender put no Authorization into the header, with id 403 and the text for a wrong key if the value there is anything but the secret key, with the token if the key is right and the body can be bound, and otherwise with the error text. No other bytes leave the server on this connection. The message of the examples' own client is answered with the token, and the client, in whatever pieces the answer reaches it, shows this token once and nothing else.", "quantifier": "every list of messages with id 1 below 2 GiB and the limit of the server with any headers (without routing entries and pipe marker), bodies and marshallers, every fragmentation, every schedule, beside any other connections, both servers; a Write takes a whole answer", "why_tests_cant": "all interleavings of the messages of several connections, for all header values of all types", "anchors": ["examples/modules/middleware/anchor-middleware/main.go:beforeLogin", "examples/modules/middleware/anchor-middleware/main.go:login", "examples/modules/middleware/router-middleware/main.go:main", "examples/modules/middleware/anchor-middleware/client/main.go:main", "examples/modules/middleware/anchor-middleware/client/main.go:Recv", "context.go:JSON", "context.go:Bind", "packx.go:HeaderOf"]}
{"id": "C161", "title": "RouteTypeOf and URLPatternOf tell what the sender put into the header, and where the message goes", "statement": "Of every packed message RouteTypeOf and URLPatternOf return the text that its sender put into the header under Router-Type and Router-Pattern-Value, the empty text if there is nothing, and an error if what is there is no text. This agrees with how a server routes the message: by its id if the type is MESSAGE_ID or is no text, by the pattern told if the type is URL_PATTERN (and to no handler if the pattern is no text), and as an unknown type for any other type that is not empty. An empty answer leaves open whether the type is missing (then the id decides) or is the empty text (which is unknown).", "quantifier": "every packed message below 2 GiB with any id, header (without pipe marker), body and marshaller, whatever bytes follow it in memory", "why_tests_cant": "all header values of all types through encode and decode", "anchors": ["packx.go:RouteTypeOf", "packx.go:URLPatternOf", "utils.go:headerGetString", "context.go:routerType", "message.go:NewMessage", "message.go:NewURLPatternMessage"]}
