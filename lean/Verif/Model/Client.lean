import Verif.Model.Packx
/-!
# Model of sending: replies (context.go:418-523, 732-765), `WriteConn`, `WriteJSON`, `PipeJSON`, `TCPCallOnceJSON` (utils.go)

A connection on the sending side is the script of what its successive `Write` calls do.  The observable is the list of buffers
handed to `Write`, with the number of bytes transmitted of each.
-/
namespace Tcpx
variable {V : Type}

/-- What one call of `Write(buf)` does: transmit the first `k` bytes (all, if `k ≥ len(buf)`) and return nil or an error.
Package net, used at utils.go:102, context.go:508. -/
inductive WEv where
  | accept (k : Nat)
  | fail (k : Nat)
deriving DecidableEq, Repr

/-- One `Write` call: the buffer and how many of its bytes were transmitted. No counterpart in the code: a record. -/
structure WCall where
  buf : Bytes
  n   : Nat
deriving DecidableEq, Repr

/-- The bytes that went out. No counterpart in the code. -/
def transmitted (cs : List WCall) : Bytes := cs.flatMap fun c => c.buf.take c.n

/-- Result of a sending function. No counterpart in the code: a record of what was done and returned. -/
structure SendOut where
  calls : List WCall
  res   : Res Unit
deriving DecidableEq, Repr

/-- utils.go:99-116 `WriteConn(buf, conn)`: the whole buffer is written again until the counts add up; `sum` is the loop variable.
An exhausted script is a `Write` that does not return. -/
def writeConn (buf : Bytes) : Nat → List WEv → SendOut
  | _, [] => ⟨[], .block⟩
  | _, .fail k :: _ => ⟨[⟨buf, min k buf.length⟩], .err .io⟩
  | sum, .accept k :: w =>
    let n := min k buf.length
    if buf.length ≤ sum + n then ⟨[⟨buf, n⟩], .ok ()⟩
    else let r := writeConn buf (sum + n) w; ⟨⟨buf, n⟩ :: r.calls, r.res⟩

/-- A single `conn.Write(buf)` with its error returned (wrapped). context.go:505-520, utils.go:136-138. -/
def writeOnce (ev : WEv) (buf : Bytes) : SendOut :=
  match ev with
  | .accept k => ⟨[⟨buf, min k buf.length⟩], .ok ()⟩
  | .fail k => ⟨[⟨buf, min k buf.length⟩], .err .io⟩

/-- What a `Context` is connected to (context.go:243-254): a stream connection, a packet connection with an address, or nothing
(then the type is "tcp" and `ctx.Conn` is nil). -/
inductive Link where
  | conn | packet | none
deriving DecidableEq, Repr

/-- context.go:505-521 `replyBuf`. -/
def replyBuf (link : Link) (ev : WEv) (buf : Bytes) : SendOut :=
  match link with
  | .conn => writeOnce ev buf      -- ctx.Conn.Write
  | .packet => writeOnce ev buf    -- ctx.PacketConn.WriteTo(buf, ctx.Addr)
  | .none => ⟨[], .panic⟩          -- nil ctx.Conn

/-- `buf, e = ...; if e != nil {return errorx.Wrap(e)}` followed by a send. E.g. context.go:483-487, 490-502. -/
def sendPacked (p : Res Bytes) (send : Bytes → SendOut) : SendOut :=
  match p with
  | .ok buf => send buf
  | .err e => ⟨[], .err (wrapErr e)⟩
  | .panic => ⟨[], .panic⟩
  | .block => ⟨[], .block⟩

/-- context.go:420-428 `Reply`; `m` is `ctx.Packx.Marshaller`. -/
def ctxReply (env : Env V) (m : Marshaller V) (link : Link) (ev : WEv) (id : Int32) (src : Option V) (headers : List Header) : SendOut :=
  sendPacked (packxPack env m id src headers) (replyBuf link ev)

/-- packx.go:28-36 `NewPackx(marshaller)`: nil means JSON.  context.go:490-502 `commonReplyWithMarshaller`, 429-431
`ReplyWithMarshaller`. -/
def ctxReplyWithMarshaller (env : Env V) (m : Option (Marshaller V)) (link : Link) (ev : WEv) (id : Int32) (src : Option V)
    (headers : List Header) : SendOut :=
  sendPacked (packxPack env (m.getD (env.builtin .json)) id src headers) (replyBuf link ev)

/-- context.go:464-488 `commonReply`. -/
def commonReply (env : Env V) (m : Marshaller V) (name : String) (link : Link) (ev : WEv) (id : Int32) (src : Option V)
    (headers : List Header) : SendOut :=
  if m.name ≠ name then
    match getMarshallerByMarshalName env name with
    | .ok m' => sendPacked (packxPack env m' id src headers) (replyBuf link ev)
    | .err e => ⟨[], .err (wrapErr e)⟩
    | .panic => ⟨[], .panic⟩
    | .block => ⟨[], .block⟩
  else sendPacked (packxPack env m id src headers) (replyBuf link ev)

/-- context.go:435-462: `JSON`, `XML`, `TOML`, `YAML`, `ProtoBuf`. -/
def ctxFormat (env : Env V) (m : Marshaller V) (b : Builtin) (link : Link) (ev : WEv) (id : Int32) (src : Option V)
    (headers : List Header) : SendOut :=
  match b with
  | .json => commonReply env m "json" link ev id src headers
  | .xml => commonReply env m "xml" link ev id src headers
  | .toml => commonReply env m "toml" link ev id src headers
  | .yaml => commonReply env m "yaml" link ev id src headers
  | .protobuf => commonReply env m "protobuf" link ev id src headers

/-- context.go:732-745 `JSONURLPattern` and 749-762 `ProtobufURLPattern`, given the result of `GetURLPattern`. -/
def ctxURLPatternReply (env : Env V) (b : Builtin) (pattern : Res String) (link : Link) (ev : WEv) (src : Option V) : SendOut :=
  match pattern with
  | .ok p => sendPacked ((newURLPatternMessage p src).pack env (some (env.builtin b))) (replyBuf link ev)
  | .err e => ⟨[], .err (wrapErr e)⟩
  | .panic => ⟨[], .panic⟩
  | .block => ⟨[], .block⟩

/-- utils.go:124-140 `WriteJSON`. -/
def writeJSON (env : Env V) (ev : WEv) (id : Int32) (src : Option V) : SendOut :=
  sendPacked (packWithMarshaller env { id := id, header := none, body := src } (some (env.builtin .json))) (writeOnce ev)

/-- An argument of `PipeJSON`: nil, an `int`, or a value of any other type. utils.go:146. -/
inductive PArg (V : Type) where
  | nil
  | int (z : Int) (v : V)   -- `v` is the same value seen as a message body
  | val (v : V)

/-- The argument as a message body; nil is a nil interface. utils.go:165-181. -/
def PArg.body : PArg V → Option V
  | .nil => none
  | .int _ v => some v
  | .val v => some v

/-- `fmt.Sprintf("enable;%d", num)` (utils.go:172). -/
def enableMarker (num : Nat) : String := "enable;" ++ num.repr

/-- utils.go:160-190, the loop of `PipeJSON` over the pairs; `first` is `i == 0`.  The argument list has even length.
`reflect.TypeOf(nil).Name()` in the error message of line 163 panics for a nil id. -/
def pipeLoop (env : Env V) (num : Nat) : Bool → List (PArg V) → Res Bytes
  | _, [] => .ok []
  | _, [_] => .ok []
  | first, a :: msg :: rest =>
    match a with
    | .nil => .panic
    | .val _ => .err .badArgs
    | .int z _ =>
      let header : Header := if first then some [(PIPED, .str (enableMarker num))] else none
      match packWithMarshaller env { id := Int32.ofInt z, header := header, body := msg.body } (some (env.builtin .json)) with
      | .ok buf =>
        match pipeLoop env num false rest with
        | .ok bufs => .ok (buf ++ bufs)
        | .err e => .err e
        | .panic => .panic
        | .block => .block
      | .err e => .err (wrapErr e)
      | .panic => .panic
      | .block => .block

/-- utils.go:146-199 `PipeJSON`. -/
def pipeJSON (env : Env V) (ev : WEv) (args : List (PArg V)) : SendOut :=
  if args.length = 0 then ⟨[], .ok ()⟩
  else if args.length % 2 ≠ 0 then ⟨[], .err .badArgs⟩
  else
    match pipeLoop env (args.length / 2) true args with
    | .ok allBuf => if allBuf.length ≠ 0 then writeOnce ev allBuf else ⟨[], .ok ()⟩
    | .err e => ⟨[], .err e⟩
    | .panic => ⟨[], .panic⟩
    | .block => ⟨[], .block⟩

end Tcpx
