import Verif.Model.Reader
import Verif.Model.Client
/-!
# Model of what handlers and clients read a message with (context.go:347-349, 607-617, pack-type.go, `Recv`, `BindJSON`,
`TCPCallOnceJSON` of utils.go)

A context's `Stream` is a slice, so its spare capacity is kept.  A destination is a non-nil pointer; decoding replaces its target.
-/
namespace Tcpx
variable {V : Type}

/-- packx.go:81-83 `Packx.Unpack`; `m` is the marshaller of the packx. -/
def packxUnpack (env : Env V) (m : Option (Marshaller V)) (stream : Slice) (dest : V) : Res (Message V) :=
  unpackWithMarshaller env stream dest m

/-- context.go:347-349 `Bind`; `m` is `ctx.Packx.Marshaller`. -/
def ctxBind (env : Env V) (m : Marshaller V) (stream : Slice) (dest : V) : Res (Message V) :=
  packxUnpack env (some m) stream dest

/-- context.go:609-611 `BindWithMarshaller`; packx.go:28-36 `NewPackx` turns a nil marshaller into JSON. -/
def ctxBindWithMarshaller (env : Env V) (m : Option (Marshaller V)) (stream : Slice) (dest : V) : Res (Message V) :=
  packxUnpack env (some (m.getD (env.builtin .json))) stream dest

/-- context.go:615-617 `RawStream`; packx.go:249-251 `Packx.BodyBytesOf`. -/
def ctxRawStream (stream : Slice) : Res Slice := bodyBytesOf stream

/-- utils.go:248-250 `Recv`. -/
def recv (r : Reader) : ReadOut Bytes := firstBlockOf (some r)

/-- A client calling `Recv` up to `n` times, stopping at the first error. utils.go:248. -/
def recvMany : Nat → Reader → ReadOut (List Bytes)
  | 0, r => .ok [] r
  | n + 1, r => (recv r).bind fun b r => (recvMany n r).bind fun bs r => .ok (b :: bs) r

/-- utils.go:142-144 `BindJSON`. -/
def bindJSON (env : Env V) (body : Bytes) (dest : V) : Res V := orErr (env.dec .json body dest) .marshal

/-- pack-type.go:14-69 `BindJSON`, `BindProtobuf`, `BindTOML`, `BindYAML`, `BindXML` (the five have the same text up to the
decoder).  An empty body is decoded too. -/
def packTypeBind (env : Env V) (b : Builtin) (pt : Slice) (dest : V) : Res V :=
  match bodyBytesOf pt with
  | .ok body => orErr (env.dec b body.live dest) .marshal
  | .err e => .err (wrapErr e)
  | .panic => .panic
  | .block => .block

/-- pack-type.go:71-78 `URLPattern`. -/
def packTypeURLPattern (json : JSONCodec) (pt : Slice) : Res String :=
  match urlPatternOf json pt with
  | .ok s => .ok s
  | .err e => .err (wrapErr e)
  | .panic => .panic
  | .block => .block

/-- pack-type.go:80-86 `MessageID`. -/
def packTypeMessageID (pt : Slice) : Res Int32 :=
  match messageIDOf pt with
  | .ok id => .ok id
  | .err e => .err (wrapErr e)
  | .panic => .panic
  | .block => .block

/-- What `TCPCallOnceJSON` does: whether it got a connection, what it wrote to it, whether it closed it, what it returned.
utils.go:201-223. -/
structure CallOut where
  dialled : Bool
  calls   : List WCall
  closed  : Bool
  res     : Res Unit
deriving DecidableEq, Repr

/-- utils.go:201-222 `TCPCallOnceJSON`.  `dial` is `none` if dialling fails, else what the `Write` call on the connection does.
`messageID` is an `int` converted to `int32`.  `conn.Close()` is deferred once the connection is there. -/
def tcpCallOnceJSON (env : Env V) (dial : Option WEv) (messageID : Int) (data : Option V) : CallOut :=
  match dial with
  | none => ⟨false, [], false, .err .io⟩
  | some ev =>
    let out := sendPacked
      (packWithMarshaller env { id := Int32.ofInt messageID, header := none, body := data } (some (env.builtin .json))) (writeOnce ev)
    ⟨true, out.calls, true, out.res⟩

end Tcpx
