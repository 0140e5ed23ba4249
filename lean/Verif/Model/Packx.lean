import Verif.Model.Go
/-!
# Model of `packx.go`, `message.go`, `marshaller.go` (wire format)

`encoding/json` and marshallers are parameters, see `JSONCodec` and `Marshaller`.
-/
namespace Tcpx

/-- Dynamic values (`interface{}`) that occur in headers.  The code only ever asks whether such a value is a
string (`v.(string)`), so everything that is not a string is kept only roughly apart.
E.g. packx.go:593 (headers), context.go:370 (user names). -/
inductive Any where
  | str (s : String)
  | num (z : Int)
  | bool (b : Bool)
  | null
  | other (n : Nat)
deriving DecidableEq, Repr

/-- The type assertion `v.(string)`. utils.go:239, context.go:375. -/
def Any.asString : Any → Option String
  | .str s => some s
  | _ => none

/-- `map[string]interface{}`, non-nil. message.go:9, packx.go:44. -/
abbrev HMap := GoMap String Any
/-- `map[string]interface{}`, possibly nil (`none`). message.go:9. -/
abbrev Header := Option HMap

/-- `header[key]` with presence; a nil map has no keys. message.go:9, utils.go:232. -/
def Header.get? : Header → String → Option Any
  | none, _ => none
  | some m, k => GoMap.get? m k

/-- `len(header)`. The Go built-in; utils.go:229. -/
def Header.len : Header → Nat
  | none => 0
  | some m => m.length

/-- `encoding/json` restricted to headers: `json.Marshal(header)` (packx.go:299, 522) and
`json.Unmarshal(bytes, &header)` into a nil map (packx.go:241, 375).  `none` is a returned error.
Trusted: the standard library; laws used by theorems are stated in `JSONCodec.Lawful`. -/
structure JSONCodec where
  marshal   : Header → Option Bytes
  unmarshal : Bytes → Option Header

/-- marshaller.go:13-17 `Marshaller`, over an abstract type `V` of Go values.
`unmarshal bs d` is the destination value after decoding into a destination holding `d`. -/
structure Marshaller (V : Type) where
  name      : String
  marshal   : V → Option Bytes
  unmarshal : Bytes → V → Option V

/-- The five built-in marshallers, marshaller.go:36-110. -/
inductive Builtin where
  | json | xml | toml | yaml | protobuf
deriving DecidableEq, Repr

/-- `MarshalName()` of the built-ins: marshaller.go:45-47, 58-60, 71-73, 84-86, 108-110. -/
def Builtin.marshalName : Builtin → String
  | .json => "json"
  | .xml => "xml"
  | .toml => "toml"
  | .yaml => "yaml"
  | .protobuf => "protobuf"

/-- Everything the code takes from its environment: encoding/json for headers and the encode/decode functions of the
built-in marshallers (marshaller.go:38-110 delegate to json/xml/yaml/toml/protobuf libraries). -/
structure Env (V : Type) where
  json    : JSONCodec
  enc     : Builtin → V → Option Bytes
  dec     : Builtin → Bytes → V → Option V

/-- The built-in marshaller values, e.g. `JsonMarshaller{}`. marshaller.go:36-110. -/
def Env.builtin {V : Type} (env : Env V) (b : Builtin) : Marshaller V :=
  { name := b.marshalName, marshal := env.enc b, unmarshal := env.dec b }

/-- message.go:7-11 `Message`; `body = none` is a nil interface. -/
structure Message (V : Type) where
  id     : Int32
  header : Header
  body   : Option V

section
variable {V : Type}

/-- Wrap a returned error, `errorx.Wrap(e)`: no longer equal to `io.EOF`. Package errorx; e.g. packx.go:468. -/
def wrapErr : Err → Err
  | .eof => .io
  | e => e

/-- `if x == nil {return error e}` for library calls. E.g. packx.go:305-308. -/
def orErr {α : Type} (o : Option α) (e : Err) : Res α :=
  match o with
  | some a => .ok a
  | none => .err e

/-! ## Packing -/

/-- packx.go:292-326 and 515-543 (the two functions share this text): assemble
length, id, header length, body length, header, body. -/
def frame (id : Int32) (headerBuf bodyBuf : Bytes) : Bytes :=
  let content := putUint32 id.toUInt32 ++ putUint32 (lenU32 headerBuf) ++ putUint32 (lenU32 bodyBuf)
                  ++ headerBuf ++ bodyBuf
  putUint32 (lenU32 content) ++ content

/-- packx.go:287-327 `PackWithMarshaller` (`m = none` is a nil marshaller). -/
def packWithMarshaller (env : Env V) (msg : Message V) (m : Option (Marshaller V)) : Res Bytes := do
  let m := m.getD (env.builtin .json)
  let headerBuf ← orErr (env.json.marshal msg.header) .json
  let bodyBuf ← match msg.body with
    | none => .ok []
    | some v => orErr (m.marshal v) .marshal
  .ok (frame msg.id headerBuf bodyBuf)

/-- packx.go:513-544 `PackWithMarshallerAndBody`; `msg.Body` is ignored by the code. -/
def packWithMarshallerAndBody (json : JSONCodec) (id : Int32) (header : Header) (body : Bytes) : Res Bytes := do
  let headerBuf ← orErr (json.marshal header) .json
  .ok (frame id headerBuf body)

/-- packx.go:44-49 and 58-63: merge the variadic header maps into a fresh map.  Ranging over a nil map does
nothing; a map is ranged over in the order of its list (Go: any order). -/
def mergeHeaders (hs : List Header) : HMap :=
  hs.foldl (fun acc h => (h.getD []).foldl (fun acc e => acc.set e.1 e.2) acc) []

/-- packx.go:40-51 `Packx.Pack`. -/
def packxPack (env : Env V) (m : Marshaller V) (id : Int32) (src : Option V) (headers : List Header) : Res Bytes :=
  if headers = [] then
    packWithMarshaller env { id := id, header := some [], body := src } (some m)
  else
    packWithMarshaller env { id := id, header := some (mergeHeaders headers), body := src } (some m)

/-- packx.go:54-65 `Packx.PackWithBody`. -/
def packxPackWithBody (json : JSONCodec) (id : Int32) (body : Bytes) (headers : List Header) : Res Bytes :=
  if headers = [] then
    packWithMarshallerAndBody json id (some []) body
  else
    packWithMarshallerAndBody json id (some (mergeHeaders headers)) body

/-- `panic(e)` on a returned error. packx.go:550-552, 561-563. -/
def orPanic {α : Type} : Res α → Res α
  | .err _ => .panic
  | r => r

/-- packx.go:557-565 `PackStuff`. -/
def packStuff (json : JSONCodec) (id : Int32) : Res Bytes :=
  orPanic (packWithMarshallerAndBody json id none [])

/-- tcpx.go:25 `DEFAULT_HEARTBEAT_MESSAGEID`. -/
def defaultHeartbeatMessageID : Int32 := 1392
/-- tcpx.go:26 `DEFAULT_AUTH_MESSAGEID`. -/
def defaultAuthMessageID : Int32 := 1393

/-- packx.go:546-554 `PackHeartbeat`. -/
def packHeartbeat (json : JSONCodec) : Res Bytes :=
  orPanic (packWithMarshallerAndBody json defaultHeartbeatMessageID none [])

/-- packx.go:593-599 `Pack` (the package-level function). -/
def packDetail (env : Env V) (id : Int32) (header : Header) (src : Option V) (m : Option (Marshaller V)) : Res Bytes :=
  packWithMarshaller env { id := id, header := header, body := src } m

/-- message.go:34-36 `Message.Pack`. -/
def Message.pack (env : Env V) (msg : Message V) (m : Option (Marshaller V)) : Res Bytes :=
  packWithMarshaller env msg m

/-! ## Marshaller names -/

/-- marshaller.go:19-34 `GetMarshallerByMarshalName`. -/
def getMarshallerByMarshalName (env : Env V) (name : String) : Res (Marshaller V) :=
  match name with
  | "json" => .ok (env.builtin .json)
  | "xml" => .ok (env.builtin .xml)
  | "toml" | "tml" => .ok (env.builtin .toml)
  | "yaml" | "yml" => .ok (env.builtin .yaml)
  | "protobuf" | "proto" => .ok (env.builtin .protobuf)
  | _ => .err .badName

/-- packx.go:330-347 `PackWithMarshallerName`. -/
def packWithMarshallerName (env : Env V) (msg : Message V) (name : String) : Res Bytes :=
  match name with
  | "json" => packWithMarshaller env msg (some (env.builtin .json))
  | "xml" => packWithMarshaller env msg (some (env.builtin .xml))
  | "toml" | "tml" => packWithMarshaller env msg (some (env.builtin .toml))
  | "yaml" | "yml" => packWithMarshaller env msg (some (env.builtin .yaml))
  | "protobuf" | "proto" => packWithMarshaller env msg (some (env.builtin .protobuf))
  | _ => .err .badName

/-! ## Accessors -/

/-- packx.go:175-181 `LengthOf`. -/
def lengthOf (s : Slice) : Res Int32 :=
  if s.len < 4 then .err .short
  else do
    let b ← s.sub 0 4
    let v ← uint32Of b.live
    .ok v.toInt32

/-- packx.go:159-165 `MessageIDOf`. -/
def messageIDOf (s : Slice) : Res Int32 :=
  if s.len < 8 then .err .short
  else do
    let b ← s.sub 4 8
    let v ← uint32Of b.live
    .ok v.toInt32

/-- packx.go:189-195 `HeaderLengthOf`. -/
def headerLengthOf (s : Slice) : Res Int32 :=
  if s.len < 12 then .err .short
  else do
    let b ← s.sub 8 12
    let v ← uint32Of b.live
    .ok v.toInt32

/-- packx.go:203-209 `BodyLengthOf`. -/
def bodyLengthOf (s : Slice) : Res Int32 :=
  if s.len < 16 then .err .short
  else do
    let b ← s.sub 12 16
    let v ← uint32Of b.live
    .ok v.toInt32

/-- packx.go:217-227 `HeaderBytesOf`.  The guard is computed in `int`, the slice bound in `int32`. -/
def headerBytesOf (s : Slice) : Res Slice := do
  let headerLen ← headerLengthOf s
  if (s.len : Int) < 16 + headerLen.toInt then .err .short
  else s.sub 16 (16 + headerLen : Int32).toInt

/-- packx.go:235-246 `HeaderOf`.  Errors are wrapped. -/
def headerOf (json : JSONCodec) (s : Slice) : Res Header :=
  match headerBytesOf s with
  | .ok hb => orErr (json.unmarshal hb.live) .json
  | .err e => .err (wrapErr e)
  | .panic => .panic
  | .block => .block

/-- packx.go:254-268 `BodyBytesOf`.  The guard is computed in `int`, the slice bounds in `int32`. -/
def bodyBytesOf (s : Slice) : Res Slice := do
  let headerLen ← headerLengthOf s
  let bodyLen ← bodyLengthOf s
  if (s.len : Int) < 16 + headerLen.toInt + bodyLen.toInt then .err .short
  else s.sub (16 + headerLen : Int32).toInt (16 + headerLen + bodyLen : Int32).toInt

/-- packx.go:139-149 `FirstBlockOfBytes`; `length` is a `uint32` converted to `int`. -/
def firstBlockOfBytes (s : Slice) : Res Slice :=
  if s.len < 16 then .err .short
  else do
    let b ← s.sub 0 4
    let length ← uint32Of b.live
    if s.len < 4 + length.toNat then .err .short
    else s.sub 0 (4 + length.toNat)

/-! ## Unpacking -/

/-- packx.go:358-394 `UnpackWithMarshaller`.  All index arithmetic is `uint32` and wraps.  The result is the
message; `Message.Body` is the value of the destination afterwards (`reflect.Indirect(...).Interface()`), for a
destination that is a non-nil pointer whose target holds `dest`. -/
def unpackWithMarshaller (env : Env V) (stream : Slice) (dest : V) (m : Option (Marshaller V)) : Res (Message V) := do
  let m := m.getD (env.builtin .json)
  let b ← stream.sub 0 4
  let length ← uint32Of b.live
  let stream ← stream.sub 0 (length + 4 : UInt32).toNat
  let b ← stream.sub 4 8
  let messageID ← uint32Of b.live
  let b ← stream.sub 8 12
  let headerLength ← uint32Of b.live
  let b ← stream.sub 12 16
  let bodyLength ← uint32Of b.live
  let header ← (if headerLength ≠ 0 then do
      let hb ← stream.sub 16 (16 + headerLength : UInt32).toNat
      orErr (env.json.unmarshal hb.live) .json
    else .ok none)
  let dest ← (if bodyLength ≠ 0 then do
      let bb ← stream.sub (16 + headerLength : UInt32).toNat (16 + headerLength + bodyLength : UInt32).toNat
      orErr (m.unmarshal bb.live dest) .marshal
    else .ok dest)
  .ok { id := messageID.toInt32, header := header, body := some dest }

/-- packx.go:397-414 `UnpackWithMarshallerName`. -/
def unpackWithMarshallerName (env : Env V) (stream : Slice) (dest : V) (name : String) : Res (Message V) :=
  match name with
  | "json" => unpackWithMarshaller env stream dest (some (env.builtin .json))
  | "xml" => unpackWithMarshaller env stream dest (some (env.builtin .xml))
  | "toml" | "tml" => unpackWithMarshaller env stream dest (some (env.builtin .toml))
  | "yaml" | "yml" => unpackWithMarshaller env stream dest (some (env.builtin .yaml))
  | "protobuf" | "proto" => unpackWithMarshaller env stream dest (some (env.builtin .protobuf))
  | _ => .err .badName

/-! ## Header look-ups -/

/-- utils.go:225-244 `headerGetString`: value, present?, or an error if present but not a string. -/
def headerGetString (h : Header) (key : String) : Res (String × Bool) :=
  if h.len = 0 then .ok ("", false)
  else match h.get? key with
    | none => .ok ("", false)
    | some v => match v.asString with
      | none => .err .notString
      | some s => .ok (s, true)

/-- header-const-key.go:5 -/
def HEADER_ROUTER_KEY : String := "Router-Type"
/-- header-const-key.go:6 -/
def HEADER_ROUTER_VALUE : String := "Router-Pattern-Value"
/-- router-type.go:5 -/
def MESSAGEID : String := "MESSAGE_ID"
/-- router-type.go:6 -/
def URLPATTERN : String := "URL_PATTERN"
/-- tcpx.go:31 -/
def PIPED : String := "[tcpx-buffer-in-serial]"

/-- packx.go:567-577 `URLPatternOf`. -/
def urlPatternOf (json : JSONCodec) (s : Slice) : Res String := do
  let h ← headerOf json s
  let r ← headerGetString h HEADER_ROUTER_VALUE
  .ok r.1

/-- packx.go:579-590 `RouteTypeOf`. -/
def routeTypeOf (json : JSONCodec) (s : Slice) : Res String := do
  let h ← headerOf json s
  let r ← headerGetString h HEADER_ROUTER_KEY
  .ok r.1

/-! ## Building messages -/

/-- message.go:13-22 `NewMessage`. -/
def newMessage (id : Int32) (src : Option V) : Message V :=
  { id := id
    header := some [(HEADER_ROUTER_KEY, .str MESSAGEID), (HEADER_ROUTER_VALUE, .num id.toInt)]
    body := src }

/-- message.go:23-32 `NewURLPatternMessage`. -/
def newURLPatternMessage (url : String) (src : Option V) : Message V :=
  { id := 0
    header := some [(HEADER_ROUTER_KEY, .str URLPATTERN), (HEADER_ROUTER_VALUE, .str url)]
    body := src }

/-- message.go:42-47 `Message.Get`; an absent key and a nil header give nil (`Any.null`). -/
def Message.get (msg : Message V) (key : String) : Any :=
  match msg.header with
  | none => .null
  | some m => (GoMap.get? m key).getD .null

/-- message.go:52-54 `Message.Set`; assignment to an entry of a nil map panics. -/
def Message.set (msg : Message V) (k : String) (v : Any) : Res (Message V) :=
  match msg.header with
  | none => .panic
  | some m => .ok { msg with header := some (GoMap.set m k v) }

end
end Tcpx
