import Verif.Model.PackType
import Verif.Model.Mux
/-!
# Model of the example with a marshaller of its own, examples/modules/my-marshal

Bodies and destinations are byte strings, the only values its marshaller handles.
-/
namespace Tcpx.MyMarshal

/-- examples/modules/my-marshal/marshaller/marshaller.go:5-17 `ByteMarshaller`. -/
def byteMarshaller : Marshaller Bytes :=
  { name := "ByteMarshaller", marshal := fun v => some v, unmarshal := fun data _ => some data }

/-- What a handler prints: an id and a text, or an error. examples/modules/my-marshal/server/main.go:18-21, 28-31, 37-50. -/
inductive Printed where
  | line (id : Int32) (text : Bytes)
  | error
deriving DecidableEq, Repr

/-- `if e != nil {print; return}; print id, message`. examples/modules/my-marshal/server/main.go:17-21, 27-31. -/
def printed : Res (Message Bytes) → Res Printed
  | .ok m => match m.body with
    | some text => .ok (.line m.id text)
    | none => .panic            -- does not occur: the destination is a variable
  | .err _ => .ok .error
  | .panic => .panic
  | .block => .block

/-- examples/modules/my-marshal/server/main.go:15-22, the handler of message 22. -/
def handler22 (env : Env Bytes) (stream : Slice) : Res Printed :=
  printed (ctxBind env byteMarshaller stream [])

/-- examples/modules/my-marshal/server/main.go:24-32, the handler of message 23, with the `packx` of main.go:10. -/
def handler23 (env : Env Bytes) (stream : Slice) : Res Printed :=
  printed (unpackWithMarshaller env stream [] (some byteMarshaller))

/-- examples/modules/my-marshal/server/main.go:34-51, the handler of message 24. -/
def handler24 (stream : Slice) : Res Printed :=
  match messageIDOf stream with
  | .ok id =>
    match bodyBytesOf stream with
    | .ok raw =>
      match byteMarshaller.unmarshal raw.live [] with
      | some message => .ok (.line id message)
      | none => .ok .error
    | .err _ => .ok .error
    | .panic => .panic
    | .block => .block
  | .err _ => .ok .error
  | .panic => .panic
  | .block => .block

/-- No counterpart in the code: names of the three handlers. -/
def h22 : H := 22
/-- No counterpart in the code: names of the three handlers. -/
def h23 : H := 23
/-- No counterpart in the code: names of the three handlers. -/
def h24 : H := 24

/-- What the handler of that name does with a message. examples/modules/my-marshal/server/main.go:15-51. -/
def handler (env : Env Bytes) (h : H) (stream : Slice) : Option (Res Printed) :=
  if h = h22 then some (handler22 env stream)
  else if h = h23 then some (handler23 env stream)
  else if h = h24 then some (handler24 stream)
  else none

/-- examples/modules/my-marshal/server/main.go:14-51, the registration. -/
def ops : List RegOp := [.addHandler 22 [h22], .addHandler 23 [h23], .addHandler 24 [h24]]

/-- examples/modules/my-marshal/client/main.go:18-22, 31-35, 44-48: what the client sends. -/
def packed (env : Env Bytes) (id : Int32) (payload : Bytes) : Res Bytes :=
  packWithMarshaller env { id := id, header := none, body := some payload } (some byteMarshaller)

end Tcpx.MyMarshal
