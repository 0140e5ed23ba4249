import Verif.Model.MyMarshal
import Verif.Model.Requests
/-!
# Model of the client of examples/modules/my-marshal, and of what its server does with a request
-/
namespace Tcpx.MyMarshal

/-- A buffer the client writes: the error of packing is overwritten by that of `Write`, which is then given a nil buffer.
examples/modules/my-marshal/client/main.go:18-24, 30-36, 42-48. -/
def buffer (env : Env Bytes) (payload : Bytes) (id : Int32) : Res Bytes :=
  match packed env id payload with
  | .ok b => .ok b
  | .err _ => .ok []
  | .panic => .panic
  | .block => .block

/-- What the client hands to `Write`, one after the other, as long as no `Write` fails. examples/modules/my-marshal/client/main.go:17-53. -/
def clientWrites (env : Env Bytes) (payload : Bytes) : Res (List Bytes) :=
  match buffer env payload 22, buffer env payload 23, buffer env payload 24 with
  | .ok a, .ok b, .ok c => .ok [a, b, c]
  | .err e, _, _ => .err e
  | .panic, _, _ => .panic
  | .block, _, _ => .block
  | _, .err e, _ => .err e
  | _, .panic, _ => .panic
  | _, .block, _ => .block
  | _, _, .err e => .err e
  | _, _, .panic => .panic
  | _, _, .block => .block

/-- The handlers of a message, run one after the other: they use nothing of the connection, and end the process if one panics.
examples/modules/my-marshal/server/main.go:15-51; context.go:559-569 `Next`. -/
def code (env : Env Bytes) (stream : Bytes) : Dispatch → Code
  | .chain hs => hs.foldr (fun h k => if handler env h { live := stream } = some .panic then .panic else k) .done
  | _ => .done

/-- What the handlers of a message print. examples/modules/my-marshal/server/main.go:18, 21, 28, 31, 38, 43, 48, 51. -/
def prints (env : Env Bytes) (stream : Bytes) : Dispatch → List Printed
  | .chain hs => hs.filterMap fun h =>
      match handler env h { live := stream } with
      | some (.ok p) => some p
      | _ => none
  | _ => []

end Tcpx.MyMarshal
