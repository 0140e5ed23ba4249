import Verif.Model.Requests
import Verif.Model.PackType
/-!
# Model of replies as parts of handlers, and of the example examples/modules/url-pattern

The handler of the example as code of `Model/Requests`.
-/
namespace Tcpx
variable {V : Type}

/-- A reply in a handler that does not look at the error returned: what it writes, then the rest. context.go:505-521. -/
def Code.ofSend (out : SendOut) (k : Code) : Code :=
  out.calls.foldr (fun c k => .call (.send (c.buf.take c.n)) fun _ => k)
    (match out.res with
     | .panic => .panic
     | _ => k)

namespace UrlExample

/-- examples/modules/url-pattern/server/server.go:21-34 `login`. -/
def login : H := 0

/-- examples/modules/url-pattern/server/server.go:13. -/
def ops : List RegOp := [.any "/login/" [login]]

/-- The body of `login`: `token` is the map of server.go:31-33, `dest` the zero value of server.go:26; a `Write` takes up to `room`
bytes.  Printing is left out. examples/modules/url-pattern/server/server.go:21-34. -/
def loginCode (env : Env V) (room : Nat) (token dest : V) (stream : Bytes) : Code :=
  match ctxBind env (env.builtin .json) { live := stream } dest with
  | .ok _ => .call .urlPattern fun r =>
    match r with
    | .pattern p => .ofSend (ctxURLPatternReply env .json p .conn (.accept room) (some token)) .done
    | _ => .done
  | .panic => .panic
  | _ => .done

/-- What the client prints for a message it received: a token, "unexpected urlPattern", or an error, after which it stops.
examples/modules/url-pattern/client.go:36-58. -/
inductive Shown (V : Type) where
  | token (v : V)
  | unexpected
  | stopped

/-- The body of the client's loop; `dest` is the zero value of client.go:52, which is printed if `BindJSON` fails (a decoder that
fails is taken not to have filled it). examples/modules/url-pattern/client.go:41-57. -/
def shown (env : Env V) (dest : V) (block : Bytes) : Shown V :=
  match packTypeURLPattern env.json { live := block } with
  | .ok p =>
    if p = "/login/" then
      match packTypeBind env .json { live := block } dest with
      | .ok v => .token v
      | .err _ => .token dest
      | _ => .stopped
    else .unexpected
  | _ => .stopped

end UrlExample

end Tcpx
