import Verif.Model.CounterClient
/-!
# Model of what the client of the request counter sends
-/
namespace Tcpx.CounterClient
variable {V : Type}

/-- What the client writes; the error of packing is not looked at, the program then writes a nil buffer.
examples/modules/middleware/global-middleware/client/main.go:19-31. -/
def sends (env : Env V) (user : V) : Res Bytes :=
  match packWithMarshallerName env
    { id := 3, header := some [("Authorization", .str "a client secret key")], body := some user } "json" with
  | .ok b => .ok b
  | .err _ => .ok []
  | .panic => .panic
  | .block => .block

end Tcpx.CounterClient
