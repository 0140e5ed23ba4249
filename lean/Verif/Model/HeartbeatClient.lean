import Verif.Model.HeartbeatExample
import Verif.Model.Packx
/-!
# Model of the client of the heartbeat example, examples/modules/heartbeat/client/client.go

Its time is not modelled: how often it has written is a parameter.
-/
namespace Tcpx.HeartbeatClient
variable {V : Type}

/-- The bytes of `n` rounds of the loop; the error of packing is overwritten, the buffer is then nil.
examples/modules/heartbeat/client/client.go:17-30. -/
def sends (env : Env V) (n : Nat) : Res (List Bytes) :=
  match packWithMarshaller env { id := HeartbeatExample.heartbeatId, header := none, body := none } none with
  | .ok buf => .ok (List.replicate n buf)
  | .err _ => .ok (List.replicate n [])
  | .panic => .panic
  | .block => .block

end Tcpx.HeartbeatClient
