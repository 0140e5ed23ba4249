import Verif.Model.Mux
import Verif.Model.Timed
/-!
# Model of the heartbeat example, examples/modules/heartbeat/server/server.go

The registration, and what the goroutines of its process do to the watchers of connections.
-/
namespace Tcpx.HeartbeatExample

/-- No counterpart in the code: the name of the handler of tcpx.go:227-230. -/
def builtIn : H := 0

/-- tcpx.go:25 `DEFAULT_HEARTBEAT_MESSAGEID`. -/
def heartbeatId : Int32 := 1392

/-- examples/modules/heartbeat/server/server.go:10-12. -/
def ops : List RegOp := [.heartBeatModeDetail true false heartbeatId builtIn]

/-- examples/modules/heartbeat/server/server.go:12: an interval of ten seconds (in nanoseconds); auth is off, no loss callback is set. -/
def cfg : TCfg := { w := { heartBeatOn := true }, interval := 10 * 1000000000, authDeadline := 0 }

/-- The handlers a dispatch runs. tcpx.go:853-992. -/
def runs : Dispatch → List H
  | .direct h => [h]
  | .chain hs => hs
  | _ => []

/-- A goroutine of the process: of a connection (tcpx.go:553-599) or of a message from a connection (tcpx.go:602). -/
inductive Gor where
  | conn (c : Nat)
  | msg (c : Nat) (routed : Srv.Routed)

/-- What a goroutine does to the watchers: that of a connection ends with `CloseConn` (tcpx.go:560), that of a message runs its
handlers; the built-in one calls `RecvHeartBeat` (tcpx.go:229). -/
def Gor.calls : Gor → List UCall
  | .conn c => [.close c]
  | .msg c r => (runs ((runOps .new ops).handle r)).flatMap fun h => if h = builtIn then [.beat c] else []

end Tcpx.HeartbeatExample
