import Verif.Model.Mux
import Verif.Model.Packx
import Verif.Model.Timed
/-!
# Model of the auth example, examples/modules/auth/server/main.go

The registration, the handler, and what the goroutines of its process do to the watchers of connections.  `MD5` is a parameter: the
example's function of that name makes text of text.  What `Bind` makes of a message is part of the message.
-/
namespace Tcpx.AuthExample

/-- examples/modules/auth/server/main.go:35-39 `Auth`. -/
structure Auth where
  f1 : String
  f2 : String
  signature : String
deriving DecidableEq, Repr

/-- examples/modules/auth/server/main.go:11. -/
def appSecret : String := "hello"

/-- examples/modules/auth/server/main.go:41-43 `Encrypt`. -/
def encrypt (md5 : String → String) (a : Auth) (secret : String) : String := md5 (a.f1 ++ a.f2 ++ secret)

/-- What the handler does to its connection. examples/modules/auth/server/main.go:17-28. -/
inductive Act where
  | write (text : String)
  | deny
  | pass
deriving DecidableEq, Repr

/-- examples/modules/auth/server/main.go:16-29, the handler; `bound` is what `Bind` returns: the error's text, or the credentials. -/
def handler (md5 : String → String) (bound : Except String Auth) : List Act :=
  match bound with
  | .error e => [.write ("server error: " ++ e)]
  | .ok a => if encrypt md5 a appSecret ≠ a.signature then [.write "auth deny, signature wrong", .deny] else [.pass]

/-- No counterpart in the code: the name of the handler of examples/modules/auth/server/main.go:16-29. -/
def authHandler : H := 0

/-- examples/modules/auth/server/main.go:14-29. -/
def ops : List RegOp := [.withAuthDetail true false defaultAuthMessageID authHandler]

/-- examples/modules/auth/server/main.go:16: auth, with a deadline of thirty seconds (in nanoseconds); heartbeat is off. -/
def cfg : TCfg := { w := { auth := true }, interval := 0, authDeadline := 30 * 1000000000 }

/-- No counterpart in the code: a message to the server, how it is routed and what `Bind` makes of it. -/
structure Msg where
  conn : Nat
  routed : Srv.Routed
  bound : Except String Auth

/-- The handlers a dispatch runs; every handler of this server calls no `Abort`. tcpx.go:853-992. -/
def runs : Dispatch → List H
  | .direct h => [h]
  | .chain hs => hs
  | _ => []

/-- context.go:672-679: what an act is to the watchers of connection `c`. -/
def Act.calls (c : Nat) : Act → List UCall
  | .write _ => []
  | .deny => [.auth c (-1)]
  | .pass => [.auth c 1]

/-- A goroutine of the process: of a connection (tcpx.go:553-599) or of a message (tcpx.go:583). -/
inductive Gor where
  | conn (c : Nat)
  | msg (m : Msg)

/-- What a goroutine does to the watchers: that of a connection ends with `CloseConn` (tcpx.go:560), that of a message runs its
handlers (tcpx.go:853-992). -/
def Gor.calls (md5 : String → String) : Gor → List UCall
  | .conn c => [.close c]
  | .msg m => (runs ((runOps .new ops).handle m.routed)).flatMap fun h =>
      if h = authHandler then (handler md5 m.bound).flatMap (Act.calls m.conn) else []

end Tcpx.AuthExample
