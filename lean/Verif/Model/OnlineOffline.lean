import Verif.Model.Pool
/-!
# Model of the server that tells who is online, examples/modules/online-offline/server/server.go

The handlers of the example as goroutines of `Model/Pool`, one for each message, beside the goroutines in which the server closes
connections.  What `Bind` makes of the body of a message (C81) is part of the message.  The standard output is a connection, `out`, that
nobody closes; what is printed to it is numbered.
-/
namespace Tcpx.OnlineOffline

/-- examples/modules/online-offline/server/server.go:13 `WithBuiltInPool(true)`: every connection has the server's pool (tcpx.go:533-535). -/
def pool : Nat → Option Nat := fun _ => some 0

/-- examples/modules/online-offline/server/server.go:26: the text of the error of `Bind`. -/
def bindError : Nat := 0
/-- examples/modules/online-offline/server/server.go:30. -/
def onlineSuccess : Nat := 1
/-- examples/modules/online-offline/server/server.go:34. -/
def offlineSuccess : Nat := 2

/-- examples/modules/online-offline/server/server.go:20-31 `online`; `none` is a body that `Bind` refuses. -/
def online (out c : Nat) : Option String → PProg Unit
  | none => doUnit (.write out bindError)
  | some u => do
    let _ ← ctxOnline pool c u
    doUnit (.write out onlineSuccess)

/-- examples/modules/online-offline/server/server.go:33-36 `offline`. -/
def offline (out c : Nat) : PProg Unit := do
  doUnit (.write out offlineSuccess)
  let _ ← ctxOffline pool c
  .ret ()

/-- A goroutine of the server: the handler of a message that came over `c` (tcpx.go:600-602), or the closing of `c` (tcpx.go:560).
examples/modules/online-offline/server/server.go:15-16. -/
inductive Job where
  | login (c : Nat) (username : Option String)
  | logout (c : Nat)
  | close (c : Nat)
deriving DecidableEq, Repr

/-- examples/modules/online-offline/server/server.go:15-16, the handlers by message. -/
def Job.run (out : Nat) : Job → PProg Unit
  | .login c u => online out c u
  | .logout c => offline out c
  | .close c => closeConn pool c

/-- The server as it is started (examples/modules/online-offline/server/server.go:10-18): nobody is online, and goroutine `i` will be
`jobs i`, whenever it is started. -/
def start (out : Nat) (jobs : Nat → Job) : PSys :=
  { world := { conn := fun _ => {}, pool := fun _ => {} }
    threads := fun i => (jobs i).run out
    trace := [] }

end Tcpx.OnlineOffline
