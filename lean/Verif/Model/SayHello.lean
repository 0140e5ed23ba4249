import Verif.Model.Mux
import Verif.Model.Exit
import Verif.Model.Watch
/-!
# Model of the first example, examples/sayHello/server/main.go

Registration, the three listening calls, and what its handlers do to the watchers of a connection (nothing).
-/
namespace Tcpx.SayHello

/-- examples/sayHello/server/main.go:121-138 `SayHello`. -/
def sayHello : H := 0
/-- examples/sayHello/server/main.go:140-157 `SayGoodBye`. -/
def sayGoodBye : H := 1
/-- examples/sayHello/server/main.go:159-176 `SayName`. -/
def sayName : H := 2
/-- examples/sayHello/server/main.go:178-199 `SayHelloProtobuf`. -/
def sayHelloProtobuf : H := 3
/-- examples/sayHello/server/main.go:200-202 `Middleware1`. -/
def middleware1 : H := 4
/-- examples/sayHello/server/main.go:204-206 `Middleware2`. -/
def middleware2 : H := 5
/-- examples/sayHello/server/main.go:208-210 `Middleware3`. -/
def middleware3 : H := 6
/-- examples/sayHello/server/main.go:212-214 `MiddlewareGlobal`. -/
def middlewareGlobal : H := 7
/-- tcpx.go:207-210, the built-in heartbeat handler. -/
def builtInHeartbeat : H := 8
/-- examples/sayHello/server/main.go:33-35, the rewritten heartbeat handler. -/
def heartbeat : H := 9

/-- examples/sayHello/server/main.go:27-53, in order. -/
def ops : List RegOp :=
  [.heartBeatMode true builtInHeartbeat,
   .rewriteHeartBeatHandler 20 heartbeat,
   .use [.key "middleware1", .fn middleware1, .key "middleware2", .fn middleware2],
   .useGlobal [middlewareGlobal],
   .addHandler 1 [sayHello],
   .unUse ["middleware2"],
   .addHandler 3 [sayGoodBye],
   .addHandler 5 [middleware3, sayName],
   .addHandler 11 [sayHelloProtobuf]]

/-- examples/sayHello/server/main.go:56-78, the networks listened on, each in a goroutine. -/
def networks : List String := ["tcp", "udp", "kcp"]

/-- examples/sayHello/server/main.go:59-61, 67-69, 74-76: the goroutine panics if the listening call returns an error (or panics), and
nobody recovers. -/
def endsProcess : Returned → Bool
  | .err => true
  | .panics => true
  | _ => false

/-- What happens in the process to the watchers of a connection besides the framework's own `CloseConn` (tcpx.go:560): nothing, as no
handler calls `RecvHeartBeat`, `RecvAuthPass`, `RecvAuthDeny` (examples/sayHello/server/main.go:33-35, 121-214); the built-in handler is
removed (tcpx.go:240). -/
def OwnCalls (jobs : Nat → List UCall) : Prop := ∀ i, ∀ u ∈ jobs i, ∃ c, u = .close c

end Tcpx.SayHello
