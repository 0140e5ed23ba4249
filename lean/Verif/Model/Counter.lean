import Verif.Model.Mux
/-!
# Model of the request counter, examples/modules/middleware/global-middleware/main.go

A request is the list of functions it still has to run: those of its chain, in order (neither calls `Next`, `Abort` or `Reset`, so the
chain runs them one after the other, context.go:559-569).  Requests run concurrently; `atomic.AddInt32` is one step, and so is the
plain read of the 32-bit counter in `getRequestTime` (aligned 32-bit reads are not torn; it is a data race all the same).
-/
namespace Tcpx.Counter

/-- No counterpart in the code: the name of `countRequestTime`. -/
def countRequestTime : H := 1
/-- No counterpart in the code: the name of `getRequestTime`. -/
def getRequestTime : H := 2

/-- examples/modules/middleware/global-middleware/main.go:13-15. -/
def ops : List RegOp := [.useGlobal [countRequestTime], .addHandler 3 [getRequestTime]]

/-- `requestTimes`, what each request still has to run, and the counts reported so far (newest first).
examples/modules/middleware/global-middleware/main.go:10. -/
structure State where
  requestTimes : Int32
  todo : Nat → List H
  reported : List (Nat × Int32)

/-- What a message makes a request run. tcpx.go:853-871, context.go:559-569. -/
def chainOf : Dispatch → List H
  | .chain hs => hs
  | .direct h => [h]
  | _ => []

/-- The server with requests `arr i`. examples/modules/middleware/global-middleware/main.go:10-21. -/
def start (arr : Nat → Srv.Routed) : State :=
  { requestTimes := 0, todo := fun i => chainOf ((runOps .new ops).handle (arr i)), reported := [] }

/-- Request `i` goes on by one step. examples/modules/middleware/global-middleware/main.go:23-28. -/
def State.step (s : State) (i : Nat) : State :=
  match s.todo i with
  | [] => s
  | h :: hs =>
    let s := { s with todo := fun j => if j = i then hs else s.todo j }
    if h = countRequestTime then { s with requestTimes := s.requestTimes + 1 }
    else if h = getRequestTime then { s with reported := (i, s.requestTimes) :: s.reported }
    else s

/-- Steps of requests in any order. No counterpart in the code: the scheduler. -/
def State.run (s : State) (sched : List Nat) : State := sched.foldl State.step s

end Tcpx.Counter
