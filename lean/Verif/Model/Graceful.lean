import Verif.Model.Lifecycle
/-!
# Model of `Stop`, `Start` and `Restart` among running listening calls

The goroutines of a server on network "tcp": listening calls made by user code or by `Start`, and user code calling `ListenAndServe`,
`Stop` and `Start`, step by step and in any order; and clients that connect.  Connections themselves are not followed here
(`Stop`'s argument does not matter), nor are panics of `OnConnect`.  `net.Listen` gives a listener only at an address where none is open.
-/
namespace Tcpx.Graceful

/-- User code: what it does after a call returns nil, and after it returns an error. `Restart` is `Stop` and then `Start` (tcpx.go:1214-1227).
For tcpx.go:367, 1140, 1191. -/
inductive User where
  | ret
  | serve (a : String) (k : User)      -- `go srv.ListenAndServe("tcp", a)`
  | stop (ok err : User)
  | start (ok err : User)
deriving DecidableEq, Repr

/-- Where a goroutine is. tcpx.go:500-525, 1140-1211. -/
inductive Thread where
  | spawned (k : Nat)              -- goroutine of the `k`-th call of `Start`, tcpx.go:1197-1204
  | listen (a : String)            -- about to call `net.Listen`, tcpx.go:500
  | record (a : String) (l : Nat)  -- tcpx.go:511
  | opening (a : String) (l : Nat) -- tcpx.go:514
  | check (a : String) (l : Nat)   -- tcpx.go:517
  | accept (a : String) (l : Nat)  -- tcpx.go:520
  | closing (a : String) (l : Nat) -- the deferred `listener.Close()`, tcpx.go:513
  | done
  | user (u : User)
  | stopSet (ok : User)            -- in `Stop`, tcpx.go:1146
  | sweep (ok : User)              -- in `Stop`, tcpx.go:1149-1160
  | startEval (ok : User)          -- in `Start`, tcpx.go:1196
  | startLoop (k : Nat) (rest : List String) (ok : User)   -- in `Start`, tcpx.go:1196
deriving DecidableEq, Repr

/-- What happens. tcpx.go:500-525, 1140-1211. -/
inductive Ev where
  | calling (i : Nat)                  -- goroutine `i`, a listening call, is started
  | listening (i : Nat) (a : String) (l : Nat)   -- `net.Listen` returned listener `l`
  | failed (i : Nat)                   -- `net.Listen` failed; the call returns the error
  | recorded (a : String) (l : Nat)    -- `fillProperty`
  | opened (i : Nat)                   -- `openState`
  | served (l : Nat)                   -- `Accept` returned a connection
  | acceptFailed (l : Nat)             -- `Accept` failed though the listener was open
  | ended (l : Nat)                    -- the accept loop ended
  | stopping                           -- `stopState`
  | swept                              -- `Stop` has closed the listeners
  | stopRet (ok : Bool)
  | startRet (ok : Bool)
  | connected (a : String) (l : Nat)   -- a client has been let in by listener `l`
  | refused (a : String)               -- a client was refused
deriving DecidableEq, Repr

/-- Server (tcpx.go:38-88), network and goroutines; the trace is newest first. -/
structure GState where
  state : LState := .stopped
  recs : List LRec := []
  bound : String → Option Nat := fun _ => none  -- the open listener at an address
  backlog : Nat → Nat := fun _ => 0             -- connections not yet accepted
  n : Nat := 0                                  -- listeners so far
  vars : Nat → Option String := fun _ => none   -- the loop variable of each call of `Start`
  starts : Nat := 0
  threads : List Thread := []
  trace : List Ev := []

namespace GState

/-- No counterpart in the code: goroutine `i` is now at `t`. -/
def put (s : GState) (i : Nat) (t : Thread) : GState := { s with threads := s.threads.set i t }

/-- No counterpart in the code: remember an event. -/
def log (s : GState) (e : Ev) : GState := { s with trace := e :: s.trace }

/-- No counterpart in the code: a goroutine for a listening call. `go` at user code and tcpx.go:1197. -/
def spawn (s : GState) (t : Thread) : GState := { s with threads := s.threads ++ [t] }.log (.calling s.threads.length)

/-- `net.Listen`, tcpx.go:500. -/
def listenAt (s : GState) (i : Nat) (a : String) (works : Bool) : GState :=
  if works = true ∧ s.bound a = none then
    ({ s with bound := fun x => if x = a then some s.n else s.bound x, n := s.n + 1 }.put i (.record a s.n)).log (.listening i a s.n)
  else (s.put i .done).log (.failed i)

/-- `Accept`, tcpx.go:520-524; the connection is then served, 526-607. -/
def acceptAt (s : GState) (i : Nat) (a : String) (l : Nat) (works : Bool) : GState :=
  if s.bound a = some l then
    if works = true then
      if 0 < s.backlog l then
        ({ s with backlog := fun x => if x = l then s.backlog l - 1 else s.backlog x }.put i (.check a l)).log (.served l)
      else s
    else (s.put i (.closing a l)).log (.acceptFailed l)
  else s.put i (.closing a l)

/-- A call of user code. tcpx.go:367, 1142-1144, 1192-1194. -/
def call (s : GState) (i : Nat) : User → GState
  | .ret => s
  | .serve a k => (s.put i (.user k)).spawn (.listen a)
  | .stop ok err => if s.state = .stopped then (s.put i (.user err)).log (.stopRet false) else s.put i (.stopSet ok)
  | .start ok err =>
    if s.state = .running then (s.put i (.user err)).log (.startRet false)
    else s.put i (.startEval ok)

/-- A step of goroutine `i` (`works`: nothing fails but for a reason given here).  tcpx.go:500-525, 1140-1211. -/
def thread (s : GState) (i : Nat) (works : Bool) : Thread → GState
  | .spawned k =>
    match s.vars k with
    | some a => s.put i (.listen a)
    | none => s
  | .listen a => s.listenAt i a works
  | .record a l => ({ s with recs := fillProperty "tcp" a l s.recs }.put i (.opening a l)).log (.recorded a l)
  | .opening a l => ({ s with state := .running }.put i (.check a l)).log (.opened i)
  | .check a l => if s.state = .stopped then s.put i (.closing a l) else s.put i (.accept a l)
  | .accept a l => s.acceptAt i a l works
  | .closing a l => ({ s with bound := fun x => if x = a ∧ s.bound a = some l then none else s.bound x }.put i .done).log (.ended l)
  | .done => s
  | .user u => s.call i u
  | .stopSet ok => ({ s with state := .stopped }.put i (.sweep ok)).log .stopping
  | .sweep ok =>
    (({ s with bound := fun x => if (∃ r ∈ s.recs, r.port = x ∧ s.bound x = some r.listener) then none else s.bound x }.put i
      (.user ok)).log .swept).log (.stopRet true)
  | .startEval ok => { s with starts := s.starts + 1 }.put i (.startLoop s.starts (s.recs.map LRec.port) ok)
  | .startLoop _ [] ok => (s.put i (.user ok)).log (.startRet true)
  | .startLoop k (a :: rest) ok =>
    ({ s with vars := fun x => if x = k then some a else s.vars x }.put i (.startLoop k rest ok)).spawn (.spawned k)

/-- A client connects: the kernel lets it in while a listener is open. Package net, used by clients of tcpx.go:500. -/
def connect (s : GState) (a : String) : GState :=
  match s.bound a with
  | some l => { s with backlog := fun x => if x = l then s.backlog l + 1 else s.backlog x }.log (.connected a l)
  | none => s.log (.refused a)

end GState

/-- Who moves. No counterpart in the code: scheduling. -/
inductive Label where
  | run (i : Nat) (works : Bool)
  | connect (a : String)
deriving DecidableEq, Repr

/-- No counterpart in the code: one step. -/
def GState.step (s : GState) : Label → GState
  | .run i works =>
    match s.threads[i]? with
    | some t => s.thread i works t
    | none => s
  | .connect a => s.connect a

/-- A new server (tcpx.go:108-116) and the goroutines of user code. -/
def start (users : List User) : GState := { threads := users.map .user }

/-- No counterpart in the code: a run. -/
def run (users : List User) (ls : List Label) : GState := ls.foldl GState.step (start users)

end Tcpx.Graceful
