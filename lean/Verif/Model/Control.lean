import Verif.Model.Lifecycle
/-!
# Model of concurrent control calls: `Stop` (tcpx.go:1140-1167), `Start` (tcpx.go:1191-1211) and TCP listening calls
(tcpx.go:489-609), interleaved at the granularity of their accesses to shared data

`Model/Lifecycle` executes each of these calls in one step; here each access to `state`, `properties`, the listeners and the
broadcast channel is a step of its own (`pLock` makes each of them atomic).  The goroutines of `Start` are given the record of
their own iteration (what they really read is the subject of C65).  `net.Listen` may fail at any time, and fails if an open
listener has the same network and address.
-/
namespace Tcpx

/-- A control call. tcpx.go:489, 1140, 1191. -/
inductive CCall where
  | stop (closeAll : Bool)
  | start
  | listen (network port : String)      -- ListenAndServeTCP
deriving DecidableEq, Repr

/-- Where a control call stands. tcpx.go:489-523, 1140-1211. -/
inductive CPc where
  | stopCheck (b : Bool)                         -- tcpx.go:1142
  | stopSet (b : Bool)                           -- tcpx.go:1146
  | stopClose (b : Bool)                         -- tcpx.go:1149-1160
  | stopAll                                      -- tcpx.go:1163-1165
  | startCheck                                   -- tcpx.go:1192
  | startLoop (rest : List LRec)                 -- tcpx.go:1196
  | open (network port : String)                 -- tcpx.go:497-505
  | fill (network port : String) (l : Nat)       -- tcpx.go:511
  | setState (network port : String) (l : Nat)   -- tcpx.go:514
  | loop (network port : String) (l : Nat)       -- tcpx.go:517
  | accept (network port : String) (l : Nat)     -- tcpx.go:520
  | close (l : Nat)                              -- tcpx.go:513 (deferred)
  | done (r : Res Unit)
deriving DecidableEq, Repr

/-- Where the calls of tcpx.go:489, 1140, 1191 begin. -/
def CCall.begin : CCall → CPc
  | .stop b => .stopCheck b
  | .start => .startCheck
  | .listen n p => .open n p

/-- What happens, as seen from outside. No counterpart in the code: what can be observed. -/
inductive CEvt where
  | begun (c : CCall)
  | running                     -- a listening call has declared the server running
  | stopRet (r : Res Unit)      -- a call of `Stop` has returned (or panicked)
  | accepted (l : Nat)          -- listener `l` has accepted a connection
deriving DecidableEq, Repr

/-- No counterpart in the code: the server (`Life`), the calls and goroutines under way, and history. -/
structure CState where
  life : Life
  threads : List CPc
  bound : List (Nat × String × String)   -- listeners made by `net.Listen`, with network and address
  next : Nat                             -- number of the next listener
  trace : List CEvt                      -- newest first
deriving DecidableEq, Repr

namespace CState

/-- No counterpart in the code. -/
def setPc (s : CState) (i : Nat) (pc : CPc) : CState := { s with threads := s.threads.set i pc }
/-- No counterpart in the code: history. -/
def log (s : CState) (e : CEvt) : CState := { s with trace := e :: s.trace }

/-- An open listener has this network and address. Package net, used at tcpx.go:500. -/
def inUse (s : CState) (network port : String) : Bool :=
  s.bound.any fun x => decide (x.2 = (network, port)) && !(s.life.closed.contains x.1)

/-- The next step of call `i`; `ok` says whether `net.Listen` or `Accept` succeeds, where it may.
tcpx.go:489-609, 1140-1211; the constructors of `CPc` cite the lines. -/
def stepThread (s : CState) (i : Nat) (ok : Bool) : Option CState :=
  match s.threads[i]? with
  | none => none
  | some pc =>
    match pc with
    | .stopCheck b =>
      if s.life.state = .stopped then some ((s.setPc i (.done (.err .other))).log (.stopRet (.err .other)))
      else some (s.setPc i (.stopSet b))
    | .stopSet b => some { s.setPc i (.stopClose b) with life := { s.life with state := .stopped } }
    | .stopClose b =>
      let s := { s with life := { s.life with closed := s.life.closed ++ (s.life.recs.filter Life.stopsListener).map LRec.listener } }
      if b then some (s.setPc i .stopAll) else some ((s.setPc i (.done (.ok ()))).log (.stopRet (.ok ())))
    | .stopAll => let r := s.life.closeAllConnection; some ({ s.setPc i (.done r.1) with life := r.2 }.log (.stopRet r.1))
    | .startCheck => some (s.setPc i (if s.life.state = .running then .done (.err .other) else .startLoop s.life.recs))
    | .startLoop [] => some (s.setPc i (.done (.ok ())))
    | .startLoop (r :: rest) => let s' := s.setPc i (.startLoop rest); some { s' with threads := s'.threads ++ [.open r.network r.port] }
    | .open n p =>
      if ok && !s.inUse n p then some { s.setPc i (.fill n p s.next) with bound := (s.next, n, p) :: s.bound, next := s.next + 1 }
      else some (s.setPc i (.done (.err .io)))
    | .fill n p l => some { s.setPc i (.setState n p l) with life := { s.life with recs := fillProperty n p l s.life.recs } }
    | .setState n p l => some ({ s.setPc i (.loop n p l) with life := { s.life with state := .running } }.log .running)
    | .loop n p l => some (s.setPc i (if s.life.state = .stopped then .close l else .accept n p l))
    | .accept n p l =>
      if s.life.closed.contains l || !ok then some (s.setPc i (.close l))    -- an error
      else some ((s.setPc i (.loop n p l)).log (.accepted l))
    | .close l => some { s.setPc i (.done (.ok ())) with life := { s.life with closed := s.life.closed ++ [l] } }
    | .done _ => none

end CState

/-- No counterpart in the code: scheduling. -/
inductive CLabel where
  | begin (c : CCall)
  | step (i : Nat) (ok : Bool)
deriving DecidableEq, Repr

/-- No counterpart in the code: scheduling. -/
def CState.step (s : CState) : CLabel → CState
  | .begin c => { s with threads := s.threads ++ [c.begin] }.log (.begun c)
  | .step i ok => (s.stepThread i ok).getD s

/-- A run along a schedule; impossible steps are skipped. No counterpart in the code. -/
def CState.run (s : CState) (ls : List CLabel) : CState := ls.foldl CState.step s

/-- A configured server before any control call. tcpx.go:108-116. -/
def CState.start (life : Life) : CState := { life := life, threads := [], bound := [], next := 0, trace := [] }

end Tcpx
