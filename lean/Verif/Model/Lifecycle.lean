import Verif.Model.Strings
/-!
# Model of the server life cycle: listener records, `Stop`, `Start`, `Restart`, the accept loop

Listeners, pools and connections are identified by numbers.  `Stop`, `Start` and the listening calls are executed one at a time
here (`pLock` protects `properties` and `state`); the goroutines started by `Start` are interleaved with its loop.
-/
namespace Tcpx

/-- tcpx.go:90-98 `PropertyCache`. -/
structure LRec where
  network : String
  port : String
  listener : Nat
deriving DecidableEq, Repr

/-- `STATE_RUNNING`, `STATE_STOP` (tcpx.go:28-29). -/
inductive LState where
  | running | stopped
deriving DecidableEq, Repr

/-- `closeAllSignal`: nil, open or closed. tcpx.go:87. -/
inductive SigChan where
  | nil | opened | closed
deriving DecidableEq, Repr

/-- The part of `TcpX` (tcpx.go:38-88) concerned, and the environment: which listeners have been closed, which pools the goroutines
of `closeAllConnection` have been started for. -/
structure Life where
  state : LState := .stopped            -- tcpx.go:114
  recs : List LRec := []                -- properties
  withSignals : Bool := false
  sig : SigChan := .nil                 -- closeAllSignal
  pool : Option Nat := none             -- pool
  pools : Nat := 0                      -- number of pools created so far; the next one gets this number
  closed : List Nat := []               -- listeners closed
  sweeps : List Nat := []               -- pools for which a closing goroutine was started
deriving DecidableEq, Repr

/-- tcpx.go:408-411, the replacement of the listener of an existing record; `none` if there is no such record. -/
def replaceListener (network port : String) (l : Nat) : List LRec → Option (List LRec)
  | [] => none
  | r :: rs =>
    if r.network = network ∧ r.port = port then some ({ r with listener := l } :: rs)
    else (replaceListener network port l rs).map (r :: ·)

/-- tcpx.go:396-418 `fillProperty`. -/
def fillProperty (network port : String) (l : Nat) (recs : List LRec) : List LRec :=
  match replaceListener network port l recs with
  | some recs' => recs'
  | none => recs ++ [⟨network, port, l⟩]

namespace Life

/-- tcpx.go:119-123 `WithBuiltInPool`. -/
def withBuiltInPool (s : Life) : Life := { s with pool := some s.pools, pools := s.pools + 1 }

/-- tcpx.go:173-177 `WithBroadCastSignal`. -/
def withBroadCastSignal (s : Life) (yes : Bool) : Life := { s with withSignals := yes, sig := .opened }

/-- The beginning of a successful listening call: tcpx.go:511-514, 646-648 (`net.Listen` has returned listener `l`). -/
def listen (s : Life) (network port : String) (l : Nat) : Life :=
  { s with recs := fillProperty network port l s.recs, state := .running }

/-- The listeners `Stop` closes: tcpx.go:1150-1159. -/
def stopsListener (r : LRec) : Bool := r.network = "kcp" || r.network = "tcp" || r.network = "udp"

/-- tcpx.go:1169-1188 `closeAllConnection`.  Closing a nil or closed channel panics. -/
def closeAllConnection (s : Life) : Res Unit × Life :=
  if s.withSignals then
    match s.sig with
    | .opened => (.ok (), { s with sig := .closed })
    | _ => (.panic, s)
  else
    match s.pool with
    | some p => (.ok (), { s with sweeps := s.sweeps ++ [p], pool := some s.pools, pools := s.pools + 1 })
    | none => (.ok (), s)

/-- tcpx.go:1140-1167 `Stop`. -/
def stop (s : Life) (closeAll : Bool) : Res Unit × Life :=
  if s.state = .stopped then (.err .other, s)
  else
    let s := { s with state := .stopped }
    let s := { s with closed := s.closed ++ (s.recs.filter stopsListener).map (·.listener) }
    if closeAll then s.closeAllConnection else (.ok (), s)

/-- tcpx.go:1191-1211 `Start`: the error, or the number of goroutines started. -/
def start (s : Life) : Res Nat :=
  if s.state = .running then .err .other else .ok s.recs.length

/-- tcpx.go:1214-1227 `Restart`; the callbacks (identified by numbers; given whether they panic) that were run, the number of goroutines
started, and the new state. -/
def restart (s : Life) (closeAll : Bool) (callbacks : List (Nat × Bool)) : Res Nat × List Nat × Life :=
  match s.stop closeAll with
  | (.ok (), s') => go s' callbacks []
  | (.err e, s') => (.err e, [], s')
  | (.panic, s') => (.panic, [], s')
  | (.block, s') => (.block, [], s')
where
  go (s : Life) : List (Nat × Bool) → List Nat → Res Nat × List Nat × Life
    | [], ran => (s.start, ran, s)
    | (f, p) :: fs, ran => if p then (.panic, ran ++ [f], s) else go s fs (ran ++ [f])

end Life

/-! ## The goroutines of `Start` -/

/-- A step of the execution of tcpx.go:1196-1209: the loop variable moves on (and a goroutine is started), goroutine `i` reads
`v.Network`, or goroutine `i` reads `v.Port` (line 1204).  `go 1.12` (go.mod): one variable `v` for the whole loop. -/
inductive StartStep where
  | loop
  | readNet (i : Nat)
  | readPort (i : Nat)
deriving DecidableEq, Repr

/-- The loop of tcpx.go:1196 and the goroutines it has started (tcpx.go:1197-1208). -/
structure StartState where
  iter : Nat := 0                                 -- iterations begun
  nets : GoMap Nat String := []                   -- what the goroutines have read
  eps : List (Nat × String × String) := []        -- goroutine, network, address it listens on
deriving DecidableEq, Repr

/-- The value of the loop variable after `m` iterations have begun. The Go language before 1.22 (go.mod:3), for tcpx.go:1196. -/
def loopVar (recs : List LRec) (m : Nat) : Option LRec := if m = 0 then none else recs[m-1]?

/-- A step of the loop or the goroutines of tcpx.go:1196-1209. -/
def startStep (recs : List LRec) (s : StartState) : StartStep → StartState
  | .loop => if s.iter < recs.length then { s with iter := s.iter + 1 } else s
  | .readNet i =>
    match loopVar recs s.iter with
    | some v => if i < s.iter ∧ s.nets.get? i = none then { s with nets := s.nets.set i v.network } else s
    | none => s
  | .readPort i =>
    match loopVar recs s.iter, s.nets.get? i with
    | some v, some n => if (∀ e ∈ s.eps, e.1 ≠ i) then { s with eps := s.eps ++ [(i, n, v.port)] } else s
    | _, _ => s

/-- No counterpart in the code: scheduling. -/
def runStart (recs : List LRec) (sched : List StartStep) : StartState := sched.foldl (startStep recs) {}

/-! ## The accept loop -/

/-- What `Accept` returns: a connection (and whether `OnConnect` panics on it) or an error. tcpx.go:520, 537-539. -/
inductive AcceptEv where
  | conn (onConnectPanics : Bool)
  | error
deriving DecidableEq, Repr

/-- How the accept loop ends; `waiting` is not ended. tcpx.go:515-525. -/
inductive AcceptEnd where
  | waiting | stopped | acceptError | panicked
deriving DecidableEq, Repr

/-- tcpx.go:515-608, the accept loop of `ListenAndServeTCP`: for each iteration whether `State()` says stopped, and what `Accept`
returns.  Gives the number of connections served (goroutine of line 552 started) and how it ends; in all cases but `waiting`
the listener is then closed (line 513) and nil returned (a panic is recovered by lines 490-496). -/
def acceptLoop (hasOnConnect : Bool) : List (Bool × AcceptEv) → Nat × AcceptEnd
  | [] => (0, .waiting)
  | (true, _) :: _ => (0, .stopped)
  | (false, .error) :: _ => (0, .acceptError)
  | (false, .conn p) :: rest =>
    if hasOnConnect && p then (0, .panicked)
    else
      let (n, e) := acceptLoop hasOnConnect rest
      (n + 1, e)

/-- The server after its accept loop for listener `l` has ended: the deferred `listener.Close()`. tcpx.go:513. -/
def Life.loopEnded (s : Life) (l : Nat) (e : AcceptEnd) : Life :=
  if e = .waiting then s else { s with closed := s.closed ++ [l] }

end Tcpx
