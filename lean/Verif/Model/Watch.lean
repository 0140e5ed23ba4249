import Verif.Model.Lifecycle
/-!
# Model of the watching goroutines of a connection and of the signals handlers give them

tcpx.go:1027-1115 (`heartBeatWatch`, `broadcastSignalWatch`, `authWatch`), the places that start them (tcpx.go:463-464, 541-550,
684-686), context.go:619-641 and 668-679 (`HeartBeatChan`, `RecvHeartBeat`, `AuthChan`, `RecvAuthPass`, `RecvAuthDeny`),
`CloseConn` (context.go:275-302) and the server calls `Stop` and the listening calls (`Life`).

All goroutines are interleaved in arbitrary order.  A `select` takes any ready case.  Time is abstract: a timer of a `select` may
fire at any moment (`Model/Timed` refines this).  Simplifications: `CloseConn` is one step here (its own interleavings are the
subject of `Model/Pool`); the socket and end channel are all that is kept of it.  Configuration calls happen before the server runs.
Handlers store nothing under the key "tcpx-heart-beat-channel".
-/
namespace Tcpx

/-- Why a connection was closed. tcpx.go:1040-1112. -/
inductive Cause where
  | loss        -- heartbeat loss, tcpx.go:1058
  | stopState   -- the watcher saw `STATE_STOP`, tcpx.go:1041
  | signal      -- the broadcast channel was closed, tcpx.go:1062, 1080, 1109
  | deadline    -- no authorisation in time, tcpx.go:1096
  | denied      -- tcpx.go:1105
  | user        -- a call of `CloseConn` elsewhere
deriving DecidableEq, Repr

/-- Where a heartbeat watcher stands; `times` is the local variable of tcpx.go:1037. -/
inductive HbPc where
  | off                                  -- not started
  | top (times : Nat)                    -- tcpx.go:1040
  | load (times : Nat)                   -- in `HeartBeatChan`, context.go:622
  | create (times : Nat)                 -- context.go:624-625: none found
  | select (times : Nat) (ch : Nat)      -- tcpx.go:1044, waiting on channel `ch`
  | lost                                 -- tcpx.go:1050-1056
  | closing (why : Cause)
  | ended
deriving DecidableEq, Repr

/-- Where a broadcast watcher stands (tcpx.go:1075-1087). -/
inductive BcPc where
  | off | select | closing | ended
deriving DecidableEq, Repr

/-- Where an auth watcher stands (tcpx.go:1091-1115). -/
inductive AuPc where
  | off | select | closing (why : Cause) | ended
deriving DecidableEq, Repr

/-- A context: a TCP connection, or a single datagram. context.go:25-76. -/
structure WCtx where
  sock : Nat := 0                     -- what `CloseConn` closes: its own connection, or the socket of the UDP server
  endClosed : Bool := false           -- `recvEnd` is closed
  auth : Option Int := none           -- the content of `recvAuth` (capacity 1)
  chan : Option Nat := none           -- the channel stored under "tcpx-heart-beat-channel"
  hb : HbPc := .off
  bc : BcPc := .off
  au : AuPc := .off
deriving DecidableEq, Repr

/-- The calls of user code concerned (and of the connection goroutine, which ends with `CloseConn`). context.go:276, 639, 672, 676. -/
inductive UCall where
  | beat (c : Nat)            -- `RecvHeartBeat`
  | auth (c : Nat) (v : Int)  -- `RecvAuthPass` (1), `RecvAuthDeny` (-1)
  | close (c : Nat)           -- `CloseConn`
deriving DecidableEq, Repr

/-- No counterpart in the code: the context of a call. -/
def UCall.ctx : UCall → Nat
  | .beat c => c
  | .auth c _ => c
  | .close c => c

/-- Where a goroutine of user code stands. context.go:276, 621-643, 672-679. -/
inductive UPc where
  | idle
  | beatLoad (c : Nat)
  | beatCreate (c : Nat)
  | beatSend (c : Nat) (ch : Nat)
  | authSend (c : Nat) (v : Int)
  | closing (c : Nat)
deriving DecidableEq, Repr

/-- No counterpart in the code: a goroutine of user code and the calls it has still to make. -/
structure UThread where
  pc : UPc := .idle
  rest : List UCall := []
deriving DecidableEq, Repr

/-- What happens, as seen from outside. No counterpart in the code: what can be observed. -/
inductive WatchEv where
  | newConn (c : Nat)                         -- a TCP connection was accepted, a datagram received
  | invoke (i : Nat) (u : UCall)
  | ret (i : Nat) (u : UCall)
  | beatTaken (c : Nat)                       -- the watcher of `c` received a heartbeat
  | tick (c : Nat)                            -- an interval of the watcher of `c` elapsed
  | lossCallback (c : Nat) (panicked : Bool)  -- `OnHeartbeatLoss` was called for `c`
  | deadline (c : Nat)                        -- the auth deadline of `c` passed
  | authTaken (c : Nat) (v : Int)
  | closed (c : Nat) (why : Cause)
  | stop (closeAll : Bool) (ok : Bool)        -- a call to `Stop`, and whether it returned nil
deriving DecidableEq, Repr

/-- Settings (tcpx.go:53, 75, 60). -/
structure WCfg where
  heartBeatOn : Bool := false
  auth : Bool := false
  hasOnLoss : Bool := false
deriving DecidableEq, Repr

/-- No counterpart in the code: the server, its contexts and channels, the goroutines, and history. -/
structure WState where
  life : Life
  ctxs : Nat → WCtx
  n : Nat                      -- contexts created so far
  buf : Nat → Bool             -- heartbeat channels (capacity 1): is there a signal?
  nchan : Nat                  -- heartbeat channels created so far
  closed : Nat → Bool          -- sockets
  threads : Nat → UThread
  trace : List WatchEv             -- newest first

namespace WState

/-- No counterpart in the code. -/
def setCtx (s : WState) (c : Nat) (x : WCtx) : WState := { s with ctxs := fun c' => if c' = c then x else s.ctxs c' }
/-- No counterpart in the code. -/
def setBuf (s : WState) (ch : Nat) (b : Bool) : WState := { s with buf := fun ch' => if ch' = ch then b else s.buf ch' }
/-- No counterpart in the code: history. -/
def log (s : WState) (e : WatchEv) : WState := { s with trace := e :: s.trace }
/-- No counterpart in the code. -/
def setThread (s : WState) (i : Nat) (t : UThread) : WState := { s with threads := fun j => if j = i then t else s.threads j }

/-- context.go:275-302 `CloseConn`, in one step: the socket is closed, then `recvEnd` (both may be closed already). -/
def closeConn (s : WState) (c : Nat) (why : Cause) : WState :=
  let s := { s with closed := fun k => if k = (s.ctxs c).sock then true else s.closed k }
  (s.setCtx c { s.ctxs c with endClosed := true }).log (.closed c why)

end WState

/-- The case a `select` takes; `go` where there is no `select`; `panic`: user code called there panics.
tcpx.go:1044-1066, 1078-1084, 1093-1114. -/
inductive Sel where
  | go | recv | timer | sig | fin | panic
deriving DecidableEq, Repr

/-- tcpx.go:1027-1070 `heartBeatWatch`: the next step of the watcher of `c`, if `x` is possible. -/
def hbStep (cfg : WCfg) (s : WState) (c : Nat) (x : Sel) : Option WState :=
  let k := s.ctxs c
  match k.hb, x with
  | .top times, .go =>
    some (s.setCtx c { k with hb := if s.life.state = .stopped then .closing .stopState else .load times })
  | .load times, .go =>
    some (s.setCtx c { k with hb := match k.chan with | some ch => .select times ch | none => .create times })
  | .create times, .go =>
    some { s.setCtx c { k with chan := some s.nchan, hb := .select times s.nchan } with nchan := s.nchan + 1 }
  | .select _ ch, .recv =>
    if s.buf ch then some (((s.setBuf ch false).setCtx c { k with hb := .top 0 }).log (.beatTaken c)) else none
  | .select times _, .timer =>
    some ((s.setCtx c { k with hb := if times + 1 = 3 then .lost else .top (times + 1) }).log (.tick c))
  | .select _ _, .sig => if s.life.sig = .closed then some (s.setCtx c { k with hb := .closing .signal }) else none
  | .select _ _, .fin => if k.endClosed then some (s.setCtx c { k with hb := .ended }) else none
  | .lost, .go =>
    let s' := s.setCtx c { k with hb := .closing .loss }
    some (if cfg.hasOnLoss then s'.log (.lossCallback c false) else s')
  | .lost, .panic =>      -- the callback panics, recovered by tcpx.go:1030-1035
    if cfg.hasOnLoss then some ((s.setCtx c { k with hb := .ended }).log (.lossCallback c true)) else none
  | .closing why, .go => some ((s.setCtx c { k with hb := .ended }).closeConn c why)
  | _, _ => none

/-- tcpx.go:1075-1087 `broadcastSignalWatch`. -/
def bcStep (s : WState) (c : Nat) (x : Sel) : Option WState :=
  let k := s.ctxs c
  match k.bc, x with
  | .select, .sig => if s.life.sig = .closed then some (s.setCtx c { k with bc := .closing }) else none
  | .select, .fin => if k.endClosed then some (s.setCtx c { k with bc := .ended }) else none
  | .closing, .go => some ((s.setCtx c { k with bc := .ended }).closeConn c .signal)
  | _, _ => none

/-- tcpx.go:1091-1115 `authWatch`. -/
def auStep (s : WState) (c : Nat) (x : Sel) : Option WState :=
  let k := s.ctxs c
  match k.au, x with
  | .select, .timer => some ((s.setCtx c { k with au := .closing .deadline }).log (.deadline c))
  | .select, .recv =>
    match k.auth with
    | some v => some ((s.setCtx c { k with auth := none, au := if v ≥ 0 then .ended else .closing .denied }).log (.authTaken c v))
    | none => none
  | .select, .sig => if s.life.sig = .closed then some (s.setCtx c { k with au := .closing .signal }) else none
  | .select, .fin => if k.endClosed then some (s.setCtx c { k with au := .ended }) else none
  | .closing why, .go => some ((s.setCtx c { k with au := .ended }).closeConn c why)
  | _, _ => none

/-- The next step of goroutine `i` of user code; none if it has finished or is blocked on a full channel.
context.go:276-303, 621-641, 672-679. -/
def userStep (s : WState) (i : Nat) : Option WState :=
  let t := s.threads i
  match t.pc with
  | .idle =>
    match t.rest with
    | [] => none
    | u :: rest =>
      let pc := match u with
        | .beat c => UPc.beatLoad c
        | .auth c v => .authSend c v
        | .close c => .closing c
      -- code can only use a context that exists
      if u.ctx < s.n then some ((s.setThread i ⟨pc, rest⟩).log (.invoke i u)) else none
  | .beatLoad c =>        -- context.go:622
    some (s.setThread i { t with pc := match (s.ctxs c).chan with | some ch => .beatSend c ch | none => .beatCreate c })
  | .beatCreate c =>      -- context.go:624-625
    some { (s.setCtx c { s.ctxs c with chan := some s.nchan }).setThread i { t with pc := .beatSend c s.nchan } with nchan := s.nchan + 1 }
  | .beatSend c ch =>     -- context.go:640
    if s.buf ch then none
    else some (((s.setBuf ch true).setThread i { t with pc := .idle }).log (.ret i (.beat c)))
  | .authSend c v =>      -- context.go:674, 678
    match (s.ctxs c).auth with
    | some _ => none
    | none => some (((s.setCtx c { s.ctxs c with auth := some v }).setThread i { t with pc := .idle }).log (.ret i (.auth c v)))
  | .closing c => some (((s.setThread i { t with pc := .idle }).closeConn c .user).log (.ret i (.close c)))

/-- How a context comes into being: by `ListenAndServeTCP` (tcpx.go:531-550), `ListenAndServeRaw` (tcpx.go:453-464), or from a
datagram to the UDP socket `sock` (tcpx.go:682-686). -/
inductive Origin where
  | tcp | raw | udp (sock : Nat)
deriving DecidableEq, Repr

/-- The context made and its watchers; only TCP connections get an auth watcher.  Connections have a socket of their own:
connection `c` has socket `2 * c + 1`, UDP sockets are even. tcpx.go:453-464, 531-550, 682-686. -/
def newCtx (cfg : WCfg) (withSignals : Bool) (c : Nat) (o : Origin) : WCtx :=
  { sock := match o with | .udp k => 2 * k | _ => 2 * c + 1
    hb := if cfg.heartBeatOn then .top 0 else .off
    bc := if withSignals then .select else .off
    au := if cfg.auth ∧ o = .tcp then .select else .off }

/-- A step of the whole system. No counterpart in the code: scheduling. -/
inductive WLabel where
  | hb (c : Nat) (x : Sel)
  | bc (c : Nat) (x : Sel)
  | au (c : Nat) (x : Sel)
  | user (i : Nat)
  | accept (o : Origin)
  | stop (closeAll : Bool)                               -- `Stop`
  | listen (network port : String) (l : Nat)             -- a listening call
deriving DecidableEq, Repr

/-- No counterpart in the code: scheduling; accepting is tcpx.go:520-550, `Stop` tcpx.go:1140. -/
def WState.step (cfg : WCfg) (s : WState) : WLabel → Option WState
  | .hb c x => hbStep cfg s c x
  | .bc c x => bcStep s c x
  | .au c x => auStep s c x
  | .user i => userStep s i
  | .accept o => some (({ s.setCtx s.n (newCtx cfg s.life.withSignals s.n o) with n := s.n + 1 }).log (.newConn s.n))
  | .stop b => let r := s.life.stop b; some ({ s with life := r.2 }.log (.stop b (decide (r.1 = Res.ok ()))))
  | .listen network port l => some { s with life := s.life.listen network port l }

/-- A run along a schedule; impossible steps are skipped. No counterpart in the code. -/
def WState.run (cfg : WCfg) (s : WState) : List WLabel → WState
  | [] => s
  | l :: ls => WState.run cfg ((s.step cfg l).getD s) ls

/-- Before the first connection: configured, with given goroutines of user code. No counterpart in the code. -/
def WState.start (life : Life) (jobs : Nat → List UCall) : WState :=
  { life := life, ctxs := fun _ => {}, n := 0, buf := fun _ => false, nchan := 0, closed := fun _ => false,
    threads := fun i => ⟨.idle, jobs i⟩, trace := [] }

end Tcpx
