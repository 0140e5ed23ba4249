import Verif.Model.Watch
/-!
# The watchers of `Model/Watch` with a clock

Time passes by `delay` steps of any length; all other steps are instantaneous.  A `time.After` of a `select` (tcpx.go:1046, 1094) fires
no earlier than its duration after the `select` was reached.  Nothing is assumed here about how soon a goroutine runs; the theorems
that need it assume a run to be prompt (`Spec.PromptBeat`, `Spec.PromptAuth`).  Time is counted in units of any size (say
nanoseconds).

Simplification: the auth and broadcast watchers reach their `select` when the connection is accepted; in the code a goroutine has to
be started first (tcpx.go:463, 544, 549, 685), which `Spec.PromptAuth` and `Spec.PromptEnd` allow for.
-/
namespace Tcpx

/-- The settings of `WCfg` with `HeartBeatInterval` and `authDeadline` (tcpx.go:54, 78). -/
structure TCfg where
  w : WCfg
  interval : Nat
  authDeadline : Nat

/-- No counterpart in the code: the watchers with a clock. -/
structure TState where
  w : WState
  now : Nat := 0
  hbAt : Nat → Nat := fun _ => 0       -- when the heartbeat watcher of a context came to where it stands
  auAt : Nat → Nat := fun _ => 0       -- when the auth watcher of a context came to where it stands
  bcAt : Nat → Nat := fun _ => 0       -- when the broadcast watcher of a context came to where it stands
  chAt : Nat → Nat := fun _ => 0       -- when a heartbeat channel was last sent to
  sgAt : Nat → Nat := fun _ => 0       -- when `recvAuth` of a context was last sent to
  log : List (Nat × WatchEv) := []     -- the trace with times, newest first

/-- No counterpart in the code: scheduling. -/
inductive TLabel where
  | delay (d : Nat)
  | act (l : WLabel)
deriving DecidableEq, Repr

/-- No counterpart in the code. -/
def setAt (f : Nat → Nat) (k t : Nat) : Nat → Nat := fun k' => if k' = k then t else f k'

/-- The events of a step. No counterpart in the code. -/
def newEvents (s s' : WState) : List WatchEv := s'.trace.take (s'.trace.length - s.trace.length)

namespace TState

/-- A timer that is to fire has run for its duration (tcpx.go:1046, 1094). -/
def due (cfg : TCfg) (s : TState) : WLabel → Bool
  | .hb c .timer => s.hbAt c + cfg.interval ≤ s.now
  | .au c .timer => s.auAt c + cfg.authDeadline ≤ s.now
  | _ => true

/-- The clocks and the log after a step to `w'`. No counterpart in the code: history. -/
def after (s : TState) (w' : WState) (l : WLabel) : TState :=
  { w := w'
    now := s.now
    hbAt := match l with | .hb c _ => setAt s.hbAt c s.now | .accept _ => setAt s.hbAt s.w.n s.now | _ => s.hbAt
    auAt := match l with | .au c _ => setAt s.auAt c s.now | .accept _ => setAt s.auAt s.w.n s.now | _ => s.auAt
    bcAt := match l with | .bc c _ => setAt s.bcAt c s.now | .accept _ => setAt s.bcAt s.w.n s.now | _ => s.bcAt
    chAt := fun k => match l with
      | .user i => match (s.w.threads i).pc with | .beatSend _ ch => if k = ch then s.now else s.chAt k | _ => s.chAt k
      | _ => s.chAt k
    sgAt := fun k => match l with
      | .user i => match (s.w.threads i).pc with | .authSend c _ => if k = c then s.now else s.sgAt k | _ => s.sgAt k
      | _ => s.sgAt k
    log := (newEvents s.w w').map (fun e => (s.now, e)) ++ s.log }

/-- Timers of tcpx.go:1048, 1094 (`time.After`); otherwise `WState.step`. -/
def step (cfg : TCfg) (s : TState) : TLabel → Option TState
  | .delay d => some { s with now := s.now + d }
  | .act l => if s.due cfg l then (s.w.step cfg.w l).map (s.after · l) else none

/-- A run along a schedule; impossible steps are skipped. No counterpart in the code. -/
def run (cfg : TCfg) (s : TState) : List TLabel → TState
  | [] => s
  | l :: ls => run cfg ((s.step cfg l).getD s) ls

/-- At time 0, before the first connection. No counterpart in the code. -/
def start (life : Life) (jobs : Nat → List UCall) : TState := { w := .start life jobs }

end TState
end Tcpx
