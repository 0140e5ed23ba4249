import Verif.Model.Lifecycle
/-!
# Model of `BeforeExit` (tcpx.go:1119-1135), `Defer` (utils.go:55-67), and what listening calls return

Signals as in package os/signal: a signal some channel is registered for is sent to all those channels without waiting (a channel
without buffer gets it only if somebody is receiving) and has no other effect; a signal no channel is registered for ends the
process; SIGKILL always does, also if one tries to register for it.  Not modelled: printing.
-/
namespace Tcpx

/-- The signals of tcpx.go:1127. -/
inductive Signal where
  | int | term | kill | quit
deriving DecidableEq, Repr

/-- Where the goroutine of a call of `BeforeExit` stands. tcpx.go:1119-1135. -/
inductive XPc where
  | fresh              -- before `signal.Notify`, tcpx.go:1127
  | registered         -- before the receive, tcpx.go:1128
  | waiting            -- receiving, tcpx.go:1128
  | calling (k : Nat)  -- about to call callback `k`, or to exit: tcpx.go:1130-1133
  | dead               -- a callback has panicked, recovered by tcpx.go:1121-1125
deriving DecidableEq, Repr

/-- A call of `BeforeExit`: for each callback whether it panics. tcpx.go:1119. -/
structure XCall where
  fs : List Bool
  pc : XPc := .fresh
deriving DecidableEq, Repr

/-- No counterpart in the code: what can be observed. -/
inductive XEv where
  | signal (x : Signal)
  | callback (g k : Nat)  -- callback `k` of call `g` is called
  | exit (g : Nat)        -- `os.Exit(0)` by call `g`
  | killed                -- ended by a signal
deriving DecidableEq, Repr

/-- No counterpart in the code: the goroutines started at tcpx.go:1120, and history. -/
structure XState where
  calls : List XCall := []
  alive : Bool := true
  trace : List XEv := []       -- newest first
deriving DecidableEq, Repr

/-- No counterpart in the code: scheduling. -/
inductive XLabel where
  | call (fs : List Bool)      -- `BeforeExit`
  | run (g : Nat)              -- a step of goroutine `g`
  | signal (x : Signal)
deriving DecidableEq, Repr

namespace XState

/-- The effect of a signal on a goroutine. Package os/signal; tcpx.go:1126-1128. -/
def deliver (c : XCall) : XCall := if c.pc = .waiting then { c with pc := .calling 0 } else c

/-- tcpx.go:1119-1135, package os/signal. -/
def step (s : XState) : XLabel → Option XState
  | .call fs => if s.alive then some { s with calls := s.calls ++ [⟨fs, .fresh⟩] } else none
  | .run g =>
    if s.alive then
      match s.calls[g]? with
      | none => none
      | some c =>
        match c.pc with
        | .fresh => some { s with calls := s.calls.set g { c with pc := .registered } }
        | .registered => some { s with calls := s.calls.set g { c with pc := .waiting } }
        | .waiting => none
        | .calling k =>
          match c.fs[k]? with
          | none => some { s with alive := false, trace := .exit g :: s.trace }
          | some panics =>
            some { s with calls := s.calls.set g { c with pc := if panics then .dead else .calling (k + 1) },
                          trace := .callback g k :: s.trace }
        | .dead => none
    else none
  | .signal x =>
    if s.alive then
      if x = .kill ∨ ∀ c ∈ s.calls, c.pc = .fresh then some { s with alive := false, trace := .killed :: .signal x :: s.trace }
      else some { s with calls := s.calls.map deliver, trace := .signal x :: s.trace }
    else none

/-- A run along a schedule; impossible steps are skipped. No counterpart in the code. -/
def run (s : XState) : List XLabel → XState
  | [] => s
  | l :: ls => run ((s.step l).getD s) ls

end XState

/-! ## `Defer` -/

/-- How a function given to `Defer` ends; `nilPanic` is `panic(nil)`, which `recover` does not tell from no panic (go.mod says
`go 1.12`; since 1.21 `panic(nil)` is different). utils.go:55. -/
inductive FnEnd where
  | returns | panics | nilPanic
deriving DecidableEq, Repr

/-- utils.go:55-67 `Defer`: the handlers called, by position, and how `Defer` ends.  A panicking handler ends the loop. -/
def deferCall (f : FnEnd) (handlers : List FnEnd) : List Nat × FnEnd :=
  match f with
  | .panics => go handlers 0
  | _ => ([], .returns)
where
  go : List FnEnd → Nat → List Nat × FnEnd
    | [], _ => ([], .returns)
    | .returns :: hs, i => let r := go hs (i + 1); (i :: r.1, r.2)
    | e :: _, i => ([i], e)

/-! ## What listening calls return -/

/-- How a call ends. tcpx.go:367, 489, 633. -/
inductive Returned where
  | nil | err | panics | never
deriving DecidableEq, Repr

/-- tcpx.go:489-609 `ListenAndServeTCP` (and tcpx.go:421-486 `ListenAndServeRaw`, which has the same loop): whether `net.Listen`
succeeds, and the accept loop. -/
def tcpCall (listens hasOnConnect : Bool) (script : List (Bool × AcceptEv)) : Returned :=
  if listens then
    if (acceptLoop hasOnConnect script).2 = .waiting then .never else .nil
  else .err

/-- tcpx.go:633-713 `ListenAndServeUDP`: whether `net.ListenPacket` succeeds, how many `maxBufferSize` are given.  It ends with
`select {}`, whatever becomes of its read loop. -/
def udpCall (listens : Bool) (sizes : Nat) : Returned :=
  if sizes > 1 then .panics
  else if listens then .never else .panics

/-- tcpx.go:364-384 `ListenAndServe`, after `checkPrepare`. -/
def listenCall (network : List Char) (listens hasOnConnect : Bool) (script : List (Bool × AcceptEv)) : Returned :=
  match transportOf network with
  | .ok .tcp => tcpCall listens hasOnConnect script
  | .ok .udp => udpCall listens 0
  | .ok .refused => .err
  | .err _ => .err
  | .panic => .panics
  | .block => .never

end Tcpx
