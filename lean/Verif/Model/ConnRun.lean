import Verif.Model.ConnLoop
import Verif.Model.ChainTrace
/-!
# Model of a connection with the goroutines it starts (tcpx.go:552-606, 994-999)

The connection goroutine does what `connGoroutine` says, one action after another; each `go` starts a goroutine that handles one
message or one piped group; goroutines run interleaved in any order.  An unrecovered panic ends the process.

`len b` is the length of the chain run for message `b` (0: none is found), `none` if finding it panics; a handler called directly
(tcpx.go:910, 915) is a chain of one.
-/
namespace Tcpx
open Chain

/-- What happens, in order. No counterpart in the code: history. -/
inductive CREv where
  | conn (e : ConnEv)                  -- the connection goroutine
  | task (k m : Nat) (e : CEv)         -- message `m` of the `k`-th goroutine started
  | crash                              -- the process ends
deriving DecidableEq, Repr

/-- A goroutine handling messages: the chains, and whether the context after the last one is nil (or handling it panics otherwise).
tcpx.go:994-999. -/
structure CTask where
  p   : PState
  bad : Bool
deriving DecidableEq, Repr

/-- The lengths of the chains before the first context whose handling panics, and whether there is one. tcpx.go:994-999. -/
def chainLens (len : Bytes → Option Nat) : List (Option Bytes) → List Nat × Bool
  | [] => ([], false)
  | none :: _ => ([], true)
  | some b :: bs => match len b with
    | none => ([], true)
    | some n => (n :: (chainLens len bs).1, (chainLens len bs).2)

/-- tcpx.go:600, 602: the goroutine for a message or group. -/
def startTask (len : Bytes → Option Nat) (t : Task) : CTask :=
  let c := chainLens len t.contexts
  match c.1 with
  | [] => { p := pinit 0 [], bad := c.2 }
  | n :: ns => { p := pinit n ns, bad := c.2 }

/-- No counterpart in the code: what the connection goroutine has still to do, the goroutines started, history. -/
structure CRState where
  todo  : List ConnEv
  tasks : List CTask := []
  log   : List CREv := []
  dead  : Bool := false
deriving DecidableEq, Repr

/-- tcpx.go:552-606: the connection begins. -/
def crInit (g : ConnRun) : CRState := { todo := g.trace }

/-- One step of one goroutine. tcpx.go:552-606, 994-999. -/
inductive CRStep (len : Bytes → Option Nat) : CRState → CRState → Prop where
  /-- tcpx.go:600, 602 -/
  | go (s : CRState) (t : Task) (rest : List ConnEv) (ht : s.todo = .go t :: rest) (hd : s.dead = false) :
      CRStep len s { s with todo := rest, tasks := s.tasks ++ [startTask len t], log := s.log ++ [.conn (.go t)] }
  /-- the deferred calls, tcpx.go:553-563 -/
  | conn (s : CRState) (e : ConnEv) (rest : List ConnEv) (ht : s.todo = e :: rest) (he : e = .onClose ∨ e = .closeConn) (hd : s.dead = false) :
      CRStep len s { s with todo := rest, log := s.log ++ [.conn e] }
  /-- a step of the chain of a message; if a handler panics the process ends -/
  | task (s : CRState) (k : Nat) (t : CTask) (c : State) (hk : s.tasks[k]? = some t) (hs : Step t.p.cur c) (hd : s.dead = false) :
      CRStep len s { s with tasks := s.tasks.set k { t with p := { t.p with cur := c } },
                            log := s.log ++ (evOf t.p.cur c).map (fun e => .task k t.p.idx e), dead := c.panicked }
  /-- tcpx.go:996: the next message of the group -/
  | advance (s : CRState) (k : Nat) (t : CTask) (q : PState) (hk : s.tasks[k]? = some t) (hs : PStep t.p q) (hi : q.idx = t.p.idx + 1)
      (hd : s.dead = false) : CRStep len s { s with tasks := s.tasks.set k { t with p := q } }
  /-- the next context is nil, or finding its chain panics -/
  | nilCtx (s : CRState) (k : Nat) (t : CTask) (hk : s.tasks[k]? = some t) (hb : t.bad = true) (ht : t.p.todo = [])
      (hs : t.p.cur.stack = []) (hd : s.dead = false) : CRStep len s { s with log := s.log ++ [.crash], dead := true }

/-- No counterpart in the code: reachable in any number of steps. -/
inductive CRSteps (len : Bytes → Option Nat) : CRState → CRState → Prop where
  | refl (a : CRState) : CRSteps len a a
  | tail {a b c : CRState} (h : CRSteps len a b) (hs : CRStep len b c) : CRSteps len a c

end Tcpx
