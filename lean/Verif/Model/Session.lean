import Verif.Model.Timed
/-!
# Model of TCP connections as a whole: the read loop, the goroutines it starts, and the watchers

`Model/Timed` has the watchers of all connections and the calls user code makes on them, by goroutines given in advance.  Here each
TCP connection has in addition its own goroutine (tcpx.go:552-606), which reads what arrives, starts a goroutine for each message
(tcpx.go:600, 602), and when it can read no more calls `OnClose` and `CloseConn` (tcpx.go:560-563).

A message is a number; what its handlers do to connections is the list of calls `job c m`, any list.  A piped group counts as one
message, whose calls are those of its messages in order (tcpx.go:994-999); what a message is, and which bytes make one, is the subject
of `Model/ConnLoop`, routing that of `Model/Mux`, chains that of `Model/Chain`.

Simplifications: reading a message is one step, possible once the message has arrived and as long as the socket is open; a panicking
handler ends the process (C59), so handlers do not panic here.  Goroutines of user code that no message started are given in advance.
-/
namespace Tcpx

/-- The settings of `TCfg`, what handlers do, which messages the loop takes (tcpx.go:567-582), and what `OnClose` does, if set. -/
structure SCfg where
  t : TCfg
  job : Nat → Nat → List UCall
  takes : Nat → Bool
  onClose : Option (Nat → List UCall)

/-- Where the goroutine of a connection stands. tcpx.go:552-606. -/
inductive LPc where
  | off                -- there is none: no TCP connection
  | read               -- in `FirstBlockOfLimitMaxByte`, tcpx.go:566
  | go (m : Nat)       -- tcpx.go:600, 602: it has read `m`
  | leaving            -- the loop is over; the deferred calls are next
  | last (k : Nat)     -- it is in the deferred calls, as goroutine `k` of `WState`
deriving DecidableEq, Repr

/-- What happens, as seen from outside. No counterpart in the code: what can be observed. -/
inductive SEv where
  | w (e : WatchEv)
  | arrived (c m : Nat)      -- all of message `m` is there to be read on `c`
  | hungUp (c : Nat)         -- the client has closed its side, or the connection is broken
  | read (c m : Nat)
  | begun (c m k : Nat)      -- goroutine `k` was started for `m`
  | onClose (c : Nat)        -- `OnClose` was called for `c`
deriving DecidableEq, Repr

/-- No counterpart in the code: the server, its connections and goroutines, the network, and history. -/
structure SState where
  t : TState
  spawned : List (List UCall) := []              -- the goroutines started so far and what they have to do
  loops : Nat → LPc := fun _ => .off
  lpAt : Nat → Nat := fun _ => 0                 -- when the goroutine of a connection came to where it stands
  inbox : Nat → List (Nat × Nat) := fun _ => []  -- what has arrived and is not read, with the time
  hung : Nat → Bool := fun _ => false
  spAt : Nat → Nat := fun _ => 0                 -- when a goroutine was started
  ev : List (Nat × SEv) := []                    -- newest first

/-- A step of the goroutine of a connection: it goes on, or reading fails. tcpx.go:567-573. -/
inductive LSel where
  | go | fail
deriving DecidableEq, Repr

/-- No counterpart in the code: scheduling and the clients. -/
inductive SLabel where
  | base (l : TLabel)
  | arrive (c m : Nat)
  | hangup (c : Nat)         -- what has arrived can still be read
  | reset (c : Nat)          -- nothing can be read any more: a reset, or the read deadline (tcpx.go:527-528) has passed
  | loop (c : Nat) (x : LSel)
deriving DecidableEq, Repr

namespace SState

/-- No counterpart in the code. -/
def setLoop (s : SState) (c : Nat) (p : LPc) : SState :=
  { s with loops := fun c' => if c' = c then p else s.loops c', lpAt := setAt s.lpAt c s.t.now }
/-- No counterpart in the code: history. -/
def log (s : SState) (e : SEv) : SState := { s with ev := (s.t.now, e) :: s.ev }
/-- The next goroutine to be started; those given in advance have even numbers. No counterpart in the code. -/
def next (s : SState) : Nat := 2 * s.spawned.length + 1
/-- A `go` statement. tcpx.go:600, 602. -/
def spawn (s : SState) (job : List UCall) : SState :=
  { s with t := { s.t with w := s.t.w.setThread s.next ⟨.idle, job⟩ }
           spawned := s.spawned ++ [job]
           spAt := setAt s.spAt s.next s.t.now }

/-- The socket of `c` is closed by the server. context.go:295. -/
def shut (s : SState) (c : Nat) : Bool := s.t.w.closed (s.t.w.ctxs c).sock

/-- tcpx.go:552-606: the next step of the goroutine of `c`. -/
def loopStep (cfg : SCfg) (s : SState) (c : Nat) (x : LSel) : Option SState :=
  match s.loops c, x with
  | .read, .go =>                       -- tcpx.go:566-582
    match s.inbox c with
    | [] => none
    | (_, m) :: rest =>
      if s.shut c then none
      else
        let s' := { s with inbox := fun c' => if c' = c then rest else s.inbox c' }
        some ((s'.setLoop c (if cfg.takes m then .go m else .leaving)).log (.read c m))
  | .read, .fail =>                     -- tcpx.go:567-573
    if s.shut c || (s.hung c && (s.inbox c).isEmpty) then some (s.setLoop c .leaving) else none
  | .go m, .go =>                       -- tcpx.go:600, 602
    some (((s.spawn (cfg.job c m)).setLoop c .read).log (.begun c m s.next))
  | .leaving, .go =>                    -- tcpx.go:560-563, in reverse order
    match cfg.onClose with
    | none => some ((s.spawn [.close c]).setLoop c (.last s.next))
    | some f => some (((s.spawn (f c ++ [.close c])).setLoop c (.last s.next)).log (.onClose c))
  | _, _ => none

/-- No counterpart in the code: scheduling; tcpx.go:552 starts the goroutine of a connection. -/
def step (cfg : SCfg) (s : SState) : SLabel → Option SState
  | .base l =>
    (s.t.step cfg.t l).map fun t' =>
      let s' := { s with t := t', ev := (newEvents s.t.w t'.w).map (fun e => (s.t.now, .w e)) ++ s.ev }
      match l with
      | .act (.accept .tcp) => s'.setLoop s.t.w.n .read
      | _ => s'
  | .arrive c m =>
    if s.loops c = .off ∨ s.hung c then none
    else some ({ s with inbox := fun c' => if c' = c then s.inbox c ++ [(s.t.now, m)] else s.inbox c' }.log (.arrived c m))
  | .hangup c =>
    if s.loops c = .off ∨ s.hung c then none
    else some ({ s with hung := fun c' => if c' = c then true else s.hung c' }.log (.hungUp c))
  | .reset c =>
    if s.loops c = .off ∨ s.hung c then none
    else some ({ s with hung := fun c' => if c' = c then true else s.hung c'
                        inbox := fun c' => if c' = c then [] else s.inbox c' }.log (.hungUp c))
  | .loop c x => s.loopStep cfg c x

/-- A run along a schedule; impossible steps are skipped. No counterpart in the code. -/
def run (cfg : SCfg) (s : SState) : List SLabel → SState
  | [] => s
  | l :: ls => run cfg ((s.step cfg l).getD s) ls

/-- At time 0, before the first connection. No counterpart in the code. -/
def start (life : Life) (jobs : Nat → List UCall) : SState :=
  { t := .start life fun i => if i % 2 = 0 then jobs (i / 2) else [] }

end SState
end Tcpx
