import Verif.Spec.Timed
/-! # Specification vocabulary: heartbeats handled in time (C85) -/
namespace Tcpx.Spec

/-- When `RecvHeartBeat` was last called for `c`, or else the connection was made. -/
def lastCall (c : Nat) : List (Nat × WatchEv) → Option Nat
  | [] => none
  | (t, .newConn c') :: tr => if c' = c then some t else lastCall c tr
  | (t, .invoke _ (.beat c')) :: tr => if c' = c then some t else lastCall c tr
  | _ :: tr => lastCall c tr

/-- When goroutine `i` last called something. -/
def calledAt (i : Nat) : List (Nat × WatchEv) → Option Nat
  | [] => none
  | (t, .invoke j _) :: tr => if j = i then some t else calledAt i tr
  | _ :: tr => calledAt i tr

/-- As long as `c` is open, `RecvHeartBeat` is called for it at least every `g`. -/
def CallsEvery (g c : Nat) (s : TState) : Prop :=
  ∀ t, lastCall c s.log = some t → ¬ ClosedIn c s.log → s.now ≤ t + g

/-- The goroutines in `RecvHeartBeat` for `c` are no more than `d` late: none stays there longer than `d` after the call, or after the
watcher last received a heartbeat, except to wait for room in a channel. -/
def PromptCalls (d c : Nat) (s : TState) : Prop :=
  ∀ i t, calledAt i s.log = some t →
    (((s.w.threads i).pc = .beatLoad c ∨ (s.w.threads i).pc = .beatCreate c) → s.now ≤ t + d) ∧
    ∀ ch h, (s.w.threads i).pc = .beatSend c ch → s.w.buf ch = false → lastHeard c s.log = some h → s.now ≤ max t h + d

end Tcpx.Spec
