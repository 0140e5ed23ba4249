import Verif.Model.Watch
/-! # Specification vocabulary for watchers: what is read off the sequence of events (newest first) -/
namespace Tcpx.Spec

/-- Intervals elapsed at the watcher of `c` since it last received a heartbeat (or since the connection was made). -/
def silent (c : Nat) : List WatchEv → Nat
  | [] => 0
  | .tick c' :: tr => if c' = c then silent c tr + 1 else silent c tr
  | .beatTaken c' :: tr => if c' = c then 0 else silent c tr
  | _ :: tr => silent c tr

/-- How often `c` was closed for heartbeat loss. -/
def losses (c : Nat) (tr : List WatchEv) : Nat := tr.count (.closed c .loss)

/-- How often the loss callback was called for `c`. -/
def callbacks (c : Nat) (tr : List WatchEv) : Nat := tr.count (.lossCallback c false) + tr.count (.lossCallback c true)

/-- Whenever `e` happened, `P` held of what had happened before it. -/
def AtEach (e : WatchEv) (P : List WatchEv → Prop) (tr : List WatchEv) : Prop := ∀ post pre, tr = post ++ e :: pre → P pre

/-- The value of the first authorisation signal sent for `c` (1 for `RecvAuthPass`, -1 for `RecvAuthDeny`). -/
def firstSignal (c : Nat) : List WatchEv → Option Int
  | [] => none
  | .ret _ (.auth c' v) :: tr => (firstSignal c tr).or (if c' = c then some v else none)
  | _ :: tr => firstSignal c tr

/-- How many authorisation signals for `c` have returned. -/
def authReturns (c : Nat) : List WatchEv → Nat
  | [] => 0
  | .ret _ (.auth c' _) :: tr => authReturns c tr + (if c' = c then 1 else 0)
  | _ :: tr => authReturns c tr

/-- How many heartbeat signals for `c` have returned. -/
def beatReturns (c : Nat) : List WatchEv → Nat
  | [] => 0
  | .ret _ (.beat c') :: tr => beatReturns c tr + (if c' = c then 1 else 0)
  | _ :: tr => beatReturns c tr

/-- `c` has been closed. -/
def IsClosed (c : Nat) (tr : List WatchEv) : Prop := ∃ why, .closed c why ∈ tr

/-- Heartbeat signals for `c` are sent by goroutine `t` only. -/
def OnlyBeater (t c : Nat) (jobs : Nat → List UCall) : Prop := ∀ i, i ≠ t → .beat c ∉ jobs i

/-- A configured server before it runs: the broadcast channel is there if and only if it is used. -/
def Configured (life : Life) : Prop :=
  (life.withSignals = true → life.sig = .opened) ∧ (life.withSignals = false → life.sig ≠ .closed)

end Tcpx.Spec
