import Verif.Model.Timed
import Verif.Spec.Watch
/-! # Specification vocabulary for the watchers with a clock -/
namespace Tcpx.Spec

/-- When the watcher of `c` last received a heartbeat, or else the connection was made. -/
def lastHeard (c : Nat) : List (Nat × WatchEv) → Option Nat
  | [] => none
  | (t, .newConn c') :: tr => if c' = c then some t else lastHeard c tr
  | (t, .beatTaken c') :: tr => if c' = c then some t else lastHeard c tr
  | _ :: tr => lastHeard c tr

/-- When a call of `RecvHeartBeat` for `c` last returned, or else the connection was made. -/
def lastSignal (c : Nat) : List (Nat × WatchEv) → Option Nat
  | [] => none
  | (t, .newConn c') :: tr => if c' = c then some t else lastSignal c tr
  | (t, .ret _ (.beat c')) :: tr => if c' = c then some t else lastSignal c tr
  | _ :: tr => lastSignal c tr

/-- When `c` was accepted. -/
def acceptedAt (c : Nat) : List (Nat × WatchEv) → Option Nat
  | [] => none
  | (t, .newConn c') :: tr => if c' = c then some t else acceptedAt c tr
  | _ :: tr => acceptedAt c tr

/-- Whenever `e` happened, `P` held of its time and of what had happened before it. -/
def AtEachT (e : WatchEv) (P : Nat → List (Nat × WatchEv) → Prop) (log : List (Nat × WatchEv)) : Prop :=
  ∀ post pre t, log = post ++ (t, e) :: pre → P t pre

/-- `c` has been closed. -/
def ClosedIn (c : Nat) (log : List (Nat × WatchEv)) : Prop := ∃ t why, (t, .closed c why) ∈ log

/-- `P` holds in every state a run passes through. -/
def Throughout (cfg : TCfg) (s : TState) (ls : List TLabel) (P : TState → Prop) : Prop := ∀ k, P (s.run cfg (ls.take k))

/-- The heartbeat watcher of `c` is no more than `d` late: it does not stay longer than `d` where it need not wait, in its `select`
not longer than `d` after the timer has run out, nor than `d` after there was a signal to receive. -/
def PromptBeat (cfg : TCfg) (d c : Nat) (s : TState) : Prop :=
  match (s.w.ctxs c).hb with
  | .off => True
  | .ended => True
  | .select _ ch => s.now ≤ s.hbAt c + cfg.interval + d ∧ (s.w.buf ch = true → s.now ≤ max (s.hbAt c) (s.chAt ch) + d)
  | _ => s.now ≤ s.hbAt c + d

/-- The auth watcher of `c` is no more than `d` late; it has `d` to start in addition. -/
def PromptAuth (cfg : TCfg) (d c : Nat) (s : TState) : Prop :=
  match (s.w.ctxs c).au with
  | .off => True
  | .ended => True
  | .select => s.now ≤ s.auAt c + cfg.authDeadline + 2 * d ∧
      ((s.w.ctxs c).auth.isSome = true → s.now ≤ max (s.auAt c) (s.sgAt c) + 2 * d)
  | .closing _ => s.now ≤ s.auAt c + d

/-- When `c` was first closed. -/
def closedAt (c : Nat) : List (Nat × WatchEv) → Option Nat
  | [] => none
  | (t, .closed c' _) :: tr => (closedAt c tr).or (if c' = c then some t else none)
  | _ :: tr => closedAt c tr

/-- The watchers of `c` are no more than `d` late when `c` has been closed: they do not stay in their `select` longer than that after
it (the auth and broadcast watchers have `d` to start in addition), and the broadcast watcher not longer where it need not wait. -/
def PromptEnd (d c : Nat) (s : TState) : Prop :=
  (∀ t, closedAt c s.log = some t →
    (∀ k ch, (s.w.ctxs c).hb = .select k ch → s.now ≤ max (s.hbAt c) t + d) ∧
    ((s.w.ctxs c).au = .select → s.now ≤ max (s.auAt c) t + 2 * d) ∧
    ((s.w.ctxs c).bc = .select → s.now ≤ max (s.bcAt c) t + 2 * d)) ∧
  ((s.w.ctxs c).bc = .closing → s.now ≤ s.bcAt c + d)

/-- As long as `c` is open, a call of `RecvHeartBeat` for it returns at least every `g`. -/
def BeatsEvery (g c : Nat) (s : TState) : Prop :=
  ∀ t, lastSignal c s.log = some t → ¬ ClosedIn c s.log → s.now ≤ t + g

/-- No handler has found the heartbeat channel of `c` missing (its watcher was faster). -/
def WatcherFirst (c : Nat) (s : TState) : Prop := ∀ i, (s.w.threads i).pc ≠ .beatCreate c

end Tcpx.Spec
