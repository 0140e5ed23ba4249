import Verif.Model.Session
import Verif.Spec.Kept
/-! # Specification vocabulary for connections as a whole -/
namespace Tcpx.Spec

/-- Whenever `e` happened, `P` held of its time and of what had happened before it. -/
def AtEachS (e : SEv) (P : Nat → List (Nat × SEv) → Prop) (ev : List (Nat × SEv)) : Prop :=
  ∀ post pre t, ev = post ++ (t, e) :: pre → P t pre

/-- The events of the watchers and of user code. -/
def wlog : List (Nat × SEv) → List (Nat × WatchEv)
  | [] => []
  | (t, .w e) :: ev => (t, e) :: wlog ev
  | _ :: ev => wlog ev

/-- `c` has been closed by the server. -/
def ShutIn (c : Nat) (ev : List (Nat × SEv)) : Prop := ∃ t why, (t, .w (.closed c why)) ∈ ev

/-- When `c` was first closed by the server. -/
def shutAt (c : Nat) : List (Nat × SEv) → Option Nat
  | [] => none
  | (t, .w (.closed c' _)) :: tr => (shutAt c tr).or (if c' = c then some t else none)
  | _ :: tr => shutAt c tr

/-- When `c` was accepted. -/
def joinedAt (c : Nat) : List (Nat × SEv) → Option Nat
  | [] => none
  | (t, .w (.newConn c')) :: tr => if c' = c then some t else joinedAt c tr
  | _ :: tr => joinedAt c tr

/-- When the client of `c` hung up. -/
def hungAt (c : Nat) : List (Nat × SEv) → Option Nat
  | [] => none
  | (t, .hungUp c') :: tr => if c' = c then some t else hungAt c tr
  | _ :: tr => hungAt c tr

/-- How often `OnClose` was called for `c`. -/
def onCloses (c : Nat) (ev : List (Nat × SEv)) : Nat := (ev.map Prod.snd).count (.onClose c)

/-- Messages that arrived on `c`, oldest first. -/
def arrivals (c : Nat) : List (Nat × SEv) → List Nat
  | [] => []
  | (_, .arrived c' m) :: ev => if c' = c then arrivals c ev ++ [m] else arrivals c ev
  | _ :: ev => arrivals c ev

/-- Messages that arrived on `c` by time `T`, oldest first. -/
def arrivedBy (T c : Nat) : List (Nat × SEv) → List Nat
  | [] => []
  | (t, .arrived c' m) :: ev => if c' = c ∧ t ≤ T then arrivedBy T c ev ++ [m] else arrivedBy T c ev
  | _ :: ev => arrivedBy T c ev

/-- Messages read on `c`, oldest first. -/
def reads (c : Nat) : List (Nat × SEv) → List Nat
  | [] => []
  | (_, .read c' m) :: ev => if c' = c then reads c ev ++ [m] else reads c ev
  | _ :: ev => reads c ev

/-- Messages of `c` for which a goroutine was started, oldest first. -/
def begun (c : Nat) : List (Nat × SEv) → List Nat
  | [] => []
  | (_, .begun c' m _) :: ev => if c' = c then begun c ev ++ [m] else begun c ev
  | _ :: ev => begun c ev

/-- When a message of a certain kind last arrived on `c`, or else the connection was made. -/
def lastSent (kind : Nat → Bool) (c : Nat) : List (Nat × SEv) → Option Nat
  | [] => none
  | (t, .w (.newConn c')) :: tr => if c' = c then some t else lastSent kind c tr
  | (t, .arrived c' m) :: tr => if c' = c ∧ kind m then some t else lastSent kind c tr
  | _ :: tr => lastSent kind c tr

/-- As long as `c` is open, a message of a certain kind arrives on it at least every `g`. -/
def SentEvery (g : Nat) (kind : Nat → Bool) (c : Nat) (s : SState) : Prop :=
  ∀ t, lastSent kind c s.ev = some t → ¬ ShutIn c s.ev → s.t.now ≤ t + g

/-- `P` holds in every state a run passes through. -/
def SThroughout (cfg : SCfg) (s : SState) (ls : List SLabel) (P : SState → Prop) : Prop := ∀ k, P (s.run cfg (ls.take k))

/-- The goroutine of `c` is no more than `d` late: it does not stay longer than `d` where it need not wait; and while it reads, it does
not stay longer than `d` after the connection was closed by the server, nor than `d` after the client has hung up and all is read;
and no message that has arrived waits longer than `d` to be read. -/
def PromptLoop (d c : Nat) (s : SState) : Prop :=
  match s.loops c with
  | .off => True
  | .last _ => True
  | .leaving => s.t.now ≤ s.lpAt c + d
  | .go _ => s.t.now ≤ s.lpAt c + d ∧ (¬ ShutIn c s.ev → ∀ a m, (a, m) ∈ s.inbox c → s.t.now ≤ a + d)
  | .read => (∀ t, shutAt c s.ev = some t → s.t.now ≤ max (s.lpAt c) t + d) ∧
      (∀ t, hungAt c s.ev = some t → s.inbox c = [] → s.t.now ≤ max (s.lpAt c) t + d) ∧
      (¬ ShutIn c s.ev → ∀ a m, (a, m) ∈ s.inbox c → s.t.now ≤ a + d)

/-- A goroutine started for a message that begins with a call of `RecvHeartBeat` for `c` makes it no more than `d` late. -/
def PromptStart (d c : Nat) (s : SState) : Prop :=
  ∀ i rest, s.spawned[i]? = some (.beat c :: rest) → s.t.w.threads (2 * i + 1) = ⟨.idle, .beat c :: rest⟩ → s.t.now ≤ s.spAt (2 * i + 1) + d

/-- The goroutine of `c`, when it has nothing left to do but `CloseConn`, calls it no more than `d` late, and the call takes no longer
than `d`. -/
def PromptTail (d c : Nat) (s : SState) : Prop :=
  ∀ k, s.loops c = .last k →
    (s.t.w.threads k = ⟨.idle, [.close c]⟩ → s.t.now ≤ s.lpAt c + d) ∧ ((s.t.w.threads k).pc = .closing c → s.t.now ≤ s.lpAt c + 2 * d)

/-- No watcher of `c` is left. -/
def Unwatched (c : Nat) (s : SState) : Prop :=
  ((s.t.w.ctxs c).hb = .off ∨ (s.t.w.ctxs c).hb = .ended) ∧ ((s.t.w.ctxs c).au = .off ∨ (s.t.w.ctxs c).au = .ended) ∧
    ((s.t.w.ctxs c).bc = .off ∨ (s.t.w.ctxs c).bc = .ended)

end Tcpx.Spec

namespace Tcpx

/-- A run from the beginning. -/
abbrev srun (cfg : SCfg) (life : Life) (jobs : Nat → List UCall) (ls : List SLabel) : SState := (SState.start life jobs).run cfg ls

end Tcpx
