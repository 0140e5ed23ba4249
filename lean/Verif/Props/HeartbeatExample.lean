import Verif.Model.HeartbeatExample
import Verif.Props.Kept
/-!
# C127: the heartbeat example
-/
namespace Tcpx
open Spec HeartbeatExample

/-- C127: the server handles messages with id 1392, by the built-in heartbeat handler and without middlewares, and no others; its
registration does not panic. -/
theorem C127_routes (r : Srv.Routed) :
    (runOps .new HeartbeatExample.ops).handle r = (if r = .byId 1392 then .direct builtIn else .nothing) ∧
      Registers .new HeartbeatExample.ops = true := by
  refine ⟨?_, by decide⟩
  have h1 : (runOps .new HeartbeatExample.ops).onMessage = none := by decide
  have h2 : (runOps .new HeartbeatExample.ops).mux.urlMux = [] := by decide
  have h3 : (runOps .new HeartbeatExample.ops).mux.handlers = [(1392, builtIn)] := by decide
  cases r with
  | byId id =>
    by_cases h : id = 1392
    · subst h; decide
    · have : (runOps .new HeartbeatExample.ops).mux.handlers.get? id = none := by
        rw [h3]; simp [GoMap.get?]; grind
      simp [Srv.handle, h1, Srv.dispatchId, this, h]
  | byUrl p => simp [Srv.handle, h1, Srv.dispatchUrl, h2]
  | unreadable => simp [Srv.handle, h1]
  | unknownType => simp [Srv.handle, h1]

/-- Only heartbeat messages of a connection signal a heartbeat on it. -/
theorem heartbeatExample_calls (g : HeartbeatExample.Gor) (c : Nat) : .beat c ∈ g.calls ↔ g = .msg c (.byId 1392) := by
  cases g with
  | conn c' => simp [HeartbeatExample.Gor.calls]
  | msg c' r =>
    simp only [HeartbeatExample.Gor.calls, (C127_routes r).1]
    by_cases h : r = .byId 1392
    · simp [h, HeartbeatExample.runs, eq_comm]
    · simp [h, HeartbeatExample.runs]

/-- C127: if its watcher is never more than `d` late, a connection from which no message with id 1392 comes is closed within thirty
seconds and `14 * d` of being accepted, whatever else it sends, and whatever the others send. -/
theorem C127_silent (d : Nat) (life : Life) (g : Nat → HeartbeatExample.Gor) (ls : List TLabel) (c a : Nat)
    (hno : ∀ i, g i ≠ .msg c (.byId 1392))
    (hp : Throughout HeartbeatExample.cfg (.start life fun i => (g i).calls) ls (PromptBeat HeartbeatExample.cfg d c))
    (ha : acceptedAt c (trun HeartbeatExample.cfg life (fun i => (g i).calls) ls).log = some a)
    (hlate : a + 30000000000 + 14 * d < (trun HeartbeatExample.cfg life (fun i => (g i).calls) ls).now) :
    ClosedIn c (trun HeartbeatExample.cfg life (fun i => (g i).calls) ls).log := by
  refine C115_others HeartbeatExample.cfg rfl d life _ ls c a hp ha (fun t i => ?_) (fun t => ?_) (by simpa [HeartbeatExample.cfg] using hlate)
  · exact not_logged _ _ _ _ _ (fun ls => (nobeat_run _ _ _ c (fun i h => hno i ((heartbeatExample_calls _ _).1 h)) ls).none i) t
  · exact not_logged _ _ _ _ _ (nocallback_run _ rfl _ _ c true) t

/-- C127: a connection still open was accepted, or its watcher received a heartbeat, within the last thirty seconds and `14 * d`; and
the watcher has received no more heartbeats than messages with id 1392 from this connection have been handled. -/
theorem C127_open (d : Nat) (life : Life) (g : Nat → HeartbeatExample.Gor) (ls : List TLabel) (c a : Nat)
    (hp : Throughout HeartbeatExample.cfg (.start life fun i => (g i).calls) ls (PromptBeat HeartbeatExample.cfg d c))
    (ha : (a, .newConn c) ∈ (trun HeartbeatExample.cfg life (fun i => (g i).calls) ls).log)
    (hopen : ¬ ClosedIn c (trun HeartbeatExample.cfg life (fun i => (g i).calls) ls).log) :
    (∃ h, lastHeard c (trun HeartbeatExample.cfg life (fun i => (g i).calls) ls).log = some h ∧
      (trun HeartbeatExample.cfg life (fun i => (g i).calls) ls).now ≤ h + 30000000000 + 14 * d) ∧
    takenBeats c ((trun HeartbeatExample.cfg life (fun i => (g i).calls) ls).log.map Prod.snd) ≤
      beatReturns c ((trun HeartbeatExample.cfg life (fun i => (g i).calls) ls).log.map Prod.snd) := by
  constructor
  · obtain ⟨h, h1, h2⟩ := C84_in_time HeartbeatExample.cfg rfl d life _ ls c hp a ha hopen
      (fun t => not_logged _ _ _ _ _ (nocallback_run _ rfl _ _ c true) t)
    exact ⟨h, h1, by simpa [HeartbeatExample.cfg] using h2⟩
  · obtain ⟨ls', h⟩ := C84_is_untimed HeartbeatExample.cfg life (fun i => (g i).calls) ls
    rw [h]
    exact C115_own _ _ _ _ _

/-- C127: a client whose heartbeats are handled at least every twenty seconds keeps its connection, if its watcher is never more than `d`
late, and no heartbeat takes longer than `d` to handle (except to wait for the watcher), with `6 * d` less than ten seconds. -/
theorem C127_kept (d : Nat) (hd : 6 * d < 10000000000) (life : Life) (g : Nat → HeartbeatExample.Gor) (ls : List TLabel) (c : Nat)
    (hp : Throughout HeartbeatExample.cfg (.start life fun i => (g i).calls) ls fun s =>
      PromptBeat HeartbeatExample.cfg d c s ∧ PromptCalls d c s ∧ CallsEvery 20000000000 c s) :
    AtEachT (.closed c .loss) (fun _ before => ClosedIn c before) (trun HeartbeatExample.cfg life (fun i => (g i).calls) ls).log :=
  C128_kept HeartbeatExample.cfg 20000000000 d (by simp [HeartbeatExample.cfg]; omega) life _ ls c hp

/-- Ten seconds. -/
def Demo.s10 : TLabel := .delay 10000000000
/-- Accepted at 0, silent for 30 s and a nanosecond, and closed. -/
def Demo.hbSilent : List TLabel :=
  [.act (.accept .tcp), .act (.hb 0 .go), .act (.hb 0 .go), .act (.hb 0 .go), Demo.s10, .act (.hb 0 .timer), .act (.hb 0 .go), .act (.hb 0 .go),
   Demo.s10, .act (.hb 0 .timer), .act (.user 0), .act (.hb 0 .go), .act (.hb 0 .go), Demo.s10, .act (.hb 0 .timer), .act (.hb 0 .go),
   .act (.hb 0 .go), .delay 1]
/-- Accepted at 0, a heartbeat at 10 s, now 20 s. -/
def Demo.hbBeats : List TLabel :=
  [.act (.accept .tcp), .act (.hb 0 .go), .act (.hb 0 .go), .act (.hb 0 .go), Demo.s10, .act (.user 0), .act (.user 0), .act (.user 0),
   .act (.hb 0 .recv), .act (.hb 0 .go), .act (.hb 0 .go), Demo.s10, .act (.hb 0 .timer), .act (.hb 0 .go), .act (.hb 0 .go)]

-- a message with another id does not count
example : ClosedIn 0 (trun HeartbeatExample.cfg Demo.wlife (fun i => (Gor.msg i (.byId 7)).calls) Demo.hbSilent).log :=
  C127_silent 0 Demo.wlife (fun i => .msg i (.byId 7)) Demo.hbSilent 0 0 (by simp) (throughout_of _ _ _ _ (by decide)) (by decide) (by decide)

/-- One heartbeat from connection 0, and messages that cannot be read. -/
def Demo.hbGors : Nat → HeartbeatExample.Gor := fun i => if i = 0 then .msg 0 (.byId 1392) else .msg 0 .unreadable

theorem Demo.hbGors_calls : (fun i => (Demo.hbGors i).calls) = Demo.wbeat := by
  funext i
  by_cases h : i = 0
  · subst h; rfl
  · simp [hbGors, h, Demo.wbeat]; rfl

example : Throughout HeartbeatExample.cfg (.start Demo.wlife fun i => (Demo.hbGors i).calls) Demo.hbBeats
      (fun s => PromptBeat HeartbeatExample.cfg 0 0 s ∧ PromptCalls 0 0 s ∧ CallsEvery 20000000000 0 s) ∧
    let s := trun HeartbeatExample.cfg Demo.wlife (fun i => (Demo.hbGors i).calls) Demo.hbBeats
    (0, .newConn 0) ∈ s.log ∧ lastHeard 0 s.log = some 10000000000 ∧ s.now = 20000000000 ∧ takenBeats 0 (s.log.map Prod.snd) = 1 ∧
      ¬ ClosedIn 0 s.log := by
  rw [Demo.hbGors_calls]
  refine ⟨?_, by decide, by decide, by decide, by decide, ?_⟩
  · have h1 : ∀ k ∈ List.range (Demo.hbBeats.length + 1),
        PromptBeat HeartbeatExample.cfg 0 0 (trun HeartbeatExample.cfg Demo.wlife Demo.wbeat (Demo.hbBeats.take k)) := by decide
    have h2 : ∀ k ∈ List.range (Demo.hbBeats.length + 1),
        promptCall 0 0 0 (trun HeartbeatExample.cfg Demo.wlife Demo.wbeat (Demo.hbBeats.take k)) = true := by decide
    have h3 : ∀ k ∈ List.range (Demo.hbBeats.length + 1),
        callsEvery 20000000000 0 (trun HeartbeatExample.cfg Demo.wlife Demo.wbeat (Demo.hbBeats.take k)) = true := by decide
    exact throughout_of _ _ _ _ fun k hk => ⟨h1 k hk, promptCalls_of _ _ _ _ _ (h2 k hk), callsEvery_spec _ _ _ (h3 k hk)⟩
  · rintro ⟨t, w, h⟩
    have : ∀ e ∈ (trun HeartbeatExample.cfg Demo.wlife Demo.wbeat Demo.hbBeats).log,
        (match e.2 with | .closed _ _ => false | _ => true) = true := by decide
    exact absurd (this _ h) (by simp)

end Tcpx
