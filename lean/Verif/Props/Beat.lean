import Verif.Lemmas.Beat
import Verif.Props.Timed
import Verif.Props.Exit
import Verif.Model.SayHello
import Verif.Spec.Programs
/-!
# Properties C115: heartbeats and their connections; C116, C117: the first example
-/
namespace Tcpx
open Spec

/-- What is not in the trace of any run is not in the log of a run with a clock. -/
theorem not_logged (cfg : TCfg) (life : Life) (jobs : Nat → List UCall) (ls : List TLabel) (e : WatchEv)
    (h : ∀ ls, e ∉ ((WState.start life jobs).run cfg.w ls).trace) (t : Nat) : (t, e) ∉ (trun cfg life jobs ls).log := by
  intro hm
  obtain ⟨ls', hls⟩ := C84_is_untimed cfg life jobs ls
  refine h ls' ?_
  have : e ∈ (trun cfg life jobs ls).log.map Prod.snd := List.mem_map.2 ⟨_, hm, rfl⟩
  rwa [hls] at this

/-! ## C115 -/

/-- C115: at any moment of any run, the watcher of a connection has received at most as many heartbeats as calls of `RecvHeartBeat` on
that connection have returned: none counts twice, or for another connection. -/
theorem C115_own (cfg : WCfg) (life : Life) (jobs : Nat → List UCall) (ls : List WLabel) (c : Nat) :
    takenBeats c (wrun cfg life jobs ls).trace ≤ beatReturns c (wrun cfg life jobs ls).trace := by
  obtain ⟨o, h⟩ := own_run cfg life jobs ls
  exact h.cnt c ▸ Nat.le_add_right _ _

/-- C115: heartbeats of others do not keep a connection: if the watcher is never more than `d` late, a connection on which no call of
`RecvHeartBeat` has returned is closed within three intervals and `14 * d` of being accepted, unless the loss callback has panicked. -/
theorem C115_others (cfg : TCfg) (hb : cfg.w.heartBeatOn = true) (d : Nat) (life : Life) (jobs : Nat → List UCall) (ls : List TLabel)
    (c a : Nat) (hp : Throughout cfg (.start life jobs) ls (PromptBeat cfg d c)) (ha : acceptedAt c (trun cfg life jobs ls).log = some a)
    (hno : ∀ t i, (t, .ret i (.beat c)) ∉ (trun cfg life jobs ls).log)
    (hcb : ∀ t, (t, .lossCallback c true) ∉ (trun cfg life jobs ls).log)
    (hlate : a + 3 * cfg.interval + 14 * d < (trun cfg life jobs ls).now) : ClosedIn c (trun cfg life jobs ls).log := by
  by_cases hopen : ClosedIn c (trun cfg life jobs ls).log
  · exact hopen
  exfalso
  obtain ⟨ls', hls⟩ := C84_is_untimed cfg life jobs ls
  have hz : beatReturns c (wrun cfg.w life jobs ls').trace = 0 := by
    rw [beatReturns_zero]
    intro i hi
    rw [← hls] at hi
    obtain ⟨⟨t, e⟩, h1, rfl⟩ := List.mem_map.1 hi
    exact hno t i h1
  have ht : takenBeats c (wrun cfg.w life jobs ls').trace = 0 := by
    have := C115_own cfg.w life jobs ls' c
    omega
  have hnt : ∀ t, (t, .beatTaken c) ∉ (trun cfg life jobs ls).log := by
    intro t h
    refine takenBeats_zero.1 ht ?_
    rw [← hls]
    exact List.mem_map.2 ⟨_, h, rfl⟩
  obtain ⟨h, h1, h2⟩ := C84_in_time cfg hb d life jobs ls c hp a (acceptedAt_mem ha) hopen hcb
  rw [lastHeard_accepted hnt, ha] at h1
  simp only [Option.some.injEq] at h1
  omega

-- a heartbeat on connection 0 is received there, once, and not on connection 1
example : let tr := (wrun Demo.wcfg Demo.wlife Demo.wbeat
      [.accept .tcp, .accept .tcp, .hb 0 .go, .hb 0 .go, .hb 0 .go, .hb 1 .go, .hb 1 .go, .hb 1 .go, .user 0, .user 0, .user 0, .hb 1 .recv,
       .hb 0 .recv, .hb 0 .go, .hb 0 .go, .hb 0 .recv]).trace
    takenBeats 0 tr = 1 ∧ beatReturns 0 tr = 1 ∧ takenBeats 1 tr = 0 := by decide

/-- Heartbeats every 10, without a loss callback. -/
def Demo.quiet : TCfg := { w := { heartBeatOn := true }, interval := 10, authDeadline := 7 }
/-- Accepted at 0, silent until 31. -/
def Demo.tclosed : List TLabel := Demo.tsilent ++ [.act (.hb 0 .go), .act (.hb 0 .go), .delay 1]

-- connection 0 is silent until 31 and its watcher, never late, has closed it
example : ClosedIn 0 (trun Demo.quiet Demo.wlife Demo.wnone Demo.tclosed).log :=
  C115_others Demo.quiet rfl 0 Demo.wlife Demo.wnone _ 0 0 (throughout_of _ _ _ _ (by decide)) (by decide)
    (fun t i => not_logged _ _ _ _ _ (fun ls => (nobeat_run _ _ _ 0 (by simp [Demo.wnone]) ls).none i) t)
    (fun t => not_logged _ _ _ _ _ (nocallback_run _ rfl _ _ 0 true) t) (by decide)

/-! ## C116 -/

open SayHello

/-- What the comments of the example promise for a message id. -/
def Spec.sayHelloRoute (id : Int32) : Dispatch :=
  if id = 1 then .chain [middlewareGlobal, middleware1, middleware2, sayHello]
  else if id = 3 then .chain [middlewareGlobal, middleware1, sayGoodBye]
  else if id = 5 then .chain [middlewareGlobal, middleware1, middleware3, sayName]
  else if id = 11 then .chain [middlewareGlobal, middleware1, sayHelloProtobuf]
  else if id = 20 then .direct heartbeat
  else .nothing

/-- C116: every message is handled as the comments of the example say: by id, and with no id or with a URL pattern not at all; no call
of the registration panics, nor does `checkPrepare`; the handlers are different functions; and heartbeats are watched. -/
theorem C116_routes (r : Srv.Routed) :
    (runOps .new ops).handle r = (match r with | .byId id => Spec.sayHelloRoute id | _ => .nothing) ∧
      Spec.Registers .new ops = true ∧
      [sayHello, sayGoodBye, sayName, sayHelloProtobuf, middleware1, middleware2, middleware3, middlewareGlobal, builtInHeartbeat,
        heartbeat].Nodup ∧ (runOps .new ops).hbOn = true := by
  refine ⟨?_, by decide, by decide, by decide⟩
  have h1 : (runOps .new ops).onMessage = none := by decide
  have h2 : (runOps .new ops).mux.urlMux = [] := by decide
  have h3 : (runOps .new ops).mux.handlers =
      [(11, sayHelloProtobuf), (5, sayName), (3, sayGoodBye), (1, sayHello), (20, heartbeat)] := by decide
  cases r with
  | byId id =>
    simp only [Srv.handle, h1]
    unfold Spec.sayHelloRoute
    split
    · next h => subst h; decide
    split
    · next h => subst h; decide
    split
    · next h => subst h; decide
    split
    · next h => subst h; decide
    split
    · next h => subst h; decide
    have : (runOps .new ops).mux.handlers.get? id = none := by
      rw [h3]; simp [GoMap.get?]; grind
    simp [Srv.dispatchId, this]
  | byUrl p => simp [Srv.handle, h1, Srv.dispatchUrl, h2]
  | unreadable => simp [Srv.handle, h1]
  | unknownType => simp [Srv.handle, h1]

/-! ## C117 -/

/-- C117 (partial): the listening calls on tcp and udp end the process exactly if they cannot listen, whatever connections come.
Missing: the call for kcp (`C117_kcp_violated`), and that connections with heartbeats are kept (`C117_heartbeat_violated`). -/
theorem C117_listens_partial (n : String) (hn : n ∈ networks) (hk : n ≠ "kcp") (listens onConnect : Bool) (script : List (Bool × AcceptEv)) :
    endsProcess (listenCall n.toList listens onConnect script) = !listens := by
  simp only [networks, List.mem_cons, List.not_mem_nil, or_false] at hn
  rcases hn with rfl | rfl | rfl
  · have h := C89_tcp_partial "tcp".toList (by decide) listens onConnect script
    cases hc : listenCall "tcp".toList listens onConnect script with
    | err => rw [h.1.1 hc]; rfl
    | panics => exact absurd hc h.2.1
    | _ =>
      have : listens ≠ false := fun hl => by rw [h.1.2 hl] at hc; cases hc
      cases listens <;> simp_all [endsProcess]
  · have h := C89_udp_violated "udp".toList (.inl (by decide)) onConnect script
    cases listens
    · rw [h.1]; rfl
    · rw [h.2]; rfl
  · exact absurd rfl hk

/-- C117 is violated: one of the listening calls always ends the process, whatever the network does. -/
theorem C117_kcp_violated : ∃ n ∈ networks, ∀ listens onConnect script, endsProcess (listenCall n.toList listens onConnect script) = true :=
  ⟨"kcp", by decide, fun listens onConnect script => by
    rw [C89_unknown "kcp".toList (by decide) (by decide) (by decide) listens onConnect script]; rfl⟩

/-- C117 is violated: whatever a client sends, its connection is closed within three intervals (of five seconds) of being accepted and
`14 * d`, if the watchers are never more than `d` late: no handler of this server passes a heartbeat on. -/
theorem C117_heartbeat_violated (cfg : TCfg) (hb : cfg.w.heartBeatOn = (runOps .new ops).hbOn) (hcb : cfg.w.hasOnLoss = false) (d : Nat) (life : Life)
    (jobs : Nat → List UCall) (hj : OwnCalls jobs) (ls : List TLabel) (c a : Nat)
    (hp : Throughout cfg (.start life jobs) ls (PromptBeat cfg d c)) (ha : acceptedAt c (trun cfg life jobs ls).log = some a)
    (hlate : a + 3 * cfg.interval + 14 * d < (trun cfg life jobs ls).now) : ClosedIn c (trun cfg life jobs ls).log :=
  C115_others cfg (hb.trans (C116_routes .unreadable).2.2.2) d life jobs ls c a hp ha
    (fun t i => not_logged _ _ _ _ _ (fun ls => (nobeat_run _ _ _ c
      (fun i h => by obtain ⟨c', h⟩ := hj i _ h; cases h) ls).none i) t)
    (fun t => not_logged _ _ _ _ _ (nocallback_run _ hcb _ _ c true) t) hlate

-- such a run
example : OwnCalls Demo.wnone ∧ Demo.quiet.w.heartBeatOn = (runOps .new ops).hbOn ∧ acceptedAt 0 (trun Demo.quiet Demo.wlife Demo.wnone Demo.tclosed).log = some 0 ∧
    (trun Demo.quiet Demo.wlife Demo.wnone Demo.tclosed).now = 31 ∧
    Throughout Demo.quiet (.start Demo.wlife Demo.wnone) Demo.tclosed (PromptBeat Demo.quiet 0 0) :=
  ⟨fun i u h => by simp [Demo.wnone] at h, by decide, by decide, by decide, throughout_of _ _ _ _ (by decide)⟩

end Tcpx
