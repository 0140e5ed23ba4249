import Verif.Lemmas.WatchClose
import Verif.Lemmas.WatchSignals
import Verif.Lemmas.WatchBeats
import Verif.Lemmas.WatchLive
/-!
# C51–C54, C61, C63 and part of C64: the watchers of a connection

Every theorem speaks about `(WState.start life jobs).run cfg ls`: a server with settings `cfg`, any goroutines of user code `jobs`
and any schedule `ls` of accepting, watchers, user code, `Stop` and listening calls.
-/
namespace Tcpx
open Spec

/-- The run along a schedule. -/
abbrev wrun (cfg : WCfg) (life : Life) (jobs : Nat → List UCall) (ls : List WLabel) : WState := (WState.start life jobs).run cfg ls

/-! ## C51: heartbeat loss -/

/-- Whenever the watcher closes a connection for heartbeat loss, exactly three intervals have elapsed in a row without a heartbeat
and the loss callback, if there is one, has run exactly once; and neither happens twice. -/
theorem C51_loss (cfg : WCfg) (life : Life) (jobs : Nat → List UCall) (ls : List WLabel) (c : Nat) :
    AtEach (.closed c .loss) (fun before => silent c before = 3 ∧ callbacks c before = if cfg.hasOnLoss then 1 else 0)
      (wrun cfg life jobs ls).trace ∧
    losses c (wrun cfg life jobs ls).trace ≤ 1 ∧ callbacks c (wrun cfg life jobs ls).trace ≤ 1 ∧
    silent c (wrun cfg life jobs ls).trace ≤ 3 := by
  obtain ⟨h1, h2, h3⟩ := hbinv_run cfg life jobs c ls
  refine ⟨h3, ?_⟩
  unfold HbOk at h1
  grind

/-- Once three intervals have elapsed without a heartbeat, the connection is closed for heartbeat loss as soon as the watcher has been
scheduled twice more, whatever else happens, unless the loss callback panics. Missing: callbacks that panic
(`C51_callback_panics_violated`) and heartbeats lost on the way to the watcher (`C51_lost_beat_violated`). -/
theorem C51_closes_partial (cfg : WCfg) (life : Life) (jobs : Nat → List UCall) (ls ls' : List WLabel) (c : Nat)
    (hsil : silent c (wrun cfg life jobs ls).trace = 3)
    (hp : .lossCallback c true ∉ (wrun cfg life jobs ls).trace)
    (hgo : 2 ≤ ls'.count (.hb c .go)) (hp' : .hb c .panic ∉ ls') :
    losses c (wrun cfg life jobs (ls ++ ls')).trace = 1 := by
  have hmem : .closed c .loss ∈ (wrun cfg life jobs (ls ++ ls')).trace := by
    rw [wrun, WState.run_append]
    obtain ⟨h1, h2, h3⟩ := hbinv_run cfg life jobs c ls
    have hn : (WState.start life jobs |>.run cfg ls).n ≤ c → ((WState.start life jobs |>.run cfg ls).ctxs c).hb = .off :=
      fun h => by rw [(winv_run cfg life jobs ls).fresh c h]
    have hin : .hb c .go ∈ ls' := List.count_pos_iff.1 (by omega)
    cases hpc : ((WState.start life jobs |>.run cfg ls).ctxs c).hb with
    | lost => exact lost_live cfg c ls' _ (by grind) hpc hgo hp'
    | closing w =>
      have hw : w = .loss := by
        unfold HbOk at h1
        grind
      subst hw
      exact closing_live cfg c ls' _ (by grind) hpc hin
    | ended =>
      refine trace_mono ?_
      have : 0 < losses c (WState.start life jobs |>.run cfg ls).trace := by
        unfold HbOk at h1
        grind
      exact List.count_pos_iff.1 this
    | _ => unfold HbOk at h1; grind
  have h1 : 0 < losses c (wrun cfg life jobs (ls ++ ls')).trace := List.count_pos_iff.2 hmem
  have h2 := (C51_loss cfg life jobs (ls ++ ls') c).2.1
  omega

/-- If the loss callback panics the connection is never closed for heartbeat loss (and it happens: whenever there is a callback). -/
theorem C51_callback_panics_violated (cfg : WCfg) (life : Life) (jobs : Nat → List UCall) (hb : cfg.heartBeatOn = true)
    (hcb : cfg.hasOnLoss = true) (hrun : life.state = .running) :
    ∃ ls, silent 0 (wrun cfg life jobs ls).trace = 3 ∧
      ∀ ls', losses 0 (wrun cfg life jobs (ls ++ ls')).trace = 0 := by
  let round : List WLabel := [.hb 0 .go, .hb 0 .go, .hb 0 .go, .hb 0 .timer]
  refine ⟨.accept .tcp :: (round ++ round ++ round ++ [.hb 0 .panic]), ?_, ?_⟩
  · simp [round, wrun, WState.run, WState.start, WState.step, hbStep, newCtx, hb, hcb, hrun, WState.setCtx, WState.log, silent]
  · intro ls'
    have hin : .lossCallback 0 true ∈ (wrun cfg life jobs (.accept .tcp :: (round ++ round ++ round ++ [.hb 0 .panic]))).trace := by
      simp [round, wrun, WState.run, WState.start, WState.step, hbStep, newCtx, hb, hcb, hrun, WState.setCtx, WState.log]
    have := (hbinv_run cfg life jobs 0 (.accept .tcp :: (round ++ round ++ round ++ [.hb 0 .panic]) ++ ls')).2.1
    exact (this (by rw [WState.run_append]; exact trace_mono hin)).2

namespace Demo
/-- A running server. -/
def wlife : Life := { state := .running, withSignals := true, sig := .opened }
def wcfg : WCfg := { heartBeatOn := true, auth := true, hasOnLoss := true }
def wnone : Nat → List UCall := fun _ => []
def wround (c : Nat) : List WLabel := [.hb c .go, .hb c .go, .hb c .go, .hb c .timer]
def wbeat : Nat → List UCall := fun i => if i = 0 then [.beat 0] else []
/-- Two silent intervals, a heartbeat, three silent intervals. -/
def wloss : List WLabel :=
  [.accept .tcp] ++ wround 0 ++ wround 0 ++ [.hb 0 .go, .hb 0 .go, .user 0, .user 0, .user 0, .hb 0 .recv] ++
  wround 0 ++ wround 0 ++ wround 0
/-- Goroutine 0 looks for the channel before the watcher has made it, and goes on in the third interval only. -/
def wrace : List WLabel :=
  [.accept .tcp, .user 0, .user 0] ++ wround 0 ++ wround 0 ++ [.hb 0 .go, .hb 0 .go, .user 0, .user 0, .hb 0 .timer, .hb 0 .go, .hb 0 .go]
end Demo

example : silent 0 (wrun Demo.wcfg Demo.wlife Demo.wbeat Demo.wloss).trace = 3 ∧
    .beatTaken 0 ∈ (wrun Demo.wcfg Demo.wlife Demo.wbeat Demo.wloss).trace ∧
    .lossCallback 0 true ∉ (wrun Demo.wcfg Demo.wlife Demo.wbeat Demo.wloss).trace := by decide
example : .closed 0 .loss ∈ (wrun Demo.wcfg Demo.wlife Demo.wbeat (Demo.wloss ++ [.hb 0 .go, .hb 0 .go])).trace := by decide

/-- A heartbeat can be lost: `HeartBeatChan` looks for the channel and makes it in two steps, so that a handler running beside the watcher
can put its signal where the watcher does not look.  Here `RecvHeartBeat` returns after two intervals, and the connection
is closed at the end of the third. -/
theorem C51_lost_beat_violated : ∃ ls tr1 tr2, (wrun Demo.wcfg Demo.wlife Demo.wbeat ls).trace = tr1 ++ .ret 0 (.beat 0) :: tr2 ∧
    silent 0 tr2 = 2 ∧ .closed 0 .loss ∈ tr1 ∧ tr1.count (.tick 0) = 1 := by
  refine ⟨Demo.wrace, [.closed 0 .loss, .lossCallback 0 false, .tick 0], [.tick 0, .tick 0, .invoke 0 (.beat 0), .newConn 0], ?_, ?_⟩
  · decide
  · decide

/-! ## C52: UDP -/

/-- With heartbeat on, every datagram shuts the UDP socket down three intervals later, whatever else happens meanwhile: other
datagrams, their heartbeats, connections. -/
theorem C52_socket_closed_violated (cfg : WCfg) (hb : cfg.heartBeatOn = true) (life : Life) (jobs : Nat → List UCall)
    (ls l1 l2 l3 : List WLabel) (k : Nat) (hr : (wrun cfg life jobs ls).life.state = .running)
    (c : Nat) (hc : c = (wrun cfg life jobs ls).n) (hl : ∀ l ∈ l1 ++ l2 ++ l3, (∀ x, l ≠ .hb c x) ∧ ∀ b, l ≠ .stop b) :
    let round : List WLabel := [.hb c .go, .hb c .go, .hb c .go, .hb c .timer]
    (wrun cfg life jobs (ls ++ .accept (.udp k) :: (l1 ++ round ++ l2 ++ round ++ l3 ++ round ++ [.hb c .go, .hb c .go]))).closed (2 * k)
      = true := by
  intro round
  have hl1 : (∀ x, .hb c x ∉ l1) ∧ ∀ b, .stop b ∉ l1 :=
    ⟨fun x h => (hl _ (by simp [h])).1 x rfl, fun b h => (hl _ (by simp [h])).2 b rfl⟩
  have hl2 : (∀ x, .hb c x ∉ l2) ∧ ∀ b, .stop b ∉ l2 :=
    ⟨fun x h => (hl _ (by simp [h])).1 x rfl, fun b h => (hl _ (by simp [h])).2 b rfl⟩
  have hl3 : (∀ x, .hb c x ∉ l3) ∧ ∀ b, .stop b ∉ l3 :=
    ⟨fun x h => (hl _ (by simp [h])).1 x rfl, fun b h => (hl _ (by simp [h])).2 b rfl⟩
  rw [wrun, WState.run_append]
  show (WState.run cfg (((wrun cfg life jobs ls).step cfg (.accept (.udp k))).getD (wrun cfg life jobs ls)) _).closed (2 * k) = true
  generalize hy : ((wrun cfg life jobs ls).step cfg (.accept (.udp k))).getD (wrun cfg life jobs ls) = y
  have hyn : c < y.n ∧ (y.ctxs c).hb = .top 0 ∧ (y.ctxs c).sock = 2 * k ∧ y.life.state = .running := by
    rw [← hy]
    simp [WState.step, WState.setCtx, WState.log, newCtx, hb, hc, hr]
  obtain ⟨n0, p0, sk, r0⟩ := hyn
  simp only [WState.run_append]
  have so : ((((((((y.run cfg l1).run cfg round).run cfg l2).run cfg round).run cfg l3).run cfg round).ctxs c).sock) = 2 * k := by
    simp only [← WState.run_append]
    rw [sock_run cfg n0, sk]
  obtain ⟨p1, n1, r1⟩ := others_run cfg c l1 y n0 hl1.1 hl1.2 r0
  obtain ⟨p2, n2, r2⟩ := silent_round cfg _ c 0 n1 (p1.trans p0) r1
  obtain ⟨p3, n3, r3⟩ := others_run cfg c l2 _ n2 hl2.1 hl2.2 r2
  obtain ⟨p4, n4, r4⟩ := silent_round cfg _ c 1 n3 (p3.trans p2) r3
  obtain ⟨p5, n5, r5⟩ := others_run cfg c l3 _ n4 hl3.1 hl3.2 r4
  obtain ⟨p6, n6, r6⟩ := silent_round cfg _ c 2 n5 (p5.trans p4) r5
  generalize (((((y.run cfg l1).run cfg round).run cfg l2).run cfg round).run cfg l3).run cfg round = z at *
  change (z.ctxs c).hb = .lost at p6
  cases hcb : cfg.hasOnLoss <;> simp [WState.run, WState.step, hbStep, p6, hcb, WState.setCtx, WState.log, WState.closeConn, so]

example : (wrun Demo.wcfg Demo.wlife Demo.wnone ([.accept .tcp] ++ .accept (.udp 0) :: ([.accept (.udp 0)] ++ Demo.wround 1 ++ [] ++
    Demo.wround 1 ++ [.accept (.udp 0)] ++ Demo.wround 1 ++ [.hb 1 .go, .hb 1 .go]))).closed 0 = true := by decide

/-- Without heartbeat, and until `Stop(true)`, no datagram shuts a UDP socket down, unless a handler closes the connection of a
datagram itself. Missing: heartbeat on, where every datagram shuts the socket down (`C52_socket_closed_violated`). -/
theorem C52_socket_open_partial (cfg : WCfg) (hb : cfg.heartBeatOn = false) (life : Life) (hconf : Configured life)
    (jobs : Nat → List UCall) (ls : List WLabel) (hstop : .stop true ∉ ls)
    (huser : ∀ i c, .close c ∈ jobs i → ((wrun cfg life jobs ls).ctxs c).sock % 2 = 1) (k : Nat) :
    (wrun cfg life jobs ls).closed (2 * k) = false := by
  cases h : (wrun cfg life jobs ls).closed (2 * k) with
  | false => rfl
  | true =>
    exfalso
    obtain ⟨c, ⟨w, hw⟩, hk⟩ := (clok_run cfg life hconf jobs ls).socks _ h
    have hc := causeok_run cfg life hconf jobs ls
    have hs : ((wrun cfg life jobs ls).ctxs c).sock % 2 = 0 := by rw [hk]; omega
    cases w with
    | loss => exact (hc.beatOff hb c).2 hw
    | stopState => exact (hc.beatOff hb c).1 hw
    | deadline => exact (hc.udp c hs).2.1 hw
    | denied => exact (hc.udp c hs).2.2 hw
    | user =>
      obtain ⟨i, hi⟩ := (userok_run cfg life jobs ls).closed c hw
      have := huser i c hi
      omega
    | signal =>
      obtain ⟨post, pre, he⟩ := List.append_of_mem hw
      have hin := hc.signal c post pre he
      rcases stop_label (cfg := cfg) (ls := ls) (s := .start life jobs) (b := true) (ok := true)
        (by rw [he]; exact List.mem_append_right _ (List.mem_cons_of_mem _ hin)) with h | h
      · exact hstop h
      · cases h

example : let y := wrun { auth := true } Demo.wlife (fun i => if i = 0 then [.close 1] else []) [.accept (.udp 0), .accept .tcp, .user 0, .user 0, .stop false]
    y.closed 0 = false ∧ y.closed 3 = true ∧ (y.ctxs 1).sock % 2 = 1 := by decide

/-! ## C53: authorisation -/

/-- Only the first of deadline, pass and deny counts: what the watcher takes is the first signal sent and then no deadline counts;
it closes for denial only if the first signal was a denial, for lateness only if the deadline passed before any signal
was taken; after a pass it never closes. -/
theorem C53_once (cfg : WCfg) (life : Life) (jobs : Nat → List UCall) (ls : List WLabel) (c : Nat) :
    (∀ v, .authTaken c v ∈ (wrun cfg life jobs ls).trace →
      firstSignal c (wrun cfg life jobs ls).trace = some v ∧ .deadline c ∉ (wrun cfg life jobs ls).trace) ∧
    (.closed c .denied ∈ (wrun cfg life jobs ls).trace →
      ∃ v, v < 0 ∧ firstSignal c (wrun cfg life jobs ls).trace = some v ∧ .authTaken c v ∈ (wrun cfg life jobs ls).trace) ∧
    (.closed c .deadline ∈ (wrun cfg life jobs ls).trace →
      .deadline c ∈ (wrun cfg life jobs ls).trace ∧ ∀ v, .authTaken c v ∉ (wrun cfg life jobs ls).trace) ∧
    (∀ v, 0 ≤ v → .authTaken c v ∈ (wrun cfg life jobs ls).trace →
      .closed c .denied ∉ (wrun cfg life jobs ls).trace ∧ .closed c .deadline ∉ (wrun cfg life jobs ls).trace) := by
  have h := auok_run cfg life jobs c ls
  have hl : .closed c .deadline ∈ (wrun cfg life jobs ls).trace →
      .deadline c ∈ (wrun cfg life jobs ls).trace ∧ ∀ v, .authTaken c v ∉ (wrun cfg life jobs ls).trace :=
    fun hc => ⟨h.closedL hc, fun v hv => (h.taken v hv).2.1 (h.closedL hc)⟩
  refine ⟨fun v hv => ⟨(h.taken v hv).1, (h.taken v hv).2.1⟩, ?_, hl, ?_⟩
  · intro hc
    obtain ⟨v, h1, h2⟩ := h.closedD hc
    exact ⟨v, h1, (h.taken v h2).1, h2⟩
  · intro v hv ht
    refine ⟨fun hc => ?_, fun hc => (hl hc).2 v ht⟩
    obtain ⟨w, h1, h2⟩ := h.closedD hc
    have e := (h.taken v ht).1.symm.trans (h.taken w h2).1
    cases e
    omega

/-- The watcher of a TCP connection of a server with auth goes on waiting: as long as nothing has been decided, the connection is
open and `Stop(true)` has not been called, the deadline can pass and the first signal sent can be taken. -/
theorem C53_waits (cfg : WCfg) (hauth : cfg.auth = true) (life : Life) (hconf : Configured life) (jobs : Nat → List UCall)
    (ls ls' : List WLabel) (c : Nat) (hc : c = (wrun cfg life jobs ls).n)
    (hund : ∀ v, .authTaken c v ∉ (wrun cfg life jobs (ls ++ .accept .tcp :: ls')).trace)
    (hlate : .deadline c ∉ (wrun cfg life jobs (ls ++ .accept .tcp :: ls')).trace)
    (hopen : ¬ IsClosed c (wrun cfg life jobs (ls ++ .accept .tcp :: ls')).trace)
    (hstop : .stop true ∉ ls ++ ls') :
    (∃ y, (wrun cfg life jobs (ls ++ .accept .tcp :: ls')).step cfg (.au c .timer) = some y ∧ .deadline c ∈ y.trace) ∧
    (∀ v, firstSignal c (wrun cfg life jobs (ls ++ .accept .tcp :: ls')).trace = some v →
      ∃ y, (wrun cfg life jobs (ls ++ .accept .tcp :: ls')).step cfg (.au c .recv) = some y ∧ .authTaken c v ∈ y.trace) := by
  have ha := auok_run cfg life jobs c (ls ++ .accept .tcp :: ls')
  have hw := winv_run cfg life jobs (ls ++ .accept .tcp :: ls')
  have hk := causeok_run cfg life hconf jobs (ls ++ .accept .tcp :: ls')
  have hcl := clok_run cfg life hconf jobs (ls ++ .accept .tcp :: ls')
  have hwait : WaitOk c (wrun cfg life jobs (ls ++ .accept .tcp :: ls')) := by
    rw [wrun, WState.run_append]
    have h0 := clok_run cfg life hconf jobs (ls ++ [.accept .tcp])
    have w0 := winv_run cfg life jobs (ls ++ [.accept .tcp])
    rw [WState.run_append] at h0 w0
    refine (WState.run_induct (cfg := cfg) (P := fun s => (WInv s ∧ ClOk cfg s) ∧ WaitOk c s)
      (s := (wrun cfg life jobs ls).run cfg [.accept .tcp]) ⟨⟨w0, h0⟩, ?_⟩ ?_ ls').2
    · refine ⟨?_, ?_, ?_⟩
      all_goals simp [WState.run, WState.step, WState.setCtx, WState.log, newCtx, hauth, hc]
    · exact fun s l s' h hs => ⟨⟨winv_step h.1.1 hs, clok_step h.1.1 h.1.2 hs⟩, waitok_step h.1.2 h.2 hs⟩
  have hsel : ((wrun cfg life jobs (ls ++ .accept .tcp :: ls')).ctxs c).au = .select := by
    cases hpc : ((wrun cfg life jobs (ls ++ .accept .tcp :: ls')).ctxs c).au with
    | off => exact absurd hpc hwait.on
    | select => rfl
    | ended =>
      rcases hwait.ended hpc with ⟨v, hv⟩ | h
      · exact absurd hv (hund v)
      · exact absurd h hopen
    | closing w =>
      obtain ⟨h1, h2, h3⟩ := hw.au c w hpc
      cases w with
      | deadline => exact absurd (ha.closingL hpc) hlate
      | denied =>
        obtain ⟨v, _, hv⟩ := ha.closingD hpc
        exact absurd hv (hund v)
      | signal =>
        exfalso
        have hsig := hk.au c hpc
        have hin : .stop true true ∈ (wrun cfg life jobs (ls ++ .accept .tcp :: ls')).trace := by
          cases hws : (wrun cfg life jobs (ls ++ .accept .tcp :: ls')).life.withSignals with
          | true => exact hcl.sig hws hsig
          | false => exact absurd hsig (hcl.noSig hws)
        rcases stop_label hin with h | h
        · refine hstop ?_
          simp only [List.mem_append, List.mem_cons] at h ⊢
          rcases h with h | h | h
          · exact .inl h
          · cases h
          · exact .inr h
        · cases h
      | loss => exact absurd rfl h1
      | stopState => exact absurd rfl h2
      | user => exact absurd rfl h3
  refine ⟨⟨_, by simp only [WState.step, auStep, hsel]; rfl, by simp [WState.log]⟩, fun v hv => ?_⟩
  have hau := ha.first hund
  rw [hv] at hau
  exact ⟨_, by simp only [WState.step, auStep, hsel, hau]; rfl, by simp [WState.log]⟩

/-- Once the deadline has passed, or a denial was taken, the connection is closed as soon as the watcher is scheduled. -/
theorem C53_closes (cfg : WCfg) (life : Life) (jobs : Nat → List UCall) (ls ls' : List WLabel) (c : Nat) (hgo : .au c .go ∈ ls') :
    (.deadline c ∈ (wrun cfg life jobs ls).trace → .closed c .deadline ∈ (wrun cfg life jobs (ls ++ ls')).trace) ∧
    (∀ v, v < 0 → .authTaken c v ∈ (wrun cfg life jobs ls).trace →
      .closed c .denied ∈ (wrun cfg life jobs (ls ++ ls')).trace) := by
  have ha := auok_run cfg life jobs c ls
  have hlt : ((wrun cfg life jobs ls).ctxs c).au ≠ .off → c < (wrun cfg life jobs ls).n := by
    intro h
    apply Nat.lt_of_not_le
    intro hn
    exact h (by rw [(winv_run cfg life jobs ls).fresh c hn])
  rw [wrun, wrun, WState.run_append]
  constructor
  · intro hd
    rcases ha.late hd with h | ⟨_, h⟩
    · exact au_closing_live cfg c .deadline ls' _ (hlt (by rw [h]; simp)) h hgo
    · exact trace_mono h
  · intro v hv ht
    have := (ha.taken v ht).2.2
    rw [if_neg (by omega)] at this
    rcases this with h | ⟨_, h⟩
    · exact au_closing_live cfg c .denied ls' _ (hlt (by rw [h]; simp)) h hgo
    · exact trace_mono h

namespace Demo
def wauth (vs : List Int) : Nat → List UCall := fun i => if i = 0 then vs.map (.auth 0) else []
end Demo

example : let y := wrun Demo.wcfg Demo.wlife (Demo.wauth [1, -1]) [.accept .tcp, .user 0, .user 0, .au 0 .recv, .user 0, .user 0, .au 0 .timer, .au 0 .recv, .au 0 .go]
    .authTaken 0 1 ∈ y.trace ∧ authReturns 0 y.trace = 2 ∧ y.closed 1 = false := by decide
example : let y := wrun Demo.wcfg Demo.wlife (Demo.wauth [-1, 1]) [.accept .tcp, .user 0, .user 0, .au 0 .recv, .user 0, .user 0, .au 0 .go]
    .closed 0 .denied ∈ y.trace ∧ authReturns 0 y.trace = 2 := by decide
example : let y := wrun Demo.wcfg Demo.wlife (Demo.wauth [1]) [.accept .tcp, .user 0, .au 0 .timer, .user 0, .au 0 .go]
    .closed 0 .deadline ∈ y.trace ∧ firstSignal 0 y.trace = some 1 := by decide

/-! ## C54: signals and blocking -/

/-- In no run do more than two authorisation signals for a connection return; without auth, no more than one: the next call blocks
its handler for ever. -/
theorem C54_auth_blocks_violated (cfg : WCfg) (life : Life) (jobs : Nat → List UCall) (ls : List WLabel) (c : Nat) :
    authReturns c (wrun cfg life jobs ls).trace ≤ 2 ∧
    (cfg.auth = false → authReturns c (wrun cfg life jobs ls).trace ≤ 1) := by
  have h : RetOk cfg c (wrun cfg life jobs ls) := retok_run cfg life jobs c ls
  unfold RetOk at h
  grind

/-- Three calls, as many steps as one likes: the third has been made and cannot go on. -/
example : let y := wrun Demo.wcfg Demo.wlife (Demo.wauth [1, 1, 1]) [.accept .tcp, .user 0, .user 0, .au 0 .recv, .user 0, .user 0, .user 0, .user 0]
    authReturns 0 y.trace = 2 ∧ (y.threads 0).pc = .authSend 0 1 ∧ y.step Demo.wcfg (.user 0) = none := by exact ⟨rfl, rfl, rfl⟩

/-- With heartbeat off, no more than one heartbeat signal of a goroutine that sends them all returns. -/
theorem C54_beat_blocks_violated (cfg : WCfg) (hb : cfg.heartBeatOn = false) (life : Life) (jobs : Nat → List UCall)
    (ls : List WLabel) (t c : Nat) (hj : OnlyBeater t c jobs) : beatReturns c (wrun cfg life jobs ls).trace ≤ 1 :=
  (beatok_run cfg hb life jobs t c hj ls).once

example : OnlyBeater 0 0 Demo.wbeat := by
  intro i hi
  simp [Demo.wbeat, hi]

/-- The first signal of each kind never blocks; and when the watcher takes a signal, whoever was blocked on the channel can go on.
Missing: further signals (`C54_auth_blocks_violated`, `C54_beat_blocks_violated`). -/
theorem C54_first_partial (cfg : WCfg) (life : Life) (jobs : Nat → List UCall) (ls : List WLabel) (i c : Nat) :
    (∀ v, ((wrun cfg life jobs ls).threads i).pc = .authSend c v → authReturns c (wrun cfg life jobs ls).trace = 0 →
      ∃ y, (wrun cfg life jobs ls).step cfg (.user i) = some y ∧ .ret i (.auth c v) ∈ y.trace) ∧
    (∀ ch, ((wrun cfg life jobs ls).threads i).pc = .beatSend c ch → beatReturns c (wrun cfg life jobs ls).trace = 0 →
      ∃ y, (wrun cfg life jobs ls).step cfg (.user i) = some y ∧ .ret i (.beat c) ∈ y.trace) ∧
    (∀ v y, ((wrun cfg life jobs ls).threads i).pc = .authSend c v → (wrun cfg life jobs ls).step cfg (.au c .recv) = some y →
      ∃ z, y.step cfg (.user i) = some z ∧ .ret i (.auth c v) ∈ z.trace) ∧
    (∀ ch times y, ((wrun cfg life jobs ls).threads i).pc = .beatSend c ch →
      ((wrun cfg life jobs ls).ctxs c).hb = .select times ch → (wrun cfg life jobs ls).step cfg (.hb c .recv) = some y →
      ∃ z, y.step cfg (.user i) = some z ∧ .ret i (.beat c) ∈ z.trace) := by
  refine ⟨?_, ?_, ?_, ?_⟩
  · intro v hp hz
    have ha := auok_run cfg life jobs c ls
    have hnone : ∀ tr : List WatchEv, authReturns c tr = 0 → firstSignal c tr = none := by
      intro tr
      induction tr with
      | nil => exact fun _ => rfl
      | cons e tr ih =>
        cases e with
        | ret j u => cases u <;> simp only [authReturns, firstSignal] <;> grind
        | _ => simpa only [authReturns, firstSignal] using ih
    have hf := hnone _ hz
    have hau : ((wrun cfg life jobs ls).ctxs c).auth = none := by
      rw [← hf]
      refine ha.first fun v hv => ?_
      have := (ha.taken v hv).1
      rw [wrun] at hf
      rw [hf] at this
      cases this
    exact ⟨_, by simp only [WState.step, userStep, hp, hau]; rfl, by simp [WState.log]⟩
  · intro ch hp hz
    obtain ⟨owner, ho⟩ := ownok_run cfg life jobs ls
    have hb : (wrun cfg life jobs ls).buf ch = false := by
      cases h : (wrun cfg life jobs ls).buf ch with
      | false => rfl
      | true =>
        have := (ho.buf ch h).2
        rw [(ho.send i c ch hp).1] at this
        rw [wrun] at hz
        omega
    exact ⟨_, by simp only [WState.step, userStep, hp, hb]; rfl, by simp [WState.log]⟩
  · intro v y hp hs
    generalize wrun cfg life jobs ls = s at *
    cases hpc : (s.ctxs c).au with
    | select =>
      cases hau : (s.ctxs c).auth with
      | none => simp [WState.step, auStep, hpc, hau] at hs
      | some w =>
        simp only [WState.step, auStep, hpc, hau, Option.some.injEq] at hs
        subst hs
        exact ⟨_, by simp [WState.step, userStep, WState.log, WState.setCtx, hp]; rfl, by simp⟩
    | _ => simp [WState.step, auStep, hpc] at hs
  · intro ch times y hp hh hs
    generalize wrun cfg life jobs ls = s at *
    simp only [WState.step, hbStep, hh] at hs
    split at hs
    · cases hs
      exact ⟨_, by simp [WState.step, userStep, WState.log, WState.setCtx, WState.setBuf, hp]; rfl, by simp⟩
    · cases hs

example : let y := wrun Demo.wcfg Demo.wlife (Demo.wauth [1, -1]) [.accept .tcp, .user 0, .user 0, .user 0]
    (y.threads 0).pc = .authSend 0 (-1) ∧ y.step Demo.wcfg (.user 0) = none ∧ (y.step Demo.wcfg (.au 0 .recv)).isSome := by
  exact ⟨rfl, rfl, rfl⟩

/-! ## C61: Stop(false) -/

/-- With heartbeat off and as long as only `Stop(false)` is called, no watcher closes a connection but for authorisation; and
`Stop(false)` leaves the pool and its members alone. Missing: heartbeat on (`C61_heartbeat_violated`). -/
theorem C61_kept_partial (cfg : WCfg) (hb : cfg.heartBeatOn = false) (life : Life) (hconf : Configured life)
    (jobs : Nat → List UCall) (ls : List WLabel) (hstop : .stop true ∉ ls) (c : Nat) (why : Cause)
    (hcl : .closed c why ∈ (wrun cfg life jobs ls).trace) :
    why = .deadline ∨ why = .denied ∨ why = .user ∧ ∃ i, .close c ∈ jobs i := by
  have hc := causeok_run cfg life hconf jobs ls
  cases why with
  | loss => exact absurd hcl (hc.beatOff hb c).2
  | stopState => exact absurd hcl (hc.beatOff hb c).1
  | deadline => exact .inl rfl
  | denied => exact .inr (.inl rfl)
  | user => exact .inr (.inr ⟨rfl, (userok_run cfg life jobs ls).closed c hcl⟩)
  | signal =>
    obtain ⟨post, pre, he⟩ := List.append_of_mem hcl
    have hin := hc.signal c post pre he
    rcases stop_label (cfg := cfg) (ls := ls) (s := .start life jobs) (b := true) (ok := true)
      (by rw [he]; exact List.mem_append_right _ (List.mem_cons_of_mem _ hin)) with h | h
    · exact absurd h hstop
    · cases h

/-- C61 (partial): `Stop(false)` leaves the pool and the broadcast signals as they are. Missing: as for `C61_kept_partial`. -/
theorem C61_pool_partial (s : Life) : (s.stop false).2.pool = s.pool ∧ (s.stop false).2.sweeps = s.sweeps ∧
    (s.stop false).2.sig = s.sig := by
  unfold Life.stop
  split <;> simp

example : let y := wrun {} Demo.wlife Demo.wnone [.accept .tcp, .stop false, .bc 0 .sig, .bc 0 .fin]
    .stop false true ∈ y.trace ∧ y.closed 1 = false := by decide

/-- With heartbeat on, `Stop(false)` makes the watcher of every connection close it at the next heartbeat. -/
theorem C61_heartbeat_violated (cfg : WCfg) (life : Life) (jobs : Nat → List UCall) (ls : List WLabel) (c ch times : Nat)
    (hr : (wrun cfg life jobs ls).life.state = .running)
    (hw : ((wrun cfg life jobs ls).ctxs c).hb = .select times ch) (hbeat : (wrun cfg life jobs ls).buf ch = true) :
    .closed c .stopState ∈ (wrun cfg life jobs (ls ++ [.stop false, .hb c .recv, .hb c .go, .hb c .go])).trace := by
  rw [wrun, WState.run_append]
  generalize hy : (WState.start life jobs).run cfg ls = y
  simp only [wrun] at hr hw hbeat
  rw [hy] at hr hw hbeat
  simp [WState.run, WState.step, hbStep, Life.stop, hr, hw, hbeat, WState.setCtx, WState.setBuf, WState.log, WState.closeConn]

example : let y := wrun Demo.wcfg Demo.wlife Demo.wbeat [.accept .tcp, .hb 0 .go, .hb 0 .go, .hb 0 .go, .user 0, .user 0, .user 0]
    y.life.state = .running ∧ (y.ctxs 0).hb = .select 0 0 ∧ y.buf 0 = true := by decide

/-! ## C63: Stop(true) with broadcast signals -/

/-- No connection is closed by the broadcast before `Stop(true)` was called. -/
theorem C63_not_before (cfg : WCfg) (life : Life) (hconf : Configured life) (jobs : Nat → List UCall) (ls : List WLabel) (c : Nat) :
    AtEach (.closed c .signal) (fun before => .stop true true ∈ before) (wrun cfg life jobs ls).trace :=
  (causeok_run cfg life hconf jobs ls).signal c

/-- With broadcast signals, once `Stop(true)` has been called, each connection is closed or its watcher can go on; after one step of
it, and whatever else happens, the connection is closed or the watcher can go on, and then its next step closes it. -/
theorem C63_closes (cfg : WCfg) (life : Life) (hconf : Configured life) (hsig : life.withSignals = true) (jobs : Nat → List UCall)
    (ls : List WLabel) (c : Nat) (hc : c < (wrun cfg life jobs ls).n) (hstop : .stop true true ∈ (wrun cfg life jobs ls).trace) :
    (IsClosed c (wrun cfg life jobs ls).trace ∨ ∃ x y, (wrun cfg life jobs ls).step cfg (.bc c x) = some y) ∧
    ∀ x y, (wrun cfg life jobs ls).step cfg (.bc c x) = some y → ∀ ls',
      IsClosed c (y.run cfg ls').trace ∨
      ((∃ x' z, (y.run cfg ls').step cfg (.bc c x') = some z) ∧
        ∀ x' z, (y.run cfg ls').step cfg (.bc c x') = some z → IsClosed c z.trace) := by
  have hcl := clok_run cfg life hconf jobs ls
  have hws : (wrun cfg life jobs ls).life.withSignals = true := by rw [wrun, withSignals_run]; exact hsig
  have hsg : (wrun cfg life jobs ls).life.sig = .closed := hcl.sent hws hstop
  have hoff := hcl.bc hws c hc
  constructor
  · cases hpc : ((wrun cfg life jobs ls).ctxs c).bc with
    | off => exact absurd hpc hoff
    | select => exact .inr ⟨.sig, _, by simp only [WState.step, bcStep, hpc]; rw [if_pos hsg]⟩
    | closing => exact .inr ⟨.go, _, by simp only [WState.step, bcStep, hpc]; rfl⟩
    | ended => exact .inl (hcl.bcEnd c hpc)
  · intro x y hs ls'
    have hyn : c < y.n := Nat.lt_of_lt_of_le hc (n_step hs)
    have key : IsClosed c y.trace ∨ (y.ctxs c).bc = .closing := by
      have he : ((wrun cfg life jobs ls).ctxs c).endClosed = true ↔ IsClosed c (wrun cfg life jobs ls).trace := hcl.ended c
      clear hcl
      generalize wrun cfg life jobs ls = s at *
      cases hpc : (s.ctxs c).bc with
      | off => simp [WState.step, bcStep, hpc] at hs
      | ended => simp [WState.step, bcStep, hpc] at hs
      | select =>
        cases x <;> simp only [WState.step, bcStep, hpc] at hs
        case sig =>
          rw [if_pos hsg] at hs
          cases hs
          exact .inr (by simp [WState.setCtx])
        case fin =>
          split at hs
          · cases hs
            exact .inl (he.1 (by assumption))
          · cases hs
        all_goals cases hs
      | closing =>
        cases x <;> simp only [WState.step, bcStep, hpc] at hs
        all_goals cases hs
        exact .inl ⟨.signal, by simp [WState.closeConn, WState.log]⟩
    rcases key with h | h
    · exact .inl (closed_mono h)
    · rcases bc_live (cfg := cfg) c ls' y hyn h with h | h
      · exact .inl h
      · refine .inr ⟨⟨.go, _, by simp only [WState.step, bcStep, h]; rfl⟩, ?_⟩
        intro x' z hz
        simp only [WState.step, bcStep, h] at hz
        cases x'
        all_goals cases hz
        exact ⟨.signal, by simp [WState.closeConn, WState.log]⟩

/-- Closed means: the socket is closed. -/
theorem C63_socket (cfg : WCfg) (life : Life) (hconf : Configured life) (jobs : Nat → List UCall) (ls : List WLabel) (c : Nat)
    (h : IsClosed c (wrun cfg life jobs ls).trace) :
    (wrun cfg life jobs ls).closed ((wrun cfg life jobs ls).ctxs c).sock = true := by
  have hcl := clok_run cfg life hconf jobs ls
  exact hcl.sock c ((hcl.ended c).2 h)

example : let y := wrun {} Demo.wlife Demo.wnone [.accept .tcp, .accept .tcp, .stop true, .bc 1 .sig, .bc 1 .go]
    .stop true true ∈ y.trace ∧ y.closed 3 = true ∧ y.closed 1 = false ∧ y.n = 2 := by decide
example : Configured Demo.wlife := by simp [Configured, Demo.wlife]

/-! ## C64: new connections after a restart -/

/-- With broadcast signals, a connection accepted after a `Stop(true)`, however the server was started again, is closed by its watcher in
two steps. -/
theorem C64_new_connection_violated (cfg : WCfg) (life : Life) (hconf : Configured life) (hsig : life.withSignals = true)
    (jobs : Nat → List UCall) (ls : List WLabel) (o : Origin) (hstop : .stop true true ∈ (wrun cfg life jobs ls).trace) :
    IsClosed (wrun cfg life jobs ls).n
      (wrun cfg life jobs (ls ++ [.accept o, .bc (wrun cfg life jobs ls).n .sig, .bc (wrun cfg life jobs ls).n .go])).trace := by
  have hcl := clok_run cfg life hconf jobs ls
  have hws : (wrun cfg life jobs ls).life.withSignals = true := by rw [wrun, withSignals_run]; exact hsig
  have hsg : (wrun cfg life jobs ls).life.sig = .closed := hcl.sent hws hstop
  refine ⟨.signal, ?_⟩
  rw [wrun, WState.run_append]
  change _ ∈ (WState.run cfg (wrun cfg life jobs ls) _).trace
  generalize wrun cfg life jobs ls = y at *
  simp [WState.run, WState.step, bcStep, newCtx, hws, hsg, WState.setCtx, WState.log, WState.closeConn]

example : let y := wrun {} Demo.wlife Demo.wnone [.accept .tcp, .stop true, .listen "tcp" ":8080" 1, .accept .tcp, .bc 1 .sig, .bc 1 .go]
    y.life.state = .running ∧ .closed 1 .signal ∈ y.trace := by decide

/-- As long as `Stop(true)` has not been called, no connection is closed by the broadcast, however often the server was stopped
and started.
Missing: runs after a `Stop(true)` (`C64_new_connection_violated`). -/
theorem C64_kept_partial (cfg : WCfg) (life : Life) (hconf : Configured life) (jobs : Nat → List UCall) (ls : List WLabel)
    (hstop : .stop true ∉ ls) (c : Nat) : .closed c .signal ∉ (wrun cfg life jobs ls).trace := by
  intro hcl
  obtain ⟨post, pre, he⟩ := List.append_of_mem hcl
  have hin := C63_not_before cfg life hconf jobs ls c post pre he
  rcases stop_label (cfg := cfg) (ls := ls) (s := .start life jobs) (b := true) (ok := true)
    (by rw [he]; exact List.mem_append_right _ (List.mem_cons_of_mem _ hin)) with h | h
  · exact hstop h
  · cases h

end Tcpx
