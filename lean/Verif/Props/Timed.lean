import Verif.Lemmas.TimedAuth
import Verif.Props.Watch
/-!
# Heartbeat and authorisation in time

The clock is `Model/Timed`.  `untime_run` and `log_trace` (Lemmas/Timed) say that these runs are runs of `Model/Watch`, with the same
events: what Props/Watch proves holds here too.
-/
namespace Tcpx
open Spec

/-- A run with a clock. -/
abbrev trun (cfg : TCfg) (life : Life) (jobs : Nat → List UCall) (ls : List TLabel) : TState := (TState.start life jobs).run cfg ls

namespace Demo
def tcfg : TCfg := { w := { heartBeatOn := true, hasOnLoss := true }, interval := 10, authDeadline := 7 }
def acfg : TCfg := { w := { auth := true }, interval := 10, authDeadline := 7 }
def tround : List TLabel := [.act (.hb 0 .go), .act (.hb 0 .go), .delay 10, .act (.hb 0 .timer)]
/-- Accepted at 0, silent until 30. -/
def tsilent : List TLabel :=
  [.act (.accept .tcp), .act (.hb 0 .go), .act (.hb 0 .go), .act (.hb 0 .go), .delay 10, .act (.hb 0 .timer)] ++ tround ++ tround
/-- Accepted at 0, a heartbeat at 25, now 35. -/
def tbeats : List TLabel :=
  [.act (.accept .tcp), .act (.hb 0 .go), .act (.hb 0 .go), .act (.hb 0 .go), .delay 10, .act (.hb 0 .timer)] ++ tround ++
  [.act (.hb 0 .go), .act (.hb 0 .go), .delay 5, .act (.user 0), .act (.user 0), .act (.user 0), .act (.hb 0 .recv), .act (.hb 0 .go),
   .act (.hb 0 .go), .delay 10, .act (.hb 0 .timer), .act (.hb 0 .go), .act (.hb 0 .go)]
/-- The handler finds no channel at 0, and stores one, and sends, only at 25. -/
def tslow : List TLabel :=
  [.act (.accept .tcp), .act (.user 0), .act (.user 0), .act (.hb 0 .go), .act (.hb 0 .go), .act (.hb 0 .go), .delay 10,
   .act (.hb 0 .timer)] ++ tround ++
  [.act (.hb 0 .go), .act (.hb 0 .go), .delay 5, .act (.user 0), .act (.user 0), .delay 5, .act (.hb 0 .timer), .act (.hb 0 .go),
   .act (.hb 0 .go)]
end Demo

instance (cfg : TCfg) (d c : Nat) (s : TState) : Decidable (PromptBeat cfg d c s) := by unfold PromptBeat; split <;> infer_instance
instance (cfg : TCfg) (d c : Nat) (s : TState) : Decidable (PromptAuth cfg d c s) := by unfold PromptAuth; split <;> infer_instance

/-- Something true of the states along a list is to be checked for finitely many. -/
theorem throughout_of (cfg : TCfg) (s : TState) (ls : List TLabel) (P : TState → Prop)
    (h : ∀ k ∈ List.range (ls.length + 1), P (s.run cfg (ls.take k))) : Throughout cfg s ls P := by
  intro k
  by_cases hk : k ≤ ls.length
  · exact h k (List.mem_range.2 (by omega))
  · have := h ls.length (List.mem_range.2 (by omega))
    rw [List.take_of_length_le (by omega)]
    rwa [List.take_of_length_le (by omega)] at this

/-- A run with a clock is a run without, and its log is the trace of that run. -/
theorem C84_is_untimed (cfg : TCfg) (life : Life) (jobs : Nat → List UCall) (ls : List TLabel) :
    ∃ ls', (trun cfg life jobs ls).log.map Prod.snd = (wrun cfg.w life jobs ls').trace :=
  ⟨untime cfg (.start life jobs) ls, by rw [log_trace, untime_run]; rfl⟩

/-! ## C84: loss of heartbeat -/

/-- No connection is closed for loss of heartbeat before three intervals have passed since it was accepted, or since its watcher last
received a heartbeat. -/
theorem C84_not_early (cfg : TCfg) (life : Life) (jobs : Nat → List UCall) (ls : List TLabel) (c : Nat) :
    AtEachT (.closed c .loss) (fun t before => ∃ h, lastHeard c before = some h ∧ h + 3 * cfg.interval ≤ t) (trun cfg life jobs ls).log :=
  (lowok_run cfg life jobs c ls).loss

/-- A silent connection is closed in time: if the watcher is never more than `d` late, a connection still open has been heard of within
the last three intervals and `14 * d`, unless the loss callback has panicked (C51). -/
theorem C84_in_time (cfg : TCfg) (hb : cfg.w.heartBeatOn = true) (d : Nat) (life : Life) (jobs : Nat → List UCall) (ls : List TLabel)
    (c : Nat) (hp : Throughout cfg (.start life jobs) ls (PromptBeat cfg d c)) (a : Nat) (ha : (a, .newConn c) ∈ (trun cfg life jobs ls).log)
    (hopen : ¬ ClosedIn c (trun cfg life jobs ls).log) (hcb : ∀ t, (t, .lossCallback c true) ∉ (trun cfg life jobs ls).log) :
    ∃ h, lastHeard c (trun cfg life jobs ls).log = some h ∧ (trun cfg life jobs ls).now ≤ h + 3 * cfg.interval + 14 * d := by
  have htr := log_trace cfg life jobs ls
  have hlt : c < (trun cfg life jobs ls).w.n := by
    have h1 : WatchEv.newConn c ∈ (trun cfg life jobs ls).log.map Prod.snd := List.mem_map.2 ⟨_, ha, rfl⟩
    rw [htr, untime_run] at h1
    rw [untime_run]
    exact newConn_lt h1
  have hup : UpOk cfg d c (trun cfg life jobs ls) :=
    (TState.run_induct (P := fun s => WInv s.w ∧ UpOk cfg d c s) hp ⟨winv_start life jobs, fun h e => (by cases e)⟩
      fun s l s' h hp _ hs => ⟨winv_tstep h.1 hs, upok_step h.1 h.2 hp hs⟩).2
  have hend : EndOk cfg.w c (trun cfg life jobs ls).w := by
    rw [untime_run]; exact endok_run cfg.w life jobs c _
  obtain ⟨h, e⟩ := Option.isSome_iff_exists.1 ((lowok_run cfg life jobs c ls).known hlt)
  refine ⟨h, e, ?_⟩
  have hp' : PromptBeat cfg d c (trun cfg life jobs ls) := by
    have := hp ls.length
    rwa [List.take_of_length_le (Nat.le_refl _)] at this
  rcases leavePc_le (by omega) (upPc_leave hp' (hup h e)) with h1 | h1 | h1
  · exact absurd h1 (hend.on hb hlt)
  · rcases hend.ended h1 with h2 | h2
    · exact absurd ((closedIn_iff c _).2 (htr ▸ h2)) hopen
    · rw [← htr] at h2
      obtain ⟨⟨t, e'⟩, h3, rfl⟩ := List.mem_map.1 h2
      exact absurd h3 (hcb t)
  · omega

/-- Silent for three intervals; the watcher, never late, has not closed it yet; then it does. -/
example : Throughout Demo.tcfg (.start Demo.wlife Demo.wnone) Demo.tsilent (PromptBeat Demo.tcfg 0 0) ∧
    (trun Demo.tcfg Demo.wlife Demo.wnone Demo.tsilent).now = 30 ∧ lastHeard 0 (trun Demo.tcfg Demo.wlife Demo.wnone Demo.tsilent).log = some 0 ∧
    (30, .closed 0 .loss) ∈ (trun Demo.tcfg Demo.wlife Demo.wnone (Demo.tsilent ++ [.act (.hb 0 .go), .act (.hb 0 .go)])).log :=
  ⟨throughout_of _ _ _ _ (by decide), by decide, by decide, by decide⟩

/-! ## C85: heartbeats in time keep a connection -/

/-- If the watcher is never more than `d` late, with `d` less than an interval; if a call of `RecvHeartBeat` returns at least every `g`,
with `g + d` less than three intervals; and if no handler comes before the watcher has made the channel: then the connection is not
closed for loss of heartbeat (if `closed … loss` ever appears, someone else had closed the connection before).
Missing: handlers that come first, see `C85_slow_handler_violated` and `C51_lost_beat_violated`. -/
theorem C85_kept_partial (cfg : TCfg) (g d : Nat) (hd : d < cfg.interval) (hg : g + d < 3 * cfg.interval) (life : Life)
    (jobs : Nat → List UCall) (ls : List TLabel) (c : Nat)
    (hp : Throughout cfg (.start life jobs) ls fun s => PromptBeat cfg d c s ∧ BeatsEvery g c s ∧ WatcherFirst c s) :
    AtEachT (.closed c .loss) (fun _ before => ClosedIn c before) (trun cfg life jobs ls).log :=
  (TState.run_induct (P := KeepOk cfg g c) hp (keepok_start cfg life jobs g c)
    fun _ _ _ h hp hp' hs => keepok_step hd hg hp.2.1 hp.1 hp.2.2 hp'.2.2 h hs).loss

/-- `BeatsEvery`, to be computed. -/
def beatsEvery (g c : Nat) (s : TState) : Bool :=
  match lastSignal c s.log with
  | none => true
  | some t => (s.log.any fun e => match e.2 with | .closed c' _ => c' == c | _ => false) || decide (s.now ≤ t + g)

theorem beatsEvery_iff (g c : Nat) (s : TState) : BeatsEvery g c s ↔ beatsEvery g c s = true := by
  have hc : ClosedIn c s.log ↔ (s.log.any fun e => match e.2 with | .closed c' _ => c' == c | _ => false) = true := by
    rw [List.any_eq_true]
    constructor
    · rintro ⟨t, w, h⟩
      exact ⟨_, h, by simp⟩
    · rintro ⟨⟨t, e⟩, h, h'⟩
      split at h'
      next c' w heq =>
        simp only at heq
        subst heq
        exact ⟨t, w, by simp only [beq_iff_eq] at h'; subst h'; exact h⟩
      · cases h'
  unfold BeatsEvery beatsEvery
  split
  · next h => simp [h]
  · next t h =>
    rw [Bool.or_eq_true, ← hc, decide_eq_true_eq]
    constructor
    · intro k
      exact Classical.or_iff_not_imp_left.2 (k t h)
    · rintro k t' ht hn
      rw [h] at ht
      cases ht
      exact k.resolve_left hn

/-- A goroutine with nothing to do stays where it is. -/
theorem idle_run (cfg : TCfg) (life : Life) (jobs : Nat → List UCall) (i : Nat) (hi : jobs i = []) (ls : List TLabel) :
    (trun cfg life jobs ls).w.threads i = ⟨.idle, []⟩ := by
  refine TState.run_induct (P := fun s => s.w.threads i = ⟨.idle, []⟩) (throughout_true _ _ _) (by simp [TState.start, WState.start, hi]) ?_
  intro s l s' h _ _ hs
  rcases tstep_cases hs with ⟨d, rfl⟩ | ⟨a, w', rfl, hdue, hst, rfl⟩
  · exact h
  · clear hs hdue
    cases a <;> tstep hst
    all_goals grind

theorem watcherFirst_of (cfg : TCfg) (life : Life) (c : Nat) (ls : List TLabel)
    (h : ((trun cfg life Demo.wbeat ls).w.threads 0).pc ≠ .beatCreate c) : WatcherFirst c (trun cfg life Demo.wbeat ls) := by
  intro i
  by_cases hi : i = 0
  · subst hi; exact h
  · rw [idle_run cfg life Demo.wbeat i (by simp [Demo.wbeat, hi])]
    simp

example : Throughout Demo.tcfg (.start Demo.wlife Demo.wbeat) Demo.tbeats (fun s => PromptBeat Demo.tcfg 1 0 s ∧ BeatsEvery 25 0 s ∧ WatcherFirst 0 s) ∧
    (trun Demo.tcfg Demo.wlife Demo.wbeat Demo.tbeats).now = 35 ∧ (25, .beatTaken 0) ∈ (trun Demo.tcfg Demo.wlife Demo.wbeat Demo.tbeats).log := by
  refine ⟨?_, by decide, by decide⟩
  have h1 : ∀ k ∈ List.range (Demo.tbeats.length + 1), PromptBeat Demo.tcfg 1 0 (trun Demo.tcfg Demo.wlife Demo.wbeat (Demo.tbeats.take k)) := by decide
  have h2 : ∀ k ∈ List.range (Demo.tbeats.length + 1), BeatsEvery 25 0 (trun Demo.tcfg Demo.wlife Demo.wbeat (Demo.tbeats.take k)) := by
    simp only [beatsEvery_iff]; decide
  have h3 : ∀ k ∈ List.range (Demo.tbeats.length + 1),
    ((trun Demo.tcfg Demo.wlife Demo.wbeat (Demo.tbeats.take k)).w.threads 0).pc ≠ .beatCreate 0 := by decide
  exact throughout_of _ _ _ _ fun k hk => ⟨h1 k hk, h2 k hk, watcherFirst_of _ _ _ _ (h3 k hk)⟩

/-- A handler that came before the watcher had made the channel, and is slow to store its own: the heartbeat it sends at 25 goes to a
channel the watcher looks at only after 30; the connection is lost at 30, though a heartbeat was sent 5 before. -/
theorem C85_slow_handler_violated : ∃ (cfg : TCfg) (g d : Nat) (jobs : Nat → List UCall) (ls : List TLabel),
    d < cfg.interval ∧ g + d < 3 * cfg.interval ∧
    Throughout cfg (.start Demo.wlife jobs) ls (fun s => PromptBeat cfg d 0 s ∧ BeatsEvery g 0 s) ∧
    ¬ AtEachT (.closed 0 .loss) (fun _ before => ClosedIn 0 before) (trun cfg Demo.wlife jobs ls).log := by
  refine ⟨Demo.tcfg, 25, 0, Demo.wbeat, Demo.tslow, by decide, by decide, ?_, ?_⟩
  · have h1 : ∀ k ∈ List.range (Demo.tslow.length + 1), PromptBeat Demo.tcfg 0 0 (trun Demo.tcfg Demo.wlife Demo.wbeat (Demo.tslow.take k)) := by decide
    have h2 : ∀ k ∈ List.range (Demo.tslow.length + 1), BeatsEvery 25 0 (trun Demo.tcfg Demo.wlife Demo.wbeat (Demo.tslow.take k)) := by
      simp only [beatsEvery_iff]; decide
    exact throughout_of _ _ _ _ fun k hk => ⟨h1 k hk, h2 k hk⟩
  · intro h
    have hl : (trun Demo.tcfg Demo.wlife Demo.wbeat Demo.tslow).log =
      [(30, .closed 0 .loss), (30, .lossCallback 0 false), (30, .tick 0), (25, .ret 0 (.beat 0)), (20, .tick 0), (10, .tick 0),
       (0, .invoke 0 (.beat 0)), (0, .newConn 0)] := by decide
    obtain ⟨t, w, hm⟩ := h [] _ _ hl
    simp at hm

/-! ## C86: authorisation -/

/-- No connection is closed for the auth deadline before the deadline has passed since it was accepted. -/
theorem C86_not_early (cfg : TCfg) (life : Life) (jobs : Nat → List UCall) (ls : List TLabel) (c : Nat) :
    AtEachT (.closed c .deadline) (fun t before => ∃ a, acceptedAt c before = some a ∧ a + cfg.authDeadline ≤ t) (trun cfg life jobs ls).log :=
  (authok_run cfg life jobs c ls).late

/-- A TCP connection of a server with auth has an auth watcher and a time of being accepted. -/
theorem auend_tcp (cfg : TCfg) (hauth : cfg.w.auth = true) (life : Life) (jobs : Nat → List UCall) (ls ls' : List TLabel) (c : Nat)
    (hc : c = (trun cfg life jobs ls).w.n) :
    AuEnd c (trun cfg life jobs (ls ++ .act (.accept .tcp) :: ls')).w ∧
      acceptedAt c (trun cfg life jobs (ls ++ .act (.accept .tcp) :: ls')).log = some (trun cfg life jobs ls).now := by
  rw [trun, TState.run_append]
  refine TState.run_induct (s := ((trun cfg life jobs ls).step cfg (.act (.accept .tcp))).getD (trun cfg life jobs ls))
    (P := fun s => AuEnd c s.w ∧ acceptedAt c s.log = some (trun cfg life jobs ls).now) (throughout_true _ _ _) ?_ ?_
  · subst hc
    simp only [TState.step, TState.due, if_true, WState.step, Option.map_some, Option.getD_some, TState.after, newEvents, WState.log,
      WState.setCtx, List.length_cons]
    refine ⟨⟨by simp, by simp [newCtx, hauth], by simp [newCtx], by simp [newCtx, hauth]⟩, ?_⟩
    simp [acceptedAt]
  · rintro s l s' ⟨h1, h2⟩ _ _ hs
    rcases tstep_cases hs with ⟨d, rfl⟩ | ⟨a, w', rfl, hdue, hst, rfl⟩
    · exact ⟨h1, h2⟩
    · refine ⟨auend_step h1 hst, ?_⟩
      have hlt := h1.lt
      clear h1 hdue hs
      cases a <;> tstep hst
      all_goals try simp only [acceptedAt]
      all_goals grind

/-- If the auth watcher is never more than `d` late, a TCP connection open for longer than the deadline and `3 * d` has been let in. -/
theorem C86_in_time (cfg : TCfg) (hauth : cfg.w.auth = true) (d : Nat) (life : Life) (jobs : Nat → List UCall) (ls ls' : List TLabel)
    (c : Nat) (hc : c = (trun cfg life jobs ls).w.n)
    (hp : Throughout cfg (.start life jobs) (ls ++ .act (.accept .tcp) :: ls') (PromptAuth cfg d c))
    (hopen : ¬ ClosedIn c (trun cfg life jobs (ls ++ .act (.accept .tcp) :: ls')).log)
    (hlate : (trun cfg life jobs ls).now + cfg.authDeadline + 3 * d < (trun cfg life jobs (ls ++ .act (.accept .tcp) :: ls')).now) :
    ∃ t v, 0 ≤ v ∧ (t, .authTaken c v) ∈ (trun cfg life jobs (ls ++ .act (.accept .tcp) :: ls')).log := by
  have htr := log_trace cfg life jobs (ls ++ .act (.accept .tcp) :: ls')
  have hp' : PromptAuth cfg d c (trun cfg life jobs (ls ++ .act (.accept .tcp) :: ls')) := by
    have := hp (ls ++ .act (.accept .tcp) :: ls').length
    rwa [List.take_of_length_le (Nat.le_refl _)] at this
  have hup : AuUp cfg d c (trun cfg life jobs (ls ++ .act (.accept .tcp) :: ls')) :=
    (TState.run_induct (P := fun s => WInv s.w ∧ AuUp cfg d c s) hp ⟨winv_start life jobs, fun h e => (by cases e), fun a w e => (by cases e)⟩
      fun s l s' h hp _ hs => ⟨winv_tstep h.1 hs, auup_step h.1 hp h.2 hs⟩).2
  obtain ⟨hend, hacc⟩ := auend_tcp cfg hauth life jobs ls ls' c hc
  unfold PromptAuth at hp'
  cases hpc : ((trun cfg life jobs (ls ++ .act (.accept .tcp) :: ls')).w.ctxs c).au with
  | off => exact absurd hpc hend.on
  | select =>
    have h1 := hup.sel _ hacc hpc
    rw [hpc] at hp'
    have := hp'.1
    omega
  | closing w =>
    have h1 := hup.closing _ w hacc hpc
    rw [hpc] at hp'
    simp only at hp'
    omega
  | ended =>
    rcases hend.ended hpc with h1 | ⟨v, hv, h1⟩
    · exact absurd ((closedIn_iff c _).2 (htr ▸ h1)) hopen
    · rw [← htr] at h1
      obtain ⟨⟨t, e⟩, h2, rfl⟩ := List.mem_map.1 h1
      exact ⟨t, v, hv, h2⟩

/-- Let in at 3, open at 20; the deadline is 7. -/
example : let ls' : List TLabel := [.delay 3, .act (.user 0), .act (.user 0), .delay 1, .act (.au 0 .recv), .delay 16]
    Throughout Demo.acfg (.start Demo.wlife (Demo.wauth [1])) ([] ++ .act (.accept .tcp) :: ls') (PromptAuth Demo.acfg 1 0) ∧
    (trun Demo.acfg Demo.wlife (Demo.wauth [1]) ([] ++ .act (.accept .tcp) :: ls')).log =
      [(4, .authTaken 0 1), (3, .ret 0 (.auth 0 1)), (3, .invoke 0 (.auth 0 1)), (0, .newConn 0)] ∧
    0 + Demo.acfg.authDeadline + 3 * 1 < (trun Demo.acfg Demo.wlife (Demo.wauth [1]) ([] ++ .act (.accept .tcp) :: ls')).now :=
  ⟨throughout_of _ _ _ _ (by decide), by decide, by decide⟩

/-- Nobody answers: closed at the deadline. -/
example : (7, .closed 0 .deadline) ∈
    (trun Demo.acfg Demo.wlife Demo.wnone [.act (.accept .tcp), .act (.au 0 .timer), .delay 7, .act (.au 0 .timer), .act (.au 0 .go)]).log := by
  decide

/-- An answer in time counts: if the auth watcher is never more than `d` late, no connection is closed for the deadline for which
`RecvAuthPass` or `RecvAuthDeny` had returned earlier than `2 * d` before the deadline. -/
theorem C86_answer_counts (cfg : TCfg) (d : Nat) (life : Life) (jobs : Nat → List UCall) (ls : List TLabel) (c : Nat)
    (hp : Throughout cfg (.start life jobs) ls (PromptAuth cfg d c)) (a r i : Nat) (v : Int)
    (ha : acceptedAt c (trun cfg life jobs ls).log = some a) (hr : (r, .ret i (.auth c v)) ∈ (trun cfg life jobs ls).log)
    (hlt : r + 2 * d < a + cfg.authDeadline) (t : Nat) : (t, .closed c .deadline) ∉ (trun cfg life jobs ls).log := by
  intro h
  have := (sigok_run cfg d life jobs c ls hp).dead r a ⟨i, v, hr⟩ ha (.inr ⟨t, h⟩)
  omega

end Tcpx
