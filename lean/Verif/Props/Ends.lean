import Verif.Lemmas.TimedEnd
import Verif.Props.Timed
/-!
# C90: who must authorise, C91: the watchers of a closed connection end
-/
namespace Tcpx
open Spec

/-! ## C90 -/

/-- With auth on, a TCP connection for which nobody calls `RecvAuthPass` or `RecvAuthDeny` has been closed once the deadline and `3 * d`
have passed (the watcher never being more than `d` late).
Missing: connections of the raw server and datagrams (`C90_raw_violated`, `C90_datagram_violated`). -/
theorem C90_tcp_partial (cfg : TCfg) (hauth : cfg.w.auth = true) (d : Nat) (life : Life) (jobs : Nat → List UCall) (ls ls' : List TLabel)
    (c : Nat) (hc : c = (trun cfg life jobs ls).w.n)
    (hp : Throughout cfg (.start life jobs) (ls ++ .act (.accept .tcp) :: ls') (PromptAuth cfg d c))
    (hno : ∀ i v, .auth c v ∉ jobs i)
    (hlate : (trun cfg life jobs ls).now + cfg.authDeadline + 3 * d < (trun cfg life jobs (ls ++ .act (.accept .tcp) :: ls')).now) :
    ClosedIn c (trun cfg life jobs (ls ++ .act (.accept .tcp) :: ls')).log := by
  apply Classical.byContradiction
  intro hopen
  obtain ⟨t, v, -, hv⟩ := C86_in_time cfg hauth d life jobs ls ls' c hc hp hopen hlate
  generalize ls ++ .act (.accept .tcp) :: ls' = ks at hv
  have h1 : WatchEv.authTaken c v ∈ (trun cfg life jobs ks).log.map Prod.snd := List.mem_map.2 ⟨_, hv, rfl⟩
  rw [log_trace, untime_run] at h1
  have h2 := ((auok_run cfg.w life jobs c (untime cfg (.start life jobs) ks)).taken v h1).1
  have h3 : ∀ ls, (∀ i v, (((WState.start life jobs).run cfg.w ls).threads i).pc ≠ .authSend c v) ∧
      (∀ i v, .auth c v ∉ (((WState.start life jobs).run cfg.w ls).threads i).rest) ∧
      firstSignal c ((WState.start life jobs).run cfg.w ls).trace = none := by
    refine fun ls => WState.run_induct (s := .start life jobs) (P := fun s => (∀ i v, (s.threads i).pc ≠ .authSend c v) ∧
      (∀ i v, .auth c v ∉ (s.threads i).rest) ∧ firstSignal c s.trace = none) ⟨by simp [WState.start], by simpa [WState.start] using hno, rfl⟩ ?_ ls
    clear h1 h2 hv hp hopen hlate hc
    rintro s l s' ⟨h1, h2, h3⟩ hs
    refine ⟨?_, ?_, ?_⟩
    · clear h3
      have h2' : ∀ i v rest, (s.threads i).rest ≠ .auth c v :: rest := fun i v rest e => h2 i v (by rw [e]; exact List.mem_cons_self)
      cases l <;> wstep hs
      all_goals grind
    · clear h1 h3
      cases l <;> wstep hs
      all_goals grind
    · clear h2
      cases l <;> wstep hs
      all_goals try simp only [firstSignal]
      all_goals grind
  have h4 := (h3 (untime cfg (.start life jobs) ks)).2.2
  rw [h4] at h2
  cases h2

example : let ls' : List TLabel := [.delay 7, .act (.au 0 .timer), .act (.au 0 .go), .delay 5]
    Throughout Demo.acfg (.start Demo.wlife Demo.wnone) ([] ++ .act (.accept .tcp) :: ls') (PromptAuth Demo.acfg 1 0) ∧
    0 + Demo.acfg.authDeadline + 3 * 1 < (trun Demo.acfg Demo.wlife Demo.wnone ([] ++ .act (.accept .tcp) :: ls')).now :=
  ⟨throughout_of _ _ _ _ (by decide), by decide⟩

/-- A context without auth watcher is never closed by one. -/
theorem no_au (cfg : TCfg) (o : Origin) (ho : o ≠ .tcp) (life : Life) (jobs : Nat → List UCall) (ls ls' : List TLabel) (c : Nat)
    (hc : c = (trun cfg life jobs ls).w.n) (t : Nat) (w : Cause) (hw : w = .deadline ∨ w = .denied) :
    (t, .closed c w) ∉ (trun cfg life jobs (ls ++ .act (.accept o) :: ls')).log := by
  intro hm
  have hpast : ∀ e ∈ (trun cfg life jobs ls).w.trace, e ≠ .closed c w := by
    rintro e he rfl
    rw [untime_run] at he hc
    have h := auok_run cfg.w life jobs c (untime cfg (.start life jobs) ls)
    have hf := (winv_run cfg.w life jobs (untime cfg (.start life jobs) ls)).fresh c (by rw [hc]; exact Nat.le_refl _)
    rcases hw with rfl | rfl
    · exact (h.waiting (.inr (by rw [hf]))).2 (h.closedL he)
    · obtain ⟨v, -, hv⟩ := h.closedD he
      exact (h.waiting (.inr (by rw [hf]))).1 v hv
  have key : ((trun cfg life jobs (ls ++ .act (.accept o) :: ls')).w.ctxs c).au = .off ∧
      c < (trun cfg life jobs (ls ++ .act (.accept o) :: ls')).w.n ∧ WInv (trun cfg life jobs (ls ++ .act (.accept o) :: ls')).w ∧
      .closed c w ∉ (trun cfg life jobs (ls ++ .act (.accept o) :: ls')).w.trace := by
    rw [trun, TState.run_append]
    refine TState.run_induct (s := ((trun cfg life jobs ls).step cfg (.act (.accept o))).getD (trun cfg life jobs ls))
      (P := fun s => (s.w.ctxs c).au = .off ∧ c < s.w.n ∧ WInv s.w ∧ .closed c w ∉ s.w.trace) (throughout_true _ _ _) ?_ ?_
    · have hst : (trun cfg life jobs ls).step cfg (.act (.accept o)) =
          some ((trun cfg life jobs ls).after (((trun cfg life jobs ls).w.step cfg.w (.accept o)).getD (trun cfg life jobs ls).w) (.accept o)) := rfl
      have hwi := winv_tstep (winv_timed cfg life jobs ls) hst
      rw [hst, Option.getD_some]
      refine ⟨?_, ?_, hwi, ?_⟩
      · subst hc
        simp [TState.after, WState.step, WState.setCtx, WState.log, newCtx, ho]
      · subst hc
        simp [TState.after, WState.step, WState.log]
      · intro h
        simp only [TState.after, WState.step, WState.log, WState.setCtx, Option.getD_some, List.mem_cons, reduceCtorEq, false_or] at h
        exact hpast _ h rfl
    · rintro s l s' ⟨h1, h2, h3, h4⟩ _ _ hs
      have h3' := winv_tstep h3 hs
      rcases tstep_cases hs with ⟨d, rfl⟩ | ⟨a, w', rfl, hdue, hst, rfl⟩
      · exact ⟨h1, h2, h3, h4⟩
      · refine ⟨?_, ?_, h3', ?_⟩
        · clear h3' h3 h4 hdue hs hpast hm
          cases a <;> tstep hst
          all_goals grind
        · exact Nat.lt_of_lt_of_le h2 (n_step hst)
        · have hb := h3.hb c
          clear h3' h3 hdue hs hpast hm
          cases a <;> tstep hst
          all_goals try simp only [List.mem_cons]
          all_goals grind
  have h1 : WatchEv.closed c w ∈ (trun cfg life jobs (ls ++ .act (.accept o) :: ls')).log.map Prod.snd := List.mem_map.2 ⟨_, hm, rfl⟩
  rw [log_trace] at h1
  exact key.2.2.2 h1

/-- With auth on, connections of the raw server are never closed for want of authorisation, nor when `RecvAuthDeny` is called, whatever
the schedule and however much time passes. -/
theorem C90_raw_violated (cfg : TCfg) (life : Life) (jobs : Nat → List UCall) (ls ls' : List TLabel) (t : Nat) (w : Cause)
    (hw : w = .deadline ∨ w = .denied) :
    (t, .closed (trun cfg life jobs ls).w.n w) ∉ (trun cfg life jobs (ls ++ .act (.accept .raw) :: ls')).log :=
  no_au cfg .raw (by simp) life jobs ls ls' _ rfl t w hw

/-- The same for datagrams. -/
theorem C90_datagram_violated (cfg : TCfg) (life : Life) (jobs : Nat → List UCall) (ls ls' : List TLabel) (k t : Nat) (w : Cause)
    (hw : w = .deadline ∨ w = .denied) :
    (t, .closed (trun cfg life jobs ls).w.n w) ∉ (trun cfg life jobs (ls ++ .act (.accept (.udp k)) :: ls')).log :=
  no_au cfg (.udp k) (by simp) life jobs ls ls' _ rfl t w hw

/-- A raw connection nobody authorised: still open after a million deadlines. -/
example : Demo.acfg.w.auth = true ∧ (trun Demo.acfg Demo.wlife Demo.wnone [.act (.accept .raw), .delay 7000000, .act (.au 0 .timer), .act (.au 0 .go)]).log =
    [(0, .newConn 0)] := by decide

/-! ## C91 -/

theorem ends_final {cfg : TCfg} {d c : Nat} {s : TState} (hok : EndsOk d c s) (p1 : PromptBeat cfg d c s) (p2 : PromptAuth cfg d c s)
    (p3 : PromptEnd d c s) (t h : Nat) (ht : closedAt c s.log = some t) (hh : lastHeard c s.log = some h) (hlate : max t h + 6 * d < s.now) :
    ((s.w.ctxs c).hb = .off ∨ (s.w.ctxs c).hb = .ended) ∧ ((s.w.ctxs c).au = .off ∨ (s.w.ctxs c).au = .ended) ∧
    ((s.w.ctxs c).bc = .off ∨ (s.w.ctxs c).bc = .ended) := by
  have hlv := endPc_leave p1 p3 ht (Nat.le_max_left t h) (hok.hb t h ht hh)
  refine ⟨?_, ?_, ?_⟩
  · generalize (s.w.ctxs c).hb = pc at hlv
    cases pc <;> simp only [EndLeave] at hlv <;> first | simp; done | omega
  · have h1 := hok.au t ht
    have h2 := (p3.1 t ht).2.1
    unfold PromptAuth at p2
    cases hpc : (s.w.ctxs c).au with
    | off => simp
    | ended => simp
    | select =>
      have := h1.1 hpc
      have := h2 hpc
      omega
    | closing w =>
      have := h1.2 w hpc
      rw [hpc] at p2
      simp only at p2
      omega
  · have h1 := hok.bc t ht
    have h2 := (p3.1 t ht).2.2
    cases hpc : (s.w.ctxs c).bc with
    | off => simp
    | ended => simp
    | select =>
      have := h1.1 hpc
      have := h2 hpc
      omega
    | closing =>
      have := h1.2 hpc
      have := p3.2 hpc
      omega

/-- The watchers of a closed connection end: if they are never more than `d` late, with `d` less than an interval, then `6 * d` after
the connection was first closed (or its watcher last received a heartbeat) no watcher of it is left.
Missing: datagrams, which nobody closes (`C91_datagram_violated`). -/
theorem C91_ends_partial (cfg : TCfg) (d : Nat) (hd : d < cfg.interval) (life : Life) (jobs : Nat → List UCall) (ls : List TLabel) (c : Nat)
    (hp : Throughout cfg (.start life jobs) ls fun s => PromptBeat cfg d c s ∧ PromptAuth cfg d c s ∧ PromptEnd d c s) (t h : Nat)
    (ht : closedAt c (trun cfg life jobs ls).log = some t) (hh : lastHeard c (trun cfg life jobs ls).log = some h)
    (hlate : max t h + 6 * d < (trun cfg life jobs ls).now) :
    (((trun cfg life jobs ls).w.ctxs c).hb = .off ∨ ((trun cfg life jobs ls).w.ctxs c).hb = .ended) ∧
    (((trun cfg life jobs ls).w.ctxs c).au = .off ∨ ((trun cfg life jobs ls).w.ctxs c).au = .ended) ∧
    (((trun cfg life jobs ls).w.ctxs c).bc = .off ∨ ((trun cfg life jobs ls).w.ctxs c).bc = .ended) := by
  have hok : EndsOk d c (trun cfg life jobs ls) := by
    refine (TState.run_induct (P := fun s => WInv s.w ∧ EndsOk d c s) hp ⟨winv_start life jobs, ?_⟩ ?_).2
    · exact ⟨⟨Nat.le_refl _, Nat.le_refl _, Nat.le_refl _⟩, fun t h e => (by cases e), fun t e => (by cases e), fun t e => (by cases e),
        fun _ => rfl⟩
    · exact fun s l s' h hp _ hs => ⟨winv_tstep h.1 hs, endsok_step hd h.1 hp.1 hp.2.2 h.2 hs⟩
  have hp' := hp ls.length
  rw [List.take_of_length_le (Nat.le_refl _)] at hp'
  obtain ⟨p1, p2, p3⟩ := hp'
  exact ends_final hok p1 p2 p3 t h ht hh hlate

namespace Demo
def ecfg : TCfg := { w := { heartBeatOn := true, auth := true }, interval := 10, authDeadline := 100 }
def eclose : Nat → List UCall := fun i => if i = 0 then [.close 0] else []
/-- Closed by the handler at 5. -/
def eclosed : List TLabel :=
  [.act (.accept .tcp), .act (.hb 0 .go), .act (.hb 0 .go), .act (.hb 0 .go), .delay 5, .act (.user 0), .act (.user 0), .delay 1,
   .act (.hb 0 .fin), .act (.au 0 .fin), .act (.bc 0 .fin), .delay 6]
end Demo

/-- `PromptEnd`, to be computed. -/
def promptEnd (d c : Nat) (s : TState) : Bool :=
  (match closedAt c s.log with
   | none => true
   | some t =>
     (match (s.w.ctxs c).hb with | .select _ _ => decide (s.now ≤ max (s.hbAt c) t + d) | _ => true) &&
     (decide ((s.w.ctxs c).au = .select → s.now ≤ max (s.auAt c) t + 2 * d)) &&
     (decide ((s.w.ctxs c).bc = .select → s.now ≤ max (s.bcAt c) t + 2 * d))) &&
  decide ((s.w.ctxs c).bc = .closing → s.now ≤ s.bcAt c + d)

theorem promptEnd_spec (d c : Nat) (s : TState) (h : promptEnd d c s = true) : PromptEnd d c s := by
  unfold promptEnd at h
  rw [Bool.and_eq_true] at h
  obtain ⟨h1, h2⟩ := h
  refine ⟨fun t ht => ?_, of_decide_eq_true h2⟩
  rw [ht] at h1
  simp only [Bool.and_eq_true] at h1
  obtain ⟨⟨h3, h4⟩, h5⟩ := h1
  refine ⟨fun k ch hk => ?_, of_decide_eq_true h4, of_decide_eq_true h5⟩
  rw [hk] at h3
  exact of_decide_eq_true h3

example : Throughout Demo.ecfg (.start Demo.wlife Demo.eclose) Demo.eclosed
      (fun s => PromptBeat Demo.ecfg 1 0 s ∧ PromptAuth Demo.ecfg 1 0 s ∧ PromptEnd 1 0 s) ∧
    closedAt 0 (trun Demo.ecfg Demo.wlife Demo.eclose Demo.eclosed).log = some 5 ∧
    lastHeard 0 (trun Demo.ecfg Demo.wlife Demo.eclose Demo.eclosed).log = some 0 ∧
    max 5 0 + 6 * 1 < (trun Demo.ecfg Demo.wlife Demo.eclose Demo.eclosed).now := by
  refine ⟨?_, by decide, by decide, by decide⟩
  have h1 : ∀ k ∈ List.range (Demo.eclosed.length + 1), PromptBeat Demo.ecfg 1 0 (trun Demo.ecfg Demo.wlife Demo.eclose (Demo.eclosed.take k)) := by decide
  have h2 : ∀ k ∈ List.range (Demo.eclosed.length + 1), PromptAuth Demo.ecfg 1 0 (trun Demo.ecfg Demo.wlife Demo.eclose (Demo.eclosed.take k)) := by decide
  have h3 : ∀ k ∈ List.range (Demo.eclosed.length + 1), promptEnd 1 0 (trun Demo.ecfg Demo.wlife Demo.eclose (Demo.eclosed.take k)) = true := by decide
  exact throughout_of _ _ _ _ fun k hk => ⟨h1 k hk, h2 k hk, promptEnd_spec _ _ _ (h3 k hk)⟩

/-- With broadcast signals the watcher started for a datagram is there as long as the server is not stopped, unless a handler calls
`CloseConn`, which closes the socket of the server: one goroutine more for every datagram. -/
theorem C91_datagram_violated (cfg : TCfg) (hb : cfg.w.heartBeatOn = false) (life : Life) (hsig : life.withSignals = true)
    (ho : life.sig = .opened) (jobs : Nat → List UCall) (ls ls' : List TLabel) (k c : Nat) (hc : c = (trun cfg life jobs ls).w.n)
    (hno : ∀ i, .close c ∉ jobs i) (hstop : ∀ t, (t, .stop true true) ∉ (trun cfg life jobs (ls ++ .act (.accept (.udp k)) :: ls')).log) :
    ((trun cfg life jobs (ls ++ .act (.accept (.udp k)) :: ls')).w.ctxs c).bc = .select := by
  have hconf : Configured life := ⟨fun _ => ho, fun h => (by rw [hsig] at h; cases h)⟩
  have hstop' : WatchEv.stop true true ∉ (trun cfg life jobs (ls ++ .act (.accept (.udp k)) :: ls')).w.trace := by
    rw [← log_trace]
    intro h
    obtain ⟨⟨t, e⟩, h1, rfl⟩ := List.mem_map.1 h
    exact hstop t h1
  have hthr : (∀ i, ((trun cfg life jobs ls).w.threads i).pc ≠ .closing c) ∧ (∀ i, .close c ∉ ((trun cfg life jobs ls).w.threads i).rest) := by
    refine TState.run_induct (s := .start life jobs) (P := fun s => (∀ i, (s.w.threads i).pc ≠ .closing c) ∧ (∀ i, .close c ∉ (s.w.threads i).rest))
      (throughout_true _ _ _) ⟨by simp [TState.start, WState.start], by simpa [TState.start, WState.start] using hno⟩ ?_
    rintro s l s' ⟨h1, h2⟩ _ _ hs
    rcases tstep_cases hs with ⟨d, rfl⟩ | ⟨a, w', rfl, hdue, hst, rfl⟩
    · exact ⟨h1, h2⟩
    · clear hs hdue
      have h2' : ∀ i rest, (s.w.threads i).rest ≠ .close c :: rest := fun i rest e => h2 i (by rw [e]; exact List.mem_cons_self)
      cases a <;> tstep hst
      all_goals grind
  have key : (.stop true true ∈ (trun cfg life jobs (ls ++ .act (.accept (.udp k)) :: ls')).w.trace ∨
      ((trun cfg life jobs (ls ++ .act (.accept (.udp k)) :: ls')).w.ctxs c).bc = .select ∧
      ((trun cfg life jobs (ls ++ .act (.accept (.udp k)) :: ls')).w.ctxs c).endClosed = false) := by
    rw [trun, TState.run_append]
    refine (TState.run_induct (s := ((trun cfg life jobs ls).step cfg (.act (.accept (.udp k)))).getD (trun cfg life jobs ls))
      (P := fun s => (WInv s.w ∧ ClOk cfg.w s.w ∧ s.w.life.withSignals = true) ∧ c < s.w.n ∧ (s.w.ctxs c).au = .off ∧ (s.w.ctxs c).hb = .off ∧
        ((∀ i, (s.w.threads i).pc ≠ .closing c) ∧ (∀ i, .close c ∉ (s.w.threads i).rest)) ∧
        (.stop true true ∈ s.w.trace ∨ (s.w.ctxs c).bc = .select ∧ (s.w.ctxs c).endClosed = false)) (throughout_true _ _ _) ?_ ?_).2.2.2.2.2
    · have hw := winv_timed cfg life jobs ls
      have hcl : ClOk cfg.w (trun cfg life jobs ls).w := by rw [untime_run]; exact clok_run cfg.w life hconf jobs _
      have hws : (trun cfg life jobs ls).w.life.withSignals = true := by rw [untime_run, withSignals_run]; exact hsig
      have hst : (trun cfg life jobs ls).w.step cfg.w (.accept (.udp k)) = some (((trun cfg life jobs ls).w.step cfg.w (.accept (.udp k))).getD (trun cfg life jobs ls).w) := rfl
      have hst' : (trun cfg life jobs ls).step cfg (.act (.accept (.udp k))) =
          some ((trun cfg life jobs ls).after (((trun cfg life jobs ls).w.step cfg.w (.accept (.udp k))).getD (trun cfg life jobs ls).w) (.accept (.udp k))) := rfl
      rw [hst', Option.getD_some]
      refine ⟨⟨winv_step hw hst, clok_step hw hcl hst, (withSignals_step hst).trans hws⟩, ?_, ?_, ?_, hthr, .inr ?_⟩
      · subst hc; simp [TState.after, WState.step, WState.log]
      · subst hc; simp [TState.after, WState.step, WState.log, WState.setCtx, newCtx]
      · subst hc; simp [TState.after, WState.step, WState.log, WState.setCtx, newCtx, hb]
      · subst hc; simp [TState.after, WState.step, WState.log, WState.setCtx, newCtx, hws]
    · rintro s l s' ⟨⟨g1, g2, g3⟩, h1, h2, h3, ⟨h4, h5⟩, h6⟩ _ _ hs
      rcases tstep_cases hs with ⟨d, rfl⟩ | ⟨a, w', rfl, hdue, hst, rfl⟩
      · exact ⟨⟨g1, g2, g3⟩, h1, h2, h3, ⟨h4, h5⟩, h6⟩
      · have hsig := g2.sig g3
        refine ⟨⟨winv_step g1 hst, clok_step g1 g2 hst, (withSignals_step hst).trans g3⟩, Nat.lt_of_lt_of_le h1 (n_step hst), ?_, ?_, ?_, ?_⟩
        all_goals clear g1 g2 hs hdue hthr hstop hstop' hno hconf
        · clear h3 h4 h5 h6 hsig
          cases a <;> tstep hst
          all_goals grind
        · clear h2 h4 h5 h6 hsig
          cases a <;> tstep hst
          all_goals grind
        · clear h2 h3 h6 hsig
          have h5' : ∀ i rest, (s.w.threads i).rest ≠ .close c :: rest := fun i rest e => h5 i (by rw [e]; exact List.mem_cons_self)
          cases a <;> tstep hst
          all_goals grind
        · cases a <;> tstep hst
          all_goals try simp only [List.mem_cons]
          all_goals grind
  exact (key.resolve_left hstop').1

/-- Two datagrams, handled long ago. -/
example : let s := trun Demo.acfg Demo.wlife Demo.wnone [.act (.accept (.udp 0)), .act (.accept (.udp 0)), .delay 1000, .act (.bc 0 .fin), .act (.bc 1 .sig)]
    (s.w.ctxs 0).bc = .select ∧ (s.w.ctxs 1).bc = .select := by decide

end Tcpx
