import Verif.Lemmas.SessionCheck
import Verif.Lemmas.SessionHandled
import Verif.Props.Kept
import Verif.Props.Ends
import Verif.Props.Beat
/-!
# C134-C139: TCP connections as a whole

`Model/Session` has the goroutine of a connection, the goroutines it starts, and the watchers, together.  `session_sim`
(Lemmas/Session) says that its runs are runs of `Model/Timed`, with the same events at the same times, for suitable goroutines of user
code: what is proved of the watchers holds here too.
-/
namespace Tcpx
open Spec

namespace Demo
/-- Message 1 is a heartbeat, 2 authorises, 0 is not taken; heartbeats every 10. -/
def scfg : SCfg where
  t := { w := { heartBeatOn := true }, interval := 10, authDeadline := 7 }
  job := fun c m => if m = 1 then [.beat c] else if m = 2 then [.auth c 0] else []
  takes := fun m => m ≠ 0
  onClose := some fun _ => []
def snew : List SLabel := [.base (.act (.hb 0 .go)), .base (.act (.hb 0 .go)), .base (.act (.hb 0 .go))]
/-- A heartbeat, read one late, handled by goroutine `k`. -/
def sbeat (k : Nat) : List SLabel :=
  [.arrive 0 1, .base (.delay 1), .loop 0 .go, .loop 0 .go, .base (.act (.user k)), .base (.act (.user k)), .base (.act (.user k)),
   .base (.act (.hb 0 .recv)), .base (.act (.hb 0 .go)), .base (.act (.hb 0 .go))]
/-- After the connection was accepted: heartbeats at 8, 17 and 26, until 35. -/
def skept : List SLabel :=
  snew ++ [.base (.delay 8)] ++ sbeat 1 ++ [.base (.delay 8)] ++ sbeat 3 ++ [.base (.delay 8)] ++ sbeat 5 ++ [.base (.delay 8)]
def sround : List SLabel := [.base (.act (.hb 0 .go)), .base (.act (.hb 0 .go)), .base (.delay 10), .base (.act (.hb 0 .timer))]
/-- After the connection was accepted: nothing, and closed at 30. -/
def ssilent : List SLabel :=
  snew ++ [.base (.delay 10), .base (.act (.hb 0 .timer))] ++ sround ++ sround ++
  [.base (.act (.hb 0 .go)), .base (.act (.hb 0 .go)), .arrive 0 1, .loop 0 .go, .loop 0 .fail, .loop 0 .go, .base (.act (.hb 0 .go)),
   .base (.act (.bc 0 .fin)), .base (.delay 1)]
/-- The client sends a heartbeat at 4 and hangs up; the goroutine of the connection is one late. -/
def shang : List SLabel :=
  [.base (.act (.accept .tcp))] ++ snew ++ [.base (.delay 4), .arrive 0 1, .hangup 0, .base (.delay 1), .loop 0 .go, .loop 0 .go, .loop 0 .fail,
   .loop 0 .go, .base (.act (.user 3)), .base (.act (.user 3)), .base (.act (.hb 0 .fin)), .base (.act (.bc 0 .fin)), .base (.delay 12)]
/-- Authorisation by the first message, at 3; another one at 50. -/
def sauth : List SLabel :=
  [.base (.delay 3), .arrive 0 2, .loop 0 .go, .loop 0 .go, .base (.act (.user 1)), .base (.act (.user 1)), .base (.act (.au 0 .recv)),
   .base (.delay 47), .arrive 0 3, .loop 0 .go, .loop 0 .go]
abbrev tcp (ls : List SLabel) : List SLabel := [] ++ .base (.act (.accept .tcp)) :: ls
abbrev srunD (ls : List SLabel) : SState := srun scfg wlife wnone ls
end Demo

/-! ## C134: a closed connection is served no more -/

/-- C134: once a connection has been closed by the server, by whomever, no message of it is read. -/
theorem C134_silent (cfg : SCfg) (life : Life) (jobs : Nat → List UCall) (ls : List SLabel) (c m : Nat) :
    AtEachS (.read c m) (fun _ before => ¬ ShutIn c before) (srun cfg life jobs ls).ev :=
  fun post pre t h => ((loopok_run cfg c life jobs ls).silent m post pre t h).1

-- a message that arrives after the connection was closed for loss is not read
example : let ev := (Demo.srunD (.base (.act (.accept .tcp)) :: Demo.ssilent)).ev
    shutAt 0 ev = some 30 ∧ arrivals 0 ev = [1] ∧ reads 0 ev = [] := by decide

/-- C134: `OnClose` is called at most once for a connection, and after it no message of the connection is read and no goroutine started
for one. -/
theorem C134_once (cfg : SCfg) (life : Life) (jobs : Nat → List UCall) (ls : List SLabel) (c : Nat) :
    onCloses c (srun cfg life jobs ls).ev ≤ 1 ∧
    (∀ m, AtEachS (.read c m) (fun _ before => onCloses c before = 0) (srun cfg life jobs ls).ev) ∧
    ∀ m k, AtEachS (.begun c m k) (fun _ before => onCloses c before = 0) (srun cfg life jobs ls).ev := by
  have h := loopok_run cfg c life jobs ls
  refine ⟨?_, fun m post pre t e => (h.silent m post pre t e).2, h.later⟩
  rw [h.closes]
  split
  · split <;> omega
  · omega

/-- C134: the goroutine of a connection waits only for its client: if it has not come to its last calls and cannot go on, then the connection
is open, the client has not hung up, and all that arrived is read. -/
theorem C134_waits (cfg : SCfg) (life : Life) (jobs : Nat → List UCall) (ls : List SLabel) (c : Nat)
    (hserved : (srun cfg life jobs ls).loops c ≠ .off) (hlast : ∀ k, (srun cfg life jobs ls).loops c ≠ .last k)
    (hstuck : ∀ x, (srun cfg life jobs ls).step cfg (.loop c x) = none) :
    ¬ ShutIn c (srun cfg life jobs ls).ev ∧ (∀ t, (t, .hungUp c) ∉ (srun cfg life jobs ls).ev) ∧
      reads c (srun cfg life jobs ls).ev = arrivals c (srun cfg life jobs ls).ev := by
  have hsh := shut_iff (sok_run cfg life jobs ls) hserved
  have hL := loopok_run cfg c life jobs ls
  have hu := ev_hung cfg c life jobs ls
  generalize srun cfg life jobs ls = s at *
  have h1 := hstuck .go
  have h2 := hstuck .fail
  simp only [SState.step, SState.loopStep] at h1 h2
  cases hl : s.loops c with
  | off => exact absurd hl hserved
  | last k => exact absurd hl (hlast k)
  | leaving => rw [hl] at h1; simp only at h1; split at h1 <;> cases h1
  | go m => rw [hl] at h1; cases h1
  | read =>
    rw [hl] at h1 h2
    simp only at h1 h2
    split at h2
    · cases h2
    · next hn =>
      simp only [Bool.or_eq_true, not_or, Bool.and_eq_true, not_and, Bool.not_eq_true] at hn
      have hns : ¬ ShutIn c s.ev := fun h0 => by rw [hsh.2 h0] at hn; cases hn.1
      have hi : s.inbox c = [] := by
        cases hi : s.inbox c with
        | nil => rfl
        | cons x rest =>
          rw [hi] at h1
          simp only [hn.1] at h1
          cases h1
      have hh : s.hung c = false := by
        cases hh : s.hung c with
        | false => rfl
        | true => have := hn.2 hh; simp [hi] at this
      refine ⟨hns, fun t ht => ?_, ?_⟩
      · rw [hu ⟨t, ht⟩] at hh; cases hh
      · have := hL.all hh
        rwa [hi, List.map_nil, List.append_nil] at this

-- at first
example : let s := Demo.srunD (Demo.tcp [.arrive 0 1, .loop 0 .go, .loop 0 .go])
    s.loops 0 = .read ∧ ∀ x ∈ [LSel.go, .fail], (s.step Demo.scfg (.loop 0 x)).isNone = true := by decide

/-- C134: if the goroutine of a connection is never more than `d` late, `3 * d` after the connection was closed `OnClose` has been called
(exactly once), if it is set, and there is nothing left for the goroutine to do but the rest of `OnClose` and `CloseConn`. -/
theorem C134_in_time (cfg : SCfg) (d : Nat) (life : Life) (jobs : Nat → List UCall) (ls ls' : List SLabel) (c : Nat)
    (hc : c = (srun cfg life jobs ls).t.w.n)
    (hp : SThroughout cfg (.start life jobs) (ls ++ .base (.act (.accept .tcp)) :: ls') (PromptLoop d c)) (t : Nat)
    (ht : shutAt c (srun cfg life jobs (ls ++ .base (.act (.accept .tcp)) :: ls')).ev = some t)
    (hlate : t + 3 * d < (srun cfg life jobs (ls ++ .base (.act (.accept .tcp)) :: ls')).t.now) :
    (∃ k, (srun cfg life jobs (ls ++ .base (.act (.accept .tcp)) :: ls')).loops c = .last k) ∧
    onCloses c (srun cfg life jobs (ls ++ .base (.act (.accept .tcp)) :: ls')).ev = if cfg.onClose.isSome then 1 else 0 := by
  have hoff := served cfg life jobs ls ls'
  rw [← hc] at hoff
  generalize ls ++ .base (.act (.accept .tcp)) :: ls' = ks at *
  have h1 := shutok_run cfg d c life jobs ks hp t ht
  have h2 := hp ks.length
  rw [List.take_of_length_le (Nat.le_refl _)] at h2
  have h3 := (loopok_run cfg c life jobs ks).closes
  change PromptLoop d c (srun cfg life jobs ks) at h2
  unfold PromptLoop at h2
  cases hl : (srun cfg life jobs ks).loops c with
  | off => exact absurd hl hoff
  | last k => rw [hl] at h3; exact ⟨⟨k, rfl⟩, h3⟩
  | read => rw [hl] at h1 h2; have := h2.1 t ht; simp only [ShutTime] at h1; omega
  | go m => rw [hl] at h1 h2; have := h2.1; simp only [ShutTime] at h1; omega
  | leaving => rw [hl] at h1 h2; simp only [ShutTime] at h1 h2; omega

-- `ssilent` is such a run, and none of its goroutines is late
example : (∃ k, (Demo.srunD (Demo.tcp Demo.ssilent)).loops 0 = .last k) ∧
    onCloses 0 (Demo.srunD (Demo.tcp Demo.ssilent)).ev = 1 :=
  C134_in_time Demo.scfg 0 Demo.wlife Demo.wnone [] Demo.ssilent 0 rfl
    (sthroughout_of _ _ _ _ fun k hk => promptLoop_spec ((by decide : ∀ k ∈ List.range (Demo.ssilent.length + 2),
      promptLoop 0 0 (Demo.srunD ((Demo.tcp Demo.ssilent).take k)) = true) k hk)) 30 (by decide) (by decide)

/-- C134: messages are read in the order they arrived, none twice and none left out; and goroutines are started for those the loop takes,
in that order, one each. -/
theorem C134_order (cfg : SCfg) (life : Life) (jobs : Nat → List UCall) (ls : List SLabel) (c : Nat) :
    reads c (srun cfg life jobs ls).ev <+: arrivals c (srun cfg life jobs ls).ev ∧
    ∃ r, r.length ≤ 1 ∧ begun c (srun cfg life jobs ls).ev ++ r = (reads c (srun cfg life jobs ls).ev).filter cfg.takes := by
  have h := loopok_run cfg c life jobs ls
  refine ⟨List.IsPrefix.trans (List.prefix_append _ _) h.order, _, ?_, h.starts⟩
  split <;> simp

-- four messages arrive; the third is not taken, and ends the connection
example : let ev := (Demo.srunD [.base (.act (.accept .tcp)), .arrive 0 3, .arrive 0 1, .loop 0 .go, .arrive 0 0, .loop 0 .go, .loop 0 .go,
      .arrive 0 5, .loop 0 .go, .loop 0 .go, .loop 0 .go]).ev
    arrivals 0 ev = [3, 1, 0, 5] ∧ reads 0 ev = [3, 1, 0] ∧ begun 0 ev = [3, 1] ∧ onCloses 0 ev = 1 := by decide

/-! ## C135: unauthorised connections -/

/-- What `C86_in_time` says, for connections as a whole. -/
theorem session_auth (cfg : SCfg) (hauth : cfg.t.w.auth = true) (d : Nat) (life : Life) (jobs : Nat → List UCall) (ls ls' : List SLabel)
    (c : Nat) (hc : c = (srun cfg life jobs ls).t.w.n)
    (hp : SThroughout cfg (.start life jobs) (ls ++ .base (.act (.accept .tcp)) :: ls') fun s => PromptAuth cfg.t d c s.t)
    (hopen : ¬ ShutIn c (srun cfg life jobs (ls ++ .base (.act (.accept .tcp)) :: ls')).ev)
    (hlate : (srun cfg life jobs ls).t.now + cfg.t.authDeadline + 3 * d <
      (srun cfg life jobs (ls ++ .base (.act (.accept .tcp)) :: ls')).t.now) :
    ∃ t v, 0 ≤ v ∧ (t, .w (.authTaken c v)) ∈ (srun cfg life jobs (ls ++ .base (.act (.accept .tcp)) :: ls')).ev := by
  have hsplit : proj cfg (.start life jobs) (ls ++ .base (.act (.accept .tcp)) :: ls') =
      proj cfg (.start life jobs) ls ++ .act (.accept .tcp) ::
        proj cfg (((srun cfg life jobs ls).step cfg (.base (.act (.accept .tcp)))).getD (srun cfg life jobs ls)) ls' := by
    rw [proj_append]; rfl
  have hok := sok_run cfg life jobs (ls ++ .base (.act (.accept .tcp)) :: ls')
  have hsim := session_sim cfg life jobs (ls ++ .base (.act (.accept .tcp)) :: ls')
  have hthr := throughout_sim (cfg := cfg) (life := life) (jobs := jobs) (ls := ls ++ .base (.act (.accept .tcp)) :: ls')
    (P := PromptAuth cfg.t d c) hp
  have h0 := hsim ls.length
  rw [List.take_left] at h0
  have h1 := hsim (ls ++ .base (.act (.accept .tcp)) :: ls').length
  rw [List.take_of_length_le (Nat.le_refl _)] at h1
  generalize hJ : allJobs jobs (srun cfg life jobs (ls ++ .base (.act (.accept .tcp)) :: ls')).spawned = J at h0 h1 hthr
  rw [hsplit] at h1 hthr
  have h1' : trun cfg.t life J (proj cfg (.start life jobs) ls ++ .act (.accept .tcp) ::
      proj cfg (((srun cfg life jobs ls).step cfg (.base (.act (.accept .tcp)))).getD (srun cfg life jobs ls)) ls') = _ := h1
  have h0' : trun cfg.t life J (proj cfg (.start life jobs) ls) = _ := h0
  obtain ⟨t, v, hv, hm⟩ := C86_in_time cfg.t hauth d life J _ _ c (by rw [h0']; exact hc) hthr
    (by rw [h1']; rw [shutIn_iff, hok.ev] at hopen; exact hopen) (by rw [h1', h0']; exact hlate)
  rw [h1'] at hm
  refine ⟨t, v, hv, ?_⟩
  rw [← mem_wlog, hok.ev]
  exact hm

/-- Something that holds whenever a message is read. -/
theorem atEachS_run {cfg : SCfg} {life : Life} {jobs : Nat → List UCall} {c m : Nat} {P : Nat → List (Nat × SEv) → Prop} (ls : List SLabel)
    (h : ∀ k, k ≤ ls.length → ¬ ShutIn c (srun cfg life jobs (ls.take k)).ev → (srun cfg life jobs (ls.take k)).loops c ≠ .off →
      P (srun cfg life jobs (ls.take k)).t.now (srun cfg life jobs (ls.take k)).ev) :
    AtEachS (.read c m) P (srun cfg life jobs ls).ev := by
  suffices hk : ∀ n, n ≤ ls.length → AtEachS (.read c m) P (srun cfg life jobs (ls.take n)).ev by
    have := hk ls.length (Nat.le_refl _)
    rwa [List.take_of_length_le (Nat.le_refl _)] at this
  intro n
  induction n with
  | zero => exact fun _ => atEachS_nil _ _
  | succ n ih =>
    intro hn
    have hlt : n < ls.length := hn
    have e : ls.take (n + 1) = ls.take n ++ [ls[n]] := by rw [List.take_succ_eq_append_getElem hlt]
    have e' : srun cfg life jobs (ls.take (n + 1)) =
        ((srun cfg life jobs (ls.take n)).step cfg ls[n]).getD (srun cfg life jobs (ls.take n)) := by
      rw [e, srun, SState.run_append]; rfl
    rw [e']
    have ih := ih (by omega)
    have hok := sok_run cfg life jobs (ls.take n)
    have h := h n (by omega)
    generalize srun cfg life jobs (ls.take n) = s at *
    generalize ls[n] = l at *
    cases hs : s.step cfg l with
    | none => exact ih
    | some s' =>
      simp only [Option.getD_some]
      cases l with
      | base a =>
        rcases sstep_cases hs with ⟨a', t', -, -, -, -, -, -, -, ev, -⟩ | ⟨j, hl, -⟩ | ⟨hl, -⟩
        · rw [ev, atEachS_w _ (by simp)]; exact ih
        · exact absurd rfl (hl a)
        · exact absurd rfl (hl a)
      | arrive c' m' => lstep hs; rw [atEachS_cons]; exact ⟨by simp, ih⟩
      | hangup c' => lstep hs; rw [atEachS_cons]; exact ⟨by simp, ih⟩
      | reset c' => lstep hs; rw [atEachS_cons]; exact ⟨by simp, ih⟩
      | loop c' x =>
        have hkey : ∀ m', s.loops c' = .read → ¬ s.shut c' = true → AtEachS (.read c m) P ((s.t.now, .read c' m') :: s.ev) := by
          intro m' hl hsh
          rw [atEachS_cons]
          refine ⟨?_, ih⟩
          intro he
          cases he
          have hoff : s.loops c ≠ .off := by rw [hl]; simp
          exact h (fun h0 => hsh ((shut_iff hok hoff).2 h0)) hoff
        lstep hs
        all_goals first
          | exact hkey _ (by assumption) (by assumption)
          | exact ih
          | (rw [atEachS_cons]; exact ⟨by simp, ih⟩)

/-- C135: with authorisation in use, a message is read later than the deadline (and `3 * d`) after a connection was accepted only if the
connection was authorised before, if its auth watcher is never more than `d` late.
Missing: messages before the deadline (`C135_routes_violated`). -/
theorem C135_late_partial (cfg : SCfg) (hauth : cfg.t.w.auth = true) (d : Nat) (life : Life) (jobs : Nat → List UCall)
    (ls ls' : List SLabel) (c m : Nat) (hc : c = (srun cfg life jobs ls).t.w.n)
    (hp : SThroughout cfg (.start life jobs) (ls ++ .base (.act (.accept .tcp)) :: ls') fun s => PromptAuth cfg.t d c s.t) :
    AtEachS (.read c m) (fun t before => (srun cfg life jobs ls).t.now + cfg.t.authDeadline + 3 * d < t →
      ∃ t v, 0 ≤ v ∧ (t, .w (.authTaken c v)) ∈ before) (srun cfg life jobs (ls ++ .base (.act (.accept .tcp)) :: ls')).ev := by
  apply atEachS_run
  intro k hk hsh hoff hlate
  by_cases hkl : k ≤ ls.length
  · -- not yet accepted
    exfalso
    rw [List.take_append_of_le_length hkl] at hoff
    have h1 := ((sok_run cfg life jobs (ls.take k)).conn c hoff).1
    have h2 : (srun cfg life jobs (ls.take k)).t.w.n ≤ (srun cfg life jobs ls).t.w.n := by
      rw [srun_take cfg life jobs ls k]
      exact (ev_run cfg _ _).2.1
    omega
  · obtain ⟨j, rfl⟩ : ∃ j, k = ls.length + (j + 1) := ⟨k - ls.length - 1, by omega⟩
    rw [List.take_length_add_append, List.take_succ_cons] at hsh hlate ⊢
    refine session_auth cfg hauth d life jobs ls (ls'.take j) c hc (fun i => ?_) hsh hlate
    have := hp (min i (ls.length + (j + 1)))
    rw [← List.take_take, List.take_length_add_append, List.take_succ_cons] at this
    exact this

-- authorised at 3, the message at 50 is read
example : let cfg := { Demo.scfg with t := Demo.acfg }
    SThroughout cfg (.start Demo.wlife Demo.wnone) (Demo.tcp Demo.sauth) (fun s => PromptAuth cfg.t 0 0 s.t) ∧
    (50, .read 0 3) ∈ (srun cfg Demo.wlife Demo.wnone (Demo.tcp Demo.sauth)).ev ∧
    (3, .w (.authTaken 0 0)) ∈ (srun cfg Demo.wlife Demo.wnone (Demo.tcp Demo.sauth)).ev :=
  ⟨sthroughout_of _ _ _ _ (by decide), by decide, by decide⟩

/-- C135, violated as it stands: whatever the settings for authorisation, the first message of a connection is read and its goroutine
started, with the handlers of its route, before anything was said about authorisation. -/
theorem C135_routes_violated (cfg : SCfg) (life : Life) (jobs : Nat → List UCall) (m : Nat) (hm : cfg.takes m = true) :
    ∃ ls, (0, .begun 0 m 1) ∈ (srun cfg life jobs ls).ev ∧ (srun cfg life jobs ls).t.w.threads 1 = ⟨.idle, cfg.job 0 m⟩ ∧
      ∀ t v, (t, .w (.authTaken 0 v)) ∉ (srun cfg life jobs ls).ev := by
  refine ⟨[.base (.act (.accept .tcp)), .arrive 0 m, .loop 0 .go, .loop 0 .go], ?_⟩
  simp [srun, SState.run, SState.step, SState.start, TState.step, TState.due, TState.start, WState.start, WState.step, TState.after,
    SState.setLoop, SState.log, SState.loopStep, SState.shut, WState.log, WState.setCtx, SState.spawn, SState.next, hm, newEvents,
    WState.setThread, newCtx]

-- a server with authorisation
example : let cfg := { Demo.scfg with t := Demo.acfg }
    cfg.takes 3 = true ∧ cfg.t.w.auth = true := by decide

/-! ## C136: a client that sends heartbeats keeps its connection -/

theorem promptCalls_filled {d c : Nat} {s : SState} (h : PromptCalls d c s.t) (J : Nat → List UCall) : PromptCalls d c (s.filled J) := by
  intro i t ht
  by_cases hi : started s.spawned.length i = true
  · have e : (s.filled J).w.threads i = s.t.w.threads i := if_pos hi
    rw [e]
    exact h i t ht
  · have e : (s.filled J).w.threads i = ⟨.idle, J i⟩ := if_neg hi
    rw [e]
    simp

/-- C136: if on a connection a message that calls `RecvHeartBeat` first arrives at least every `g`, if nothing arrives the loop does not
take and the client does not hang up, and if the goroutines concerned (the connection's own, those of the heartbeat messages, and the
watcher) are never more than `d` late, with `g + 9 * d` less than three intervals, then the connection is not closed for loss of
heartbeat. -/
theorem C136_kept (cfg : SCfg) (kind : Nat → Bool) (g d : Nat) (hg : g + 9 * d < 3 * cfg.t.interval) (life : Life) (jobs : Nat → List UCall)
    (ls ls' : List SLabel) (c : Nat) (hc : c = (srun cfg life jobs ls).t.w.n)
    (hkind : ∀ m, kind m = true → ∃ rest, cfg.job c m = .beat c :: rest)
    (htakes : ∀ t m, (t, .arrived c m) ∈ (srun cfg life jobs (ls ++ .base (.act (.accept .tcp)) :: ls')).ev → cfg.takes m = true)
    (hkt : ∀ m, kind m = true → cfg.takes m = true)
    (hstay : ∀ t, (t, .hungUp c) ∉ (srun cfg life jobs (ls ++ .base (.act (.accept .tcp)) :: ls')).ev)
    (hp : SThroughout cfg (.start life jobs) (ls ++ .base (.act (.accept .tcp)) :: ls') fun s =>
      PromptLoop d c s ∧ PromptStart d c s ∧ PromptBeat cfg.t d c s.t ∧ PromptCalls d c s.t ∧ SentEvery g kind c s) :
    AtEachS (.w (.closed c .loss)) (fun _ before => ShutIn c before) (srun cfg life jobs (ls ++ .base (.act (.accept .tcp)) :: ls')).ev := by
  have hcalls : ∀ k, CallsEvery (g + 3 * d) c (srun cfg life jobs ((ls ++ .base (.act (.accept .tcp)) :: ls').take k)).t := by
    intro k
    rcases take_accept cfg life jobs ls ls' k with ⟨h, -⟩ | ⟨j, hj⟩
    · intro t ht
      rw [uncalled_run cfg c life jobs _ (by omega)] at ht
      cases ht
    · have hoff := served cfg life jobs ls (ls'.take j)
      rw [← hc, ← hj] at hoff
      have hk := hp k
      refine sentok_calls ?_ hk.1 hk.2.1 hk.2.2.2.2 (sok_run cfg life jobs _) hoff
      refine (SState.run_induct (P := fun s => (SOk s ∧ PastOk c s) ∧ SentOk kind g d c s)
        (H := fun s => PromptLoop d c s ∧ SentEvery g kind c s ∧ s.hung c = false ∧ ∀ a m, (a, m) ∈ s.inbox c → cfg.takes m = true)
        (fun i => ?_) ⟨⟨sok_start life jobs, pastok_start c life jobs⟩, sentok_start kind g d c life jobs⟩
        fun s l s' h h1 h2 hs => ⟨⟨sok_step h.1.1 hs, pastok_step h.1.2 hs⟩,
          sentok_step (fun m hm => ⟨hkt m hm, hkind m hm⟩) h.1.1 h.1.2 h1.1 h1.2.1 h2.2.2.1 h1.2.2.2 h.2 hs⟩).2
      have hi := hp (min i k)
      rw [← List.take_take] at hi
      refine ⟨hi.1, hi.2.2.2.2, ?_, fun a m hm => ?_⟩
      · cases hh : ((SState.start life jobs).run cfg (((ls ++ .base (.act (.accept .tcp)) :: ls').take k).take i)).hung c with
        | false => rfl
        | true =>
          obtain ⟨t, ht⟩ := hung_ev cfg c life jobs _ hh
          exact absurd (mem_take (mem_take ht)) (hstay t)
      · have ho := (loopok_run cfg c life jobs (((ls ++ .base (.act (.accept .tcp)) :: ls').take k).take i)).order
        have hm' : m ∈ arrivals c (srun cfg life jobs (((ls ++ .base (.act (.accept .tcp)) :: ls').take k).take i)).ev :=
          ho.subset (List.mem_append_right _ (List.mem_map.2 ⟨_, hm, rfl⟩))
        obtain ⟨t, ht⟩ := mem_arrivals hm'
        exact htakes t m (mem_take (mem_take ht))
  have h := C128_kept cfg.t (g + 3 * d) d (by omega) life _ _ c
    (throughout_sim (cfg := cfg) (life := life) (jobs := jobs) (ls := ls ++ .base (.act (.accept .tcp)) :: ls')
      (P := fun s => PromptBeat cfg.t d c s ∧ PromptCalls d c s ∧ CallsEvery (g + 3 * d) c s)
      fun k => ⟨(hp k).2.2.1, promptCalls_filled (hp k).2.2.2.1 _, hcalls k⟩)
  have e := session_sim cfg life jobs (ls ++ .base (.act (.accept .tcp)) :: ls') (ls ++ .base (.act (.accept .tcp)) :: ls').length
  rw [List.take_of_length_le (Nat.le_refl _)] at e
  rw [trun, e] at h
  have hok := sok_run cfg life jobs (ls ++ .base (.act (.accept .tcp)) :: ls')
  have h' := atEachS_of (ev := (srun cfg life jobs (ls ++ .base (.act (.accept .tcp)) :: ls')).ev) (by rw [hok.ev]; exact h)
  intro post pre t he
  exact (shutIn_iff c pre).2 (h' post pre t he)

-- a client that sends heartbeats every 9, read one late: for 35, no longer than three intervals after the last, it is not closed
set_option maxRecDepth 4000 in
example : AtEachS (.w (.closed 0 .loss)) (fun _ before => ShutIn 0 before) (Demo.srunD (Demo.tcp Demo.skept)).ev ∧
    (Demo.srunD (Demo.tcp Demo.skept)).t.now = 35 := by
  refine ⟨C136_kept Demo.scfg (fun m => m = 1) 9 1 (by decide) Demo.wlife Demo.wnone [] Demo.skept 0 rfl
    (fun m hm => ⟨[], by simp [Demo.scfg, of_decide_eq_true hm]⟩) (fun t m hm => arrived_of (p := Demo.scfg.takes) (by decide) t m hm)
    (fun m hm => by simp [Demo.scfg, of_decide_eq_true hm]) (fun t => hungUp_of (by decide) t) ?_, by decide⟩
  have h : ∀ k ∈ List.range (Demo.skept.length + 2), let s := Demo.srunD ((Demo.tcp Demo.skept).take k)
      promptLoop 1 0 s = true ∧ promptStart 1 s = true ∧ PromptBeat Demo.scfg.t 1 0 s.t ∧ promptCalls 1 0 s.t = true ∧
        sentEvery 9 (fun m => m = 1) 0 s = true := by decide
  exact sthroughout_of _ _ _ _ fun k hk =>
    ⟨promptLoop_spec (h k hk).1, promptStart_spec (h k hk).2.1, (h k hk).2.2.1, promptCalls_spec (h k hk).2.2.2.1,
      sentEvery_spec (h k hk).2.2.2.2⟩

/-! ## C137: a silent client -/

/-- A run of connections as a whole is a run of `Model/Timed`, with the same clock, events and contexts. -/
theorem session_timed (cfg : SCfg) (life : Life) (jobs : Nat → List UCall) (ls : List SLabel) :
    ∃ J ks, (trun cfg.t life J ks).log = (srun cfg life jobs ls).t.log ∧ (trun cfg.t life J ks).now = (srun cfg life jobs ls).t.now ∧
      (trun cfg.t life J ks).w.ctxs = (srun cfg life jobs ls).t.w.ctxs ∧
      ∀ d c, (SThroughout cfg (.start life jobs) ls (fun s => PromptBeat cfg.t d c s.t) →
          Throughout cfg.t (.start life J) ks (PromptBeat cfg.t d c)) ∧
        (SThroughout cfg (.start life jobs) ls (fun s => PromptBeat cfg.t d c s.t ∧ PromptAuth cfg.t d c s.t ∧ PromptEnd d c s.t) →
          Throughout cfg.t (.start life J) ks fun s => PromptBeat cfg.t d c s ∧ PromptAuth cfg.t d c s ∧ PromptEnd d c s) := by
  have e := session_sim cfg life jobs ls ls.length
  rw [List.take_of_length_le (Nat.le_refl _)] at e
  refine ⟨_, _, ?_, ?_, ?_, fun d c => ⟨fun h => throughout_sim h, fun h => throughout_sim h⟩⟩
  · rw [trun, e]; rfl
  · rw [trun, e]; rfl
  · rw [trun, e]; rfl

/-- The watchers of a closed connection end. -/
theorem session_ends (cfg : SCfg) (d : Nat) (hd : d < cfg.t.interval) (life : Life) (jobs : Nat → List UCall) (ls : List SLabel) (c t h : Nat)
    (hp : SThroughout cfg (.start life jobs) ls fun s => PromptBeat cfg.t d c s.t ∧ PromptAuth cfg.t d c s.t ∧ PromptEnd d c s.t)
    (ht : shutAt c (srun cfg life jobs ls).ev = some t) (hh : lastHeard c (wlog (srun cfg life jobs ls).ev) = some h)
    (hlate : max t h + 6 * d < (srun cfg life jobs ls).t.now) : Unwatched c (srun cfg life jobs ls) := by
  obtain ⟨J, ks, h1, h2, h3, h4⟩ := session_timed cfg life jobs ls
  have hok := sok_run cfg life jobs ls
  rw [shutAt_eq, hok.ev, ← h1] at ht
  rw [hok.ev, ← h1] at hh
  rw [← h2] at hlate
  have := C91_ends_partial cfg.t d hd life J ks c ((h4 d c).2 hp) t h ht hh hlate
  rw [h3] at this
  exact this

/-- A call of `RecvHeartBeat` returned. -/
def isBeatRet : SEv → Bool
  | .w (.ret _ (.beat _)) => true
  | _ => false

/-- C137: a connection for which no call of `RecvHeartBeat` has returned is closed within three intervals and `14 * d` of being accepted;
`6 * d` later its goroutine has called `OnClose`, once, if it is set, and has nothing left to do but the rest of `OnClose` and
`CloseConn`, and none of its watchers is left; if the goroutine and the watchers are never more than `d` late, and unless the loss
callback has panicked. -/
theorem C137_silent (cfg : SCfg) (hb : cfg.t.w.heartBeatOn = true) (d : Nat) (hd : d < cfg.t.interval) (life : Life)
    (jobs : Nat → List UCall) (ls ls' : List SLabel) (c : Nat) (hc : c = (srun cfg life jobs ls).t.w.n)
    (hp : SThroughout cfg (.start life jobs) (ls ++ .base (.act (.accept .tcp)) :: ls') fun s =>
      PromptLoop d c s ∧ PromptBeat cfg.t d c s.t ∧ PromptAuth cfg.t d c s.t ∧ PromptEnd d c s.t)
    (hno : ∀ t i, (t, .w (.ret i (.beat c))) ∉ (srun cfg life jobs (ls ++ .base (.act (.accept .tcp)) :: ls')).ev)
    (hcb : ∀ t, (t, .w (.lossCallback c true)) ∉ (srun cfg life jobs (ls ++ .base (.act (.accept .tcp)) :: ls')).ev)
    (hlate : (srun cfg life jobs ls).t.now + 3 * cfg.t.interval + 20 * d <
      (srun cfg life jobs (ls ++ .base (.act (.accept .tcp)) :: ls')).t.now) :
    (∃ t, shutAt c (srun cfg life jobs (ls ++ .base (.act (.accept .tcp)) :: ls')).ev = some t ∧
      t ≤ (srun cfg life jobs ls).t.now + 3 * cfg.t.interval + 14 * d) ∧
    (∃ k, (srun cfg life jobs (ls ++ .base (.act (.accept .tcp)) :: ls')).loops c = .last k) ∧
    onCloses c (srun cfg life jobs (ls ++ .base (.act (.accept .tcp)) :: ls')).ev = (if cfg.onClose.isSome then 1 else 0) ∧
    Unwatched c (srun cfg life jobs (ls ++ .base (.act (.accept .tcp)) :: ls')) := by
  have hclose : ∀ ls'' k, ls ++ .base (.act (.accept .tcp)) :: ls'' = (ls ++ .base (.act (.accept .tcp)) :: ls').take k →
      (srun cfg life jobs ls).t.now + 3 * cfg.t.interval + 14 * d < (srun cfg life jobs (ls ++ .base (.act (.accept .tcp)) :: ls'')).t.now →
      ShutIn c (srun cfg life jobs (ls ++ .base (.act (.accept .tcp)) :: ls'')).ev := by
    intro ls'' k hk hl
    have ha := joined_run cfg life jobs ls ls''
    rw [← hc] at ha
    rw [hk] at hl ha ⊢
    obtain ⟨J, ks, h1, h2, h3, h4⟩ := session_timed cfg life jobs ((ls ++ .base (.act (.accept .tcp)) :: ls').take k)
    have hok := sok_run cfg life jobs ((ls ++ .base (.act (.accept .tcp)) :: ls').take k)
    rw [shutIn_iff, hok.ev, ← h1]
    refine C115_others cfg.t hb d life J ks c _ ((h4 d c).1 fun i => ?_) (by rw [h1]; exact ha) (fun t i hm => ?_) (fun t hm => ?_) (by rw [h2]; exact hl)
    · have := hp (min i k)
      rw [← List.take_take] at this
      exact this.2.1
    · rw [h1, ← hok.ev, mem_wlog] at hm
      exact hno t i (mem_take hm)
    · rw [h1, ← hok.ev, mem_wlog] at hm
      exact hcb t (mem_take hm)
  have hsh : ∃ t, shutAt c (srun cfg life jobs (ls ++ .base (.act (.accept .tcp)) :: ls')).ev = some t := by
    have h0 := hclose ls' _ (List.take_of_length_le (Nat.le_refl _)).symm (by omega)
    cases hs : shutAt c (srun cfg life jobs (ls ++ .base (.act (.accept .tcp)) :: ls')).ev with
    | some t => exact ⟨t, rfl⟩
    | none => exact absurd h0 ((shutAt_none _ _).1 hs)
  obtain ⟨t, ht⟩ := hsh
  have hbound : t ≤ (srun cfg life jobs ls).t.now + 3 * cfg.t.interval + 14 * d := by
    apply Nat.le_of_not_lt
    intro hlt
    obtain ⟨k, k1, k2, -⟩ := shutAt_state cfg life jobs c t _ ht
    rcases take_accept cfg life jobs ls ls' k with ⟨-, h⟩ | ⟨j, hj⟩
    · omega
    · have h0 := hclose (ls'.take j) k hj.symm (by rw [← hj]; omega)
      rw [← hj] at h0
      exact k1 h0
  have h3 := C134_in_time cfg d life jobs ls ls' c hc (fun k => (hp k).1) t ht (by omega)
  refine ⟨⟨t, ht, hbound⟩, h3.1, h3.2, ?_⟩
  have hok := sok_run cfg life jobs (ls ++ .base (.act (.accept .tcp)) :: ls')
  have ha := joined_run cfg life jobs ls ls'
  rw [← hc] at ha
  refine session_ends cfg d hd life jobs _ c t (srun cfg life jobs ls).t.now (fun k => (hp k).2) ht ?_ (by omega)
  rw [lastHeard_accepted, hok.ev, ha]
  obtain ⟨J, ks, h1, -⟩ := session_timed cfg life jobs (ls ++ .base (.act (.accept .tcp)) :: ls')
  rw [hok.ev, ← h1]
  refine untaken cfg.t life J ks c fun t i hm => ?_
  rw [h1, ← hok.ev, mem_wlog] at hm
  exact hno t i hm

-- a client that sends nothing
example : Unwatched 0 (Demo.srunD (Demo.tcp Demo.ssilent)) ∧
    onCloses 0 (Demo.srunD (Demo.tcp Demo.ssilent)).ev = 1 := by
  have h : ∀ k ∈ List.range (Demo.ssilent.length + 2), let s := Demo.srunD ((Demo.tcp Demo.ssilent).take k)
      promptLoop 0 0 s = true ∧ PromptBeat Demo.scfg.t 0 0 s.t ∧ PromptAuth Demo.scfg.t 0 0 s.t ∧ promptEnd 0 0 s.t = true := by decide
  have := C137_silent Demo.scfg rfl 0 (by decide) Demo.wlife Demo.wnone [] Demo.ssilent 0 rfl
    (sthroughout_of _ _ _ _ fun k hk => ⟨promptLoop_spec (h k hk).1, (h k hk).2.1, (h k hk).2.2.1, promptEnd_spec _ _ _ (h k hk).2.2.2⟩)
    (fun t i hm => by
      have h0 : ∀ x ∈ (Demo.srunD (Demo.tcp Demo.ssilent)).ev, isBeatRet x.2 = false := by decide
      exact absurd (h0 _ hm) (by simp [isBeatRet]))
    (fun t hm => by
      have h0 : ∀ x ∈ (Demo.srunD (Demo.tcp Demo.ssilent)).ev, x.2 ≠ .w (.lossCallback 0 true) := by decide
      exact h0 _ hm rfl) (by decide)
  exact ⟨this.2.2.2, this.2.2.1⟩

/-! ## C138: a client that hangs up -/

theorem hungAt_mem {c t : Nat} {ev : List (Nat × SEv)} (h : hungAt c ev = some t) : (t, .hungUp c) ∈ ev := by
  induction ev with
  | nil => cases h
  | cons x ev ih =>
    obtain ⟨u, x⟩ := x
    cases x with
    | hungUp c' =>
      simp only [hungAt] at h
      split at h
      · next hc => cases h; subst hc; exact List.mem_cons_self ..
      · exact List.mem_cons_of_mem _ (ih h)
    | _ => exact List.mem_cons_of_mem _ (ih h)

theorem hungAt_append (c : Nat) (es ev : List (Nat × SEv)) : hungAt c (es ++ ev) = (hungAt c es).or (hungAt c ev) := by
  induction es with
  | nil => rfl
  | cons x es ih =>
    obtain ⟨u, x⟩ := x
    cases x with
    | hungUp c' =>
      simp only [List.cons_append, hungAt]
      split
      · rfl
      · exact ih
    | _ => simpa [hungAt] using ih

/-- C138: a connection whose client hangs up (or whose connection breaks) at `t` is closed by `t + 6 * d`, after `OnClose` has been called
for it, once, if it is set; and `6 * d` after that (or after its watcher last received a heartbeat) none of its watchers is left; if the
goroutines concerned are never more than `d` late and `OnClose` itself does nothing to connections. -/
theorem C138_hangup (cfg : SCfg) (d : Nat) (hd : d < cfg.t.interval) (life : Life) (jobs : Nat → List UCall) (ls : List SLabel) (c : Nat)
    (hcb : ∀ f, cfg.onClose = some f → f c = [])
    (hp : SThroughout cfg (.start life jobs) ls fun s =>
      PromptLoop d c s ∧ PromptTail d c s ∧ PromptBeat cfg.t d c s.t ∧ PromptAuth cfg.t d c s.t ∧ PromptEnd d c s.t) (t : Nat)
    (ht : hungAt c (srun cfg life jobs ls).ev = some t) (hlate : t + 6 * d < (srun cfg life jobs ls).t.now) :
    (∃ u, shutAt c (srun cfg life jobs ls).ev = some u ∧ u ≤ t + 6 * d) ∧
    onCloses c (srun cfg life jobs ls).ev = (if cfg.onClose.isSome then 1 else 0) ∧
    ∀ h, lastHeard c (wlog (srun cfg life jobs ls).ev) = some h → max (t + 6 * d) h + 6 * d < (srun cfg life jobs ls).t.now →
      Unwatched c (srun cfg life jobs ls) := by
  have key : ∀ k, hungAt c (srun cfg life jobs (ls.take k)).ev = some t → t + 6 * d < (srun cfg life jobs (ls.take k)).t.now →
      ShutIn c (srun cfg life jobs (ls.take k)).ev ∧ ∃ i, (srun cfg life jobs (ls.take k)).loops c = .last i := by
    intro k ht hlate
    have h1 := hungok_run cfg d c life jobs (ls.take k) fun i => by
      have := hp (min i k)
      rw [← List.take_take] at this
      exact this.1
    obtain ⟨-, h1⟩ := h1.time t ht
    have h2 := hp k
    obtain ⟨h2, h3, -⟩ := h2
    have h4 := tailok_run cfg c hcb life jobs (ls.take k)
    change PromptLoop d c (srun cfg life jobs (ls.take k)) at h2
    change PromptTail d c (srun cfg life jobs (ls.take k)) at h3
    generalize srun cfg life jobs (ls.take k) = s at *
    obtain ⟨b1, b2, b3⟩ := h1
    unfold PromptLoop at h2
    cases hl : s.loops c with
    | off => rw [hl] at b2; exact b2.elim
    | read =>
      exfalso
      rw [hl] at b2 h2
      simp only at b2
      obtain ⟨c1, c2, c3⟩ := h2
      cases hi : s.inbox c with
      | nil => have := c2 t ht hi; omega
      | cons x rest =>
        obtain ⟨a, m⟩ := x
        have hm : (a, m) ∈ s.inbox c := by rw [hi]; exact List.mem_cons_self ..
        have ha := b1 a m hm
        cases hs : shutAt c s.ev with
        | none => have := c3 ((shutAt_none _ _).1 hs) a m hm; omega
        | some t' =>
          have h5 := b3 (.inl hl) (by rw [hi]; simp) t' hs
          have := c1 t' hs
          omega
    | go m => exfalso; rw [hl] at b2 h2; simp only at b2; have := h2.1; omega
    | leaving => exfalso; rw [hl] at b2 h2; simp only at b2 h2; omega
    | last i =>
      refine ⟨?_, i, rfl⟩
      rw [hl] at b2
      simp only at b2
      obtain ⟨p1, p2⟩ := h3 i hl
      rcases (h4 i hl).2 with h5 | h5 | h5
      · have := p1 h5; omega
      · have := p2 (by rw [h5]); omega
      · exact h5
  have h0 := key ls.length
  rw [List.take_of_length_le (Nat.le_refl _)] at h0
  obtain ⟨h1, i, h2⟩ := h0 ht hlate
  have hsh : ∃ u, shutAt c (srun cfg life jobs ls).ev = some u := by
    cases hs : shutAt c (srun cfg life jobs ls).ev with
    | some u => exact ⟨u, rfl⟩
    | none => exact absurd h1 ((shutAt_none _ _).1 hs)
  obtain ⟨u, hu⟩ := hsh
  have hbound : u ≤ t + 6 * d := by
    apply Nat.le_of_not_lt
    intro hlt
    obtain ⟨k, k1, k2, -⟩ := shutAt_state cfg life jobs c u ls hu
    obtain ⟨-, -, es, k3, k4⟩ := ev_run cfg (srun cfg life jobs (ls.take k)) (ls.drop k)
    rw [← srun_take] at k3
    rw [k3, hungAt_append] at ht
    cases hh : hungAt c es with
    | some t' =>
      rw [hh] at ht
      cases ht
      have := k4 _ (hungAt_mem hh)
      simp only at this
      omega
    | none =>
      rw [hh] at ht
      exact k1 (key k ht (by omega)).1
  refine ⟨⟨u, hu, hbound⟩, ?_, fun h hh hl => session_ends cfg d hd life jobs ls c u h (fun k => (hp k).2.2) hu hh (by omega)⟩
  have h3 := (loopok_run cfg c life jobs ls).closes
  rw [h2] at h3
  exact h3

-- the client of `shang` hangs up at 4; at 17 nothing is left
example : Unwatched 0 (Demo.srunD Demo.shang) ∧ onCloses 0 (Demo.srunD Demo.shang).ev = 1 := by
  have h : ∀ k ∈ List.range (Demo.shang.length + 1), let s := Demo.srunD (Demo.shang.take k)
      promptLoop 1 0 s = true ∧ promptTail 1 0 s = true ∧ PromptBeat Demo.scfg.t 1 0 s.t ∧ PromptAuth Demo.scfg.t 1 0 s.t ∧
        promptEnd 1 0 s.t = true := by decide
  have := C138_hangup Demo.scfg 1 (by decide) Demo.wlife Demo.wnone Demo.shang 0 (by rintro _ ⟨⟩; rfl)
    (sthroughout_of _ _ _ _ fun k hk =>
      ⟨promptLoop_spec (h k hk).1, promptTail_spec (h k hk).2.1, (h k hk).2.2.1, (h k hk).2.2.2.1, promptEnd_spec _ _ _ (h k hk).2.2.2.2⟩)
    4 (by decide) (by decide)
  exact ⟨this.2.2 0 (by decide) (by decide), this.2.1⟩

/-! ## C139: messages are handled in time -/

/-- C139: as long as a connection is open and its client has not hung up, a goroutine has been started for every message that arrived
more than `2 * d` ago, in the order of arrival, if the goroutine of the connection is never more than `d` late and takes all that
arrives; whatever the handlers, the watchers and other connections do. -/
theorem C139_handled (cfg : SCfg) (d : Nat) (life : Life) (jobs : Nat → List UCall) (ls ls' : List SLabel) (c : Nat)
    (hc : c = (srun cfg life jobs ls).t.w.n)
    (htakes : ∀ t m, (t, .arrived c m) ∈ (srun cfg life jobs (ls ++ .base (.act (.accept .tcp)) :: ls')).ev → cfg.takes m = true)
    (hstay : ∀ t, (t, .hungUp c) ∉ (srun cfg life jobs (ls ++ .base (.act (.accept .tcp)) :: ls')).ev)
    (hopen : ¬ ShutIn c (srun cfg life jobs (ls ++ .base (.act (.accept .tcp)) :: ls')).ev)
    (hp : SThroughout cfg (.start life jobs) (ls ++ .base (.act (.accept .tcp)) :: ls') (PromptLoop d c)) (T : Nat)
    (hT : T + 2 * d < (srun cfg life jobs (ls ++ .base (.act (.accept .tcp)) :: ls')).t.now) :
    arrivedBy T c (srun cfg life jobs (ls ++ .base (.act (.accept .tcp)) :: ls')).ev <+:
      begun c (srun cfg life jobs (ls ++ .base (.act (.accept .tcp)) :: ls')).ev := by
  have hoff := served cfg life jobs ls ls'
  rw [← hc] at hoff
  generalize ls ++ .base (.act (.accept .tcp)) :: ls' = ks at *
  have hH : HandOk cfg d c (srun cfg life jobs ks) := by
    refine (SState.run_induct (s := .start life jobs) (P := fun s => SOk s ∧ HandOk cfg d c s)
      (H := fun s => PromptLoop d c s ∧ s.hung c = false ∧ ∀ a m, (a, m) ∈ s.inbox c → cfg.takes m = true)
      (fun k => ⟨hp k, ?_, fun a m hm => ?_⟩) ⟨sok_start life jobs, handok_start cfg d c life jobs⟩
      fun s l s' h h1 h2 hs => ⟨sok_step h.1 hs, handok_step h.1 h1.1 h2.2.1 h1.2.2 h.2 hs⟩).2
    · cases hh : ((SState.start life jobs).run cfg (ks.take k)).hung c with
      | false => rfl
      | true =>
        obtain ⟨t, ht⟩ := hung_ev cfg c life jobs _ hh
        exact absurd (mem_take ht) (hstay t)
    · have ho := (loopok_run cfg c life jobs (ks.take k)).order
      have hm' : m ∈ arrivals c (srun cfg life jobs (ks.take k)).ev :=
        ho.subset (List.mem_append_right _ (List.mem_map.2 ⟨_, hm, rfl⟩))
      obtain ⟨t, ht⟩ := mem_arrivals hm'
      exact htakes t m (mem_take ht)
  have hl := hp ks.length
  rw [List.take_of_length_le (Nat.le_refl _)] at hl
  change PromptLoop d c (srun cfg life jobs ks) at hl
  have hL := loopok_run cfg c life jobs ks
  have hsort := timedArrivals_sorted (c := c) (sorted_run cfg life jobs ks)
  have hread : ∀ m ∈ reads c (srun cfg life jobs ks).ev, cfg.takes m = true := by
    intro m hm
    obtain ⟨t, ht⟩ := mem_arrivals (hL.order.subset (List.mem_append_left _ hm))
    exact htakes t m ht
  generalize srun cfg life jobs ks = s at *
  obtain ⟨g1, r, g2, g3, g4⟩ := hH
  have hst := hL.starts
  rw [List.filter_eq_self.2 hread, ← g3] at hst
  rw [arrivedBy_eq]
  rw [g2] at hsort ⊢
  unfold PromptLoop at hl
  rcases g1 hoff hopen with h | ⟨m, h⟩
  · rw [h] at hl hst
    have h1 := filter_prefix (T := T) hsort fun x hx => by
      have := hl.2.2 hopen x.1 x.2 hx
      omega
    rw [List.append_nil] at hst
    rw [hst]
    exact h1.map _
  · rw [h] at hl hst
    obtain ⟨r', a, rfl, ha⟩ := g4 m h hopen
    rw [List.append_assoc] at hsort ⊢
    have h1 := filter_prefix (T := T) hsort fun x hx => by
      rcases List.mem_append.1 hx with hx | hx
      · rw [List.mem_singleton.1 hx]
        have := hl.1
        simp only
        omega
      · have := hl.2 hopen x.1 x.2 hx
        omega
    simp only [List.map_append, List.map_cons, List.map_nil] at hst
    rw [List.append_cancel_right hst]
    exact h1.map _

-- the heartbeats of `skept`, which arrived at 8, 17 and 26, at 35
set_option maxRecDepth 4000 in
example : [1, 1, 1] <+: begun 0 (Demo.srunD (Demo.tcp Demo.skept)).ev := by
  have h : ∀ k ∈ List.range (Demo.skept.length + 2), promptLoop 1 0 (Demo.srunD ((Demo.tcp Demo.skept).take k)) = true := by decide
  exact C139_handled Demo.scfg 1 Demo.wlife Demo.wnone [] Demo.skept 0 rfl
    (fun t m hm => arrived_of (p := Demo.scfg.takes) (by decide) t m hm) (fun t => hungUp_of (by decide) t)
    (by rw [← shutAt_none]; decide) (sthroughout_of _ _ _ _ fun k hk => promptLoop_spec (h k hk)) 32 (by decide)

end Tcpx
