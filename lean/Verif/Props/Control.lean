import Verif.Spec.Control
import Verif.Lemmas.Control
/-!
# Concurrent control calls (C79, C80)

* C79: of the calls of `Stop`, at most one per period of running returns nil, and none panics.
* C80: once `Stop` has returned nil, no listening call begun earlier keeps the server running or accepts connections; and `Stop` is
  not refused when a listening call begun earlier is going to accept connections.
-/
namespace Tcpx
open Spec

/-! ## C79 -/

/-- A call of `Stop` that runs without interruption does what `Life.stop` says. -/
theorem C79_alone (s : CState) (i : Nat) (b : Bool) (hi : s.threads[i]? = some (.stopCheck b)) :
    (s.run (List.replicate 4 (.step i true))).life = (s.life.stop b).2 ∧
    (s.run (List.replicate 4 (.step i true))).trace = .stopRet (s.life.stop b).1 :: s.trace := by
  obtain ⟨hlt, hi⟩ := List.getElem?_eq_some_iff.1 hi
  by_cases hs : s.life.state = .stopped
  · simp [CState.run, List.replicate, CState.step, CState.stepThread, hi, hs, CState.setPc, CState.log, hlt, Life.stop]
  · cases b
    · simp [CState.run, List.replicate, CState.step, CState.stepThread, hi, hs, CState.setPc, CState.log, hlt, Life.stop]
    · simp [CState.run, List.replicate, CState.step, CState.stepThread, hi, hs, CState.setPc, CState.log, hlt, Life.stop]

/-- Two overlapping calls of `Stop` may both return nil. -/
theorem C79_both_succeed_violated (life : Life) (h : Unstarted life) :
    ∃ ls, startedUp ((CState.start life).run ls).trace = 1 ∧ succeeded ((CState.start life).run ls).trace = 2 := by
  obtain ⟨h1, h2, h3⟩ := h
  refine ⟨[.begin (.listen "tcp" ":7171"), .step 0 true, .step 0 true, .step 0 true, .begin (.stop false), .begin (.stop false),
    .step 1 true, .step 2 true, .step 1 true, .step 1 true, .step 2 true, .step 2 true], ?_, ?_⟩ <;>
  simp [CState.run, CState.start, CState.step, CState.stepThread, CState.setPc, CState.log, CCall.begin, CState.inUse, startedUp, succeeded]

/-- Two overlapping calls of `Stop(true)` with broadcast signals: the second closes the channel again and panics. -/
theorem C79_panics_violated (life : Life) (h : Unstarted life) (hs : life.withSignals = true) (hsig : life.sig = .opened) :
    ∃ ls, .stopRet .panic ∈ ((CState.start life).run ls).trace := by
  obtain ⟨h1, h2, h3⟩ := h
  refine ⟨[.begin (.listen "tcp" ":7171"), .step 0 true, .step 0 true, .step 0 true, .begin (.stop true), .begin (.stop true),
    .step 1 true, .step 2 true, .step 1 true, .step 1 true, .step 1 true, .step 2 true, .step 2 true, .step 2 true], ?_⟩
  simp [CState.run, CState.start, CState.step, CState.stepThread, CState.setPc, CState.log, CCall.begin, CState.inUse,
    Life.closeAllConnection, hs, hsig]

example : Unstarted (({} : Life).withBroadCastSignal true) ∧ (({} : Life).withBroadCastSignal true).withSignals = true ∧
    (({} : Life).withBroadCastSignal true).sig = .opened := ⟨⟨rfl, rfl, rfl⟩, rfl, rfl⟩

private theorem countP_set' {α : Type} {p : α → Bool} {xs : List α} {i : Nat} {a : α} (h : xs[i]? = some a) (b : α) :
    (xs.set i b).countP p + (if p a then 1 else 0) = xs.countP p + (if p b then 1 else 0) := by
  obtain ⟨hlt, ha⟩ := List.getElem?_eq_some_iff.1 h
  rw [List.countP_set hlt, ha]
  by_cases hp : p a = true
  · have : 0 < xs.countP p := List.countP_pos_iff.2 ⟨a, ha ▸ List.getElem_mem hlt, hp⟩
    simp only [hp, if_true]; omega
  · simp only [hp]; simp

private def setting : CPc → Bool
  | .stopSet _ => true
  | _ => false

/-- The counting argument. -/
private def Cnt (s : CState) : Prop :=
  succeeded s.trace + s.threads.countP stopping ≤ startedUp s.trace ∧
  (s.life.state = .running → s.threads.countP setting = 0 → succeeded s.trace + s.threads.countP stopping + 1 ≤ startedUp s.trace)

private theorem setting_le (xs : List CPc) : xs.countP setting ≤ xs.countP stopping :=
  List.countP_mono_left (by intro pc _ h; cases pc <;> simp_all [setting, stopping])

private theorem Cnt.step {s : CState} (h : Cnt s) (lb : CLabel) (hb : s.threads.countP stopping ≤ 1)
    (ha : (s.step lb).threads.countP stopping ≤ 1) : Cnt (s.step lb) := by
  have hle := setting_le s.threads
  obtain ⟨h1, h2⟩ := h
  cases lb with
  | begin c =>
    have e1 : (s.threads ++ [c.begin]).countP stopping = s.threads.countP stopping := by
      rw [List.countP_append]; cases c <;> simp [CCall.begin, stopping]
    have e2 : (s.threads ++ [c.begin]).countP setting = s.threads.countP setting := by
      rw [List.countP_append]; cases c <;> simp [CCall.begin, setting]
    have e3 : succeeded (.begun c :: s.trace) = succeeded s.trace := by simp [succeeded]
    have e4 : startedUp (.begun c :: s.trace) = startedUp s.trace := by simp [startedUp]
    simp only [Cnt, CState.step, CState.log, e1, e2, e3, e4]
    exact ⟨h1, h2⟩
  | step i ok =>
    unfold CState.step at ha ⊢
    simp only at ha ⊢
    cases hs : s.stepThread i ok with
    | none => exact ⟨h1, h2⟩
    | some s' =>
      rw [hs] at ha
      simp only [Option.getD] at ha ⊢
      unfold CState.stepThread at hs
      cases hi : s.threads[i]? with
      | none => rw [hi] at hs; cases hs
      | some pc =>
        rw [hi] at hs
        have hP := fun pc' => countP_set' (p := stopping) hi pc'
        have hS := fun pc' => countP_set' (p := setting) hi pc'
        cases pc with
        | stopCheck b =>
          simp only at hs
          split at hs
          · rename_i hst
            cases hs
            have := hP (.done (.err .other))
            simp [stopping] at this
            simp only [Cnt, CState.setPc, CState.log, hst, this]
            have e3 : succeeded (.stopRet (.err .other) :: s.trace) = succeeded s.trace := by simp [succeeded]
            have e4 : startedUp (.stopRet (.err .other) :: s.trace) = startedUp s.trace := by simp [startedUp]
            rw [e3, e4]
            exact ⟨h1, by simp⟩
          · rename_i hst
            cases hs
            have hr : s.life.state = .running := by cases h : s.life.state <;> simp_all
            have a1 := hP (.stopSet b)
            have a2 := hS (.stopSet b)
            simp [stopping, setting] at a1 a2
            simp only [CState.setPc] at ha
            have := h2 hr (by omega)
            refine ⟨?_, fun _ h0 => ?_⟩
            · simp only [CState.setPc]; omega
            · simp only [CState.setPc] at h0; omega
        | stopSet b =>
          cases hs
          have a1 := hP (.stopClose b)
          simp [stopping] at a1
          simp only [Cnt, CState.setPc, a1]
          exact ⟨h1, by simp⟩
        | stopClose b =>
          simp only at hs
          split at hs <;> cases hs
          · have a1 := hP .stopAll
            have a2 := hS .stopAll
            simp [stopping, setting] at a1 a2
            simp only [Cnt, CState.setPc, a1, a2]
            exact ⟨h1, h2⟩
          · have a1 := hP (.done (.ok ()))
            have a2 := hS (.done (.ok ()))
            simp [stopping, setting] at a1 a2
            have e3 : succeeded (.stopRet (.ok ()) :: s.trace) = succeeded s.trace + 1 := by simp [succeeded]
            have e4 : startedUp (.stopRet (.ok ()) :: s.trace) = startedUp s.trace := by simp [startedUp]
            simp only [Cnt, CState.setPc, CState.log, e3, e4]
            refine ⟨by omega, fun hr h0 => ?_⟩
            have := h2 hr (by omega)
            omega
        | stopAll =>
          cases hs
          have a1 := hP (.done s.life.closeAllConnection.1)
          have a2 := hS (.done s.life.closeAllConnection.1)
          simp [stopping, setting] at a1 a2
          have e3 : succeeded (.stopRet s.life.closeAllConnection.1 :: s.trace) ≤ succeeded s.trace + 1 := by
            simp [succeeded, List.countP_cons]; split <;> omega
          have e4 : startedUp (.stopRet s.life.closeAllConnection.1 :: s.trace) = startedUp s.trace := by simp [startedUp]
          simp only [Cnt, CState.setPc, CState.log, e4, (closeAll_recs s.life).2.2.1]
          refine ⟨by omega, fun hr h0 => ?_⟩
          have := h2 hr (by omega)
          omega
        | setState n p l =>
          cases hs
          have a1 := hP (.loop n p l)
          simp [stopping] at a1
          have e3 : succeeded (.running :: s.trace) = succeeded s.trace := by simp [succeeded]
          have e4 : startedUp (.running :: s.trace) = startedUp s.trace + 1 := by simp [startedUp]
          simp only [Cnt, CState.setPc, CState.log, e3, e4, a1]
          exact ⟨by omega, fun _ _ => by omega⟩
        | accept n p l =>
          have e3 : succeeded (.accepted l :: s.trace) = succeeded s.trace := by simp [succeeded]
          have e4 : startedUp (.accepted l :: s.trace) = startedUp s.trace := by simp [startedUp]
          simp only at hs
          split at hs <;> cases hs
          · have a1 := hP (.close l)
            have a2 := hS (.close l)
            simp [stopping, setting] at a1 a2
            simp only [Cnt, CState.setPc, a1, a2]
            exact ⟨h1, h2⟩
          · have a1 := hP (.loop n p l)
            have a2 := hS (.loop n p l)
            simp [stopping, setting] at a1 a2
            simp only [Cnt, CState.setPc, CState.log, a1, a2, e3, e4]
            exact ⟨h1, h2⟩
        | startLoop rest =>
          cases rest with
          | nil =>
            cases hs
            have a1 := hP (.done (.ok ()))
            have a2 := hS (.done (.ok ()))
            simp [stopping, setting] at a1 a2
            simp only [Cnt, CState.setPc, a1, a2]
            exact ⟨h1, h2⟩
          | cons r rest =>
            cases hs
            have a1 := hP (.startLoop rest)
            have a2 := hS (.startLoop rest)
            simp [stopping, setting] at a1 a2
            have e1 : (s.threads.set i (.startLoop rest) ++ [CPc.open r.network r.port]).countP stopping = s.threads.countP stopping := by
              rw [List.countP_append, a1]; simp [stopping]
            have e2 : (s.threads.set i (.startLoop rest) ++ [CPc.open r.network r.port]).countP setting = s.threads.countP setting := by
              rw [List.countP_append, a2]; simp [setting]
            simp only [Cnt, CState.setPc, e1, e2]
            exact ⟨h1, h2⟩
        | startCheck =>
          cases hs
          have a1 := hP (if s.life.state = .running then .done (.err .other) else .startLoop s.life.recs)
          have a2 := hS (if s.life.state = .running then .done (.err .other) else .startLoop s.life.recs)
          have b1 : stopping (if s.life.state = .running then .done (.err .other) else .startLoop s.life.recs) = false := by split <;> rfl
          have b2 : setting (if s.life.state = .running then .done (.err .other) else .startLoop s.life.recs) = false := by split <;> rfl
          rw [b1] at a1; rw [b2] at a2; simp [stopping, setting] at a1 a2
          simp only [Cnt, CState.setPc, a1, a2]
          exact ⟨h1, h2⟩
        | «open» n p =>
          simp only at hs
          split at hs <;> cases hs
          · have a1 := hP (.fill n p s.next)
            have a2 := hS (.fill n p s.next)
            simp [stopping, setting] at a1 a2
            simp only [Cnt, CState.setPc, a1, a2]
            exact ⟨h1, h2⟩
          · have a1 := hP (.done (.err .io))
            have a2 := hS (.done (.err .io))
            simp [stopping, setting] at a1 a2
            simp only [Cnt, CState.setPc, a1, a2]
            exact ⟨h1, h2⟩
        | fill n p l =>
          cases hs
          have a1 := hP (.setState n p l)
          have a2 := hS (.setState n p l)
          simp [stopping, setting] at a1 a2
          simp only [Cnt, CState.setPc, a1, a2]
          exact ⟨h1, h2⟩
        | loop n p l =>
          cases hs
          have a1 := hP (if s.life.state = .stopped then .close l else .accept n p l)
          have a2 := hS (if s.life.state = .stopped then .close l else .accept n p l)
          have b1 : stopping (if s.life.state = .stopped then .close l else .accept n p l) = false := by split <;> rfl
          have b2 : setting (if s.life.state = .stopped then .close l else .accept n p l) = false := by split <;> rfl
          rw [b1] at a1; rw [b2] at a2; simp [stopping, setting] at a1 a2
          simp only [Cnt, CState.setPc, a1, a2]
          exact ⟨h1, h2⟩
        | close l =>
          cases hs
          have a1 := hP (.done (.ok ()))
          have a2 := hS (.done (.ok ()))
          simp [stopping, setting] at a1 a2
          simp only [Cnt, CState.setPc, a1, a2]
          exact ⟨h1, h2⟩
        | done r => cases hs

/-- As long as no two calls of `Stop` overlap, at most as many of them return nil as there were periods of running, whatever else
happens concurrently (missing: overlapping calls, for which it is false). -/
theorem C79_one_per_period_partial (life : Life) (h : Unstarted life) (ls : List CLabel) (hn : NoOverlap (CState.start life) ls) :
    succeeded ((CState.start life).run ls).trace ≤ startedUp ((CState.start life).run ls).trace := by
  have key : ∀ (ls : List CLabel) (s : CState), Cnt s → NoOverlap s ls → Cnt (s.run ls) := by
    intro ls
    induction ls with
    | nil => intro s hs _; exact hs
    | cons l ls ih =>
      intro s hs hn
      refine ih (s.step l) (hs.step l ?_ ?_) ?_
      · exact hn [] (l :: ls) rfl
      · exact hn [l] ls rfl
      · intro l1 l2 he
        exact hn (l :: l1) l2 (by rw [he]; rfl)
  have h0 : Cnt (CState.start life) := by
    simp [Cnt, CState.start, succeeded, startedUp, h.stopped]
  have := (key ls _ h0 hn).1
  omega

/-- Without broadcast signals no call of `Stop` panics, whatever overlaps (missing: with broadcast signals, for which it is false). -/
theorem C79_no_panic_partial (life : Life) (hs : life.withSignals = false) (ls : List CLabel) :
    .stopRet .panic ∉ ((CState.start life).run ls).trace := by
  have step : ∀ (s : CState) (lb : CLabel), s.life.withSignals = false ∧ .stopRet .panic ∉ s.trace →
      (s.step lb).life.withSignals = false ∧ .stopRet .panic ∉ (s.step lb).trace := by
    intro s lb ⟨h1, h2⟩
    cases lb with
    | begin c => simp [CState.step, CState.log, h1, h2]
    | step i ok =>
      unfold CState.step
      simp only
      cases hs : s.stepThread i ok with
      | none => exact ⟨h1, h2⟩
      | some s' =>
        simp only [Option.getD]
        unfold CState.stepThread at hs
        split at hs
        · cases hs
        · have hc : s.life.closeAllConnection.1 ≠ .panic := by
            unfold Life.closeAllConnection
            rw [h1]; split <;> simp_all
            split <;> simp
          split at hs
          all_goals first
            | (cases hs; done)
            | (cases hs; simp [CState.setPc, CState.log, h1, h2]; done)
            | (split at hs <;> cases hs <;> simp [CState.setPc, CState.log, h1, h2]; done)
            | (simp only at hs; split at hs <;> cases hs <;> simp [CState.setPc, CState.log, h1, h2]; done)
            | (cases hs
               refine ⟨by simp [CState.setPc, CState.log, (closeAll_recs s.life).2.2.2, h1], ?_⟩
               simp [CState.setPc, CState.log, h2]; exact fun hh => hc hh.symm)
  have key : ∀ (ls : List CLabel) (s : CState), s.life.withSignals = false ∧ .stopRet .panic ∉ s.trace →
      .stopRet .panic ∉ (s.run ls).trace := by
    intro ls
    induction ls with
    | nil => intro s hs; exact hs.2
    | cons l ls ih => intro s hs; exact ih _ (step s l hs)
  exact key ls _ ⟨hs, by simp [CState.start]⟩

/-- Two calls one after the other, and another listening call between them: both return nil, and no two of them overlapped. -/
example : NoOverlap (CState.start {}) [.begin (.listen "tcp" ":7171"), .step 0 true, .step 0 true, .step 0 true, .begin (.stop false),
      .step 1 true, .step 1 true, .step 1 true] := by
  intro l1 l2 h
  have : l1.length ≤ 8 := by have := congrArg List.length h; simp at this; omega
  have e : l1 = ([.begin (.listen "tcp" ":7171"), .step 0 true, .step 0 true, .step 0 true, .begin (.stop false),
      .step 1 true, .step 1 true, .step 1 true] : List CLabel).take l1.length := by rw [h]; simp
  rw [e]
  generalize l1.length = k at *
  match k with
  | 0 | 1 | 2 | 3 | 4 | 5 | 6 | 7 | 8 => decide
  | k+9 => omega

/-! ## C80 -/

/-- A listening call that has not yet entered its listener into the records when `Stop` closes the listeners goes on: the server runs
and accepts connections although `Stop` returned nil. -/
theorem C80_takes_effect_violated (life : Life) (h : Unstarted life) : ¬ StopTakesEffect life := by
  obtain ⟨h1, h2, h3⟩ := h
  intro hh
  have := hh [.begin (.listen "tcp" ":7171"), .step 0 true, .step 0 true, .step 0 true, .begin (.listen "tcp" ":7172"), .step 1 true,
    .begin (.stop false), .step 2 true, .step 2 true, .step 2 true] [.step 1 true, .step 1 true, .step 1 true, .step 1 true]
    (by simp [CState.run, CState.start, CState.step, CState.stepThread, CState.setPc, CState.log, CCall.begin, CState.inUse])
    (by intro c hc; simp at hc)
  simp [CState.run, CState.start, CState.step, CState.stepThread, CState.setPc, CState.log, CCall.begin, CState.inUse, acceptances, h2, h3,
    fillProperty, replaceListener, Life.stopsListener] at this

/-- `Stop` right after a successful `Start` may be refused with "already stopped"; the server then comes up. -/
theorem C80_refused_violated (life : Life) (h : Unstarted life) : ¬ StopNotRefused life := by
  obtain ⟨h1, h2, h3⟩ := h
  intro hh
  -- listen, stop, start (returns nil), stop (refused), then the goroutine of `Start` listens and accepts
  have := hh [.begin (.listen "tcp" ":7171"), .step 0 true, .step 0 true, .step 0 true, .begin (.stop false), .step 1 true, .step 1 true,
    .step 1 true, .step 0 true, .step 0 true, .begin .start, .step 2 true, .step 2 true, .step 2 true, .begin (.stop false), .step 4 true]
    [.step 3 true, .step 3 true, .step 3 true, .step 3 true, .step 3 true]
    (by simp [CState.run, CState.start, CState.step, CState.stepThread, CState.setPc, CState.log, CCall.begin, CState.inUse, h2, h3,
          fillProperty, replaceListener, Life.stopsListener])
    (by intro c hc; simp at hc)
  simp [CState.run, CState.start, CState.step, CState.stepThread, CState.setPc, CState.log, CCall.begin, CState.inUse, acceptances, h2, h3,
    fillProperty, replaceListener, Life.stopsListener] at this

/-- `Stop` between the two steps of a listening call leaves the server running according to its state, with nothing listening: `Start`
is then refused. -/
theorem C80_wrong_state_violated (life : Life) (h : Unstarted life) :
    ∃ ls, let s := (CState.start life).run ls
      .stopRet (.ok ()) ∈ s.trace ∧ s.life.state = .running ∧ s.life.start = .err .other ∧
      (∀ pc ∈ s.threads, ∃ r, pc = .done r) ∧ (∀ x ∈ s.bound, x.1 ∈ s.life.closed) := by
  obtain ⟨h1, h2, h3⟩ := h
  refine ⟨[.begin (.listen "tcp" ":7171"), .step 0 true, .step 0 true, .step 0 true, .begin (.listen "tcp" ":7172"), .step 1 true, .step 1 true,
    .begin (.stop false), .step 2 true, .step 2 true, .step 2 true, .step 0 true, .step 0 true, .step 1 true, .step 1 true, .step 1 true,
    .step 1 true], ?_⟩
  simp [CState.run, CState.start, CState.step, CState.stepThread, CState.setPc, CState.log, CCall.begin, CState.inUse, h2, h3,
    fillProperty, replaceListener, Life.stopsListener, Life.start]

private def serving : CPc → Option (String × Nat)
  | .loop n _ l => some (n, l)
  | .accept n _ l => some (n, l)
  | _ => none

private def isStop : CPc → Bool
  | .stopCheck _ => true
  | .stopSet _ => true
  | .stopClose _ => true
  | .stopAll => true
  | .done _ => true
  | _ => false

private def late : CPc → Bool
  | .stopClose _ => true
  | .stopAll => true
  | .done (.err _) => false
  | .done _ => true
  | _ => false

private def final : CPc → Bool
  | .stopAll => true
  | .done (.err _) => false
  | .done _ => true
  | _ => false

private def Settled (s : CState) : Prop := ∀ (j : Nat) pc, s.threads[j]? = some pc → settled pc = true

private def Shut (s : CState) : Prop := ∀ (j : Nat) pc n l, s.threads[j]? = some pc → serving pc = some (n, l) → l ∈ s.life.closed

/-- What one step can do when no call is about to bring up a listener. -/
private structure Quiet (s s' : CState) : Prop where
  settled : Settled s'
  state : s.life.state = .stopped → s'.life.state = .stopped
  closed : ∀ l ∈ s.life.closed, l ∈ s'.life.closed
  serving : ∀ (j : Nat) pc n l, s'.threads[j]? = some pc → serving pc = some (n, l) → ∃ pc', s.threads[j]? = some pc' ∧ Tcpx.serving pc' = some (n, l)
  accepts : Shut s → acceptances s'.trace = acceptances s.trace

private theorem Quiet.shut {s s' : CState} (q : Quiet s s') (h : Shut s) : Shut s' := by
  intro j pc n l hj hp
  obtain ⟨pc', h1, h2⟩ := q.serving j pc n l hj hp
  exact q.closed _ (h j pc' n l h1 h2)

/-- A step of thread `k` from `pc` to `pc'`, with a new trace and a new life. -/
private theorem Quiet.of {s : CState} {k : Nat} {pc pc' : CPc} (hs : Settled s) (hk : s.threads[k]? = some pc) (hset : Spec.settled pc' = true)
    (hsv : ∀ n l, Tcpx.serving pc' = some (n, l) → Tcpx.serving pc = some (n, l)) {life : Life} {bound : List (Nat × String × String)} {next : Nat} {tr : List CEvt}
    (h1 : s.life.state = .stopped → life.state = .stopped) (h2 : ∀ l ∈ s.life.closed, l ∈ life.closed)
    (h3 : Shut s → acceptances tr = acceptances s.trace) :
    Quiet s { life := life, threads := s.threads.set k pc', bound := bound, next := next, trace := tr } := by
  refine ⟨?_, h1, h2, ?_, h3⟩
  · intro j q hj
    rcases set_get hj with ⟨_, rfl⟩ | ⟨_, hj⟩
    · exact hset
    · exact hs j q hj
  · intro j q n l hj hq
    rcases set_get hj with ⟨rfl, rfl⟩ | ⟨_, hj⟩
    · exact ⟨pc, hk, hsv n l hq⟩
    · exact ⟨q, hj, hq⟩

private theorem quiet_step {s : CState} (hs : Settled s) (lb : CLabel) (hl : ∀ c, lb = .begin c → ∃ b, c = .stop b) : Quiet s (s.step lb) := by
  cases lb with
  | begin c =>
    obtain ⟨b, rfl⟩ := hl c rfl
    refine ⟨?_, fun h => h, fun l h => h, ?_, fun _ => by simp [CState.step, CState.log, acceptances]⟩
    · intro j q hj
      rcases append_get hj with ⟨_, rfl⟩ | hj
      · rfl
      · exact hs j q hj
    · intro j q n l hj hq
      rcases append_get hj with ⟨_, rfl⟩ | hj
      · cases hq
      · exact ⟨q, hj, hq⟩
  | step i ok =>
    unfold CState.step
    simp only
    cases hst : s.stepThread i ok with
    | none => exact ⟨hs, fun h => h, fun l h => h, fun j pc n l h1 h2 => ⟨pc, h1, h2⟩, fun _ => rfl⟩
    | some s' =>
      simp only [Option.getD]
      unfold CState.stepThread at hst
      cases hi : s.threads[i]? with
      | none => rw [hi] at hst; cases hst
      | some pc =>
        rw [hi] at hst
        have hpc := hs i pc hi
        cases pc with
        | stopCheck b =>
          simp only at hst
          split at hst <;> cases hst
          · exact Quiet.of hs hi rfl (by simp [serving]) (fun h => h) (fun l h => h) (fun _ => by simp [acceptances, CState.setPc])
          · exact Quiet.of hs hi rfl (by simp [serving]) (fun h => h) (fun l h => h) (fun _ => rfl)
        | stopSet b => cases hst; exact Quiet.of hs hi rfl (by simp [serving]) (fun _ => rfl) (fun l h => h) (fun _ => rfl)
        | stopClose b =>
          simp only at hst
          split at hst <;> cases hst
          · exact Quiet.of hs hi rfl (by simp [serving]) (fun h => h) (fun l h => List.mem_append_left _ h) (fun _ => rfl)
          · exact Quiet.of hs hi rfl (by simp [serving]) (fun h => h) (fun l h => List.mem_append_left _ h) (fun _ => by simp [acceptances, CState.setPc])
        | stopAll =>
          cases hst
          have e := closeAll_recs s.life
          exact Quiet.of hs hi rfl (by simp [serving]) (fun h => by rw [e.2.2.1]; exact h) (fun l h => by rw [e.2.1]; exact h) (fun _ => by simp [acceptances, CState.setPc])
        | startCheck => cases hpc
        | startLoop rest => cases hpc
        | «open» n p => cases hpc
        | fill n p l => cases hpc
        | setState n p l => cases hpc
        | loop n p l =>
          cases hst
          refine Quiet.of hs hi ?_ ?_ (fun h => h) (fun l h => h) (fun _ => rfl)
          · split
            · rfl
            · exact hpc
          · intro n' l' h
            split at h
            · cases h
            · exact h
        | accept n p l =>
          simp only at hst
          split at hst
          · cases hst; exact Quiet.of hs hi rfl (by simp [serving]) (fun h => h) (fun l h => h) (fun _ => rfl)
          · rename_i hc
            cases hst
            refine Quiet.of (pc' := .loop n p l) hs hi hpc (fun n' l' h => h) (fun h => h) (fun l h => h) (fun hsh => ?_)
            have : l ∈ s.life.closed := hsh i _ n l hi rfl
            simp [this] at hc
        | close l => cases hst; exact Quiet.of hs hi rfl (by simp [serving]) (fun h => h) (fun l h => List.mem_append_left _ h) (fun _ => rfl)
        | done r => cases hst

/-- The progress of the call of `Stop` in question. -/
private structure Prog (s : CState) (i : Nat) : Prop where
  settled : Settled s
  stop : ∀ pc, s.threads[i]? = some pc → isStop pc = true
  late : ∀ pc, s.threads[i]? = some pc → late pc = true → s.life.state = .stopped
  final : ∀ pc, s.threads[i]? = some pc → final pc = true → Shut s
  here : ∃ pc, s.threads[i]? = some pc

private theorem Prog.step {s : CState} {i : Nat} (h : Prog s i) (hinv : s.Inv) (lb : CLabel) (hl : ∀ c, lb = .begin c → ∃ b, c = .stop b) :
    Prog (s.step lb) i := by
  have q := quiet_step h.settled lb hl
  obtain ⟨pc, hpc⟩ := h.here
  -- the thread has not moved
  have same : (s.step lb).threads[i]? = some pc → Prog (s.step lb) i := by
    intro he
    refine ⟨q.settled, ?_, ?_, ?_, ⟨pc, he⟩⟩
    · intro pc' h'; rw [he] at h'; cases h'; exact h.stop pc hpc
    · intro pc' h' hl; rw [he] at h'; cases h'; exact q.state (h.late pc hpc hl)
    · intro pc' h' hl; rw [he] at h'; cases h'; exact q.shut (h.final pc hpc hl)
  have hlt : i < s.threads.length := (List.getElem?_eq_some_iff.1 hpc).1
  cases lb with
  | begin c =>
    refine same ?_
    have : (s.threads ++ [c.begin])[i]? = some pc := by rw [List.getElem?_append_left hlt]; exact hpc
    exact this
  | step j ok =>
    by_cases hj : j = i
    · subst hj
      have hst := h.stop pc hpc
      -- the thread has moved to `pc'`
      have moved : ∀ pc', (s.step (.step j ok)).threads[j]? = some pc' → isStop pc' = true →
          (Tcpx.late pc' = true → (s.step (.step j ok)).life.state = .stopped) → (Tcpx.final pc' = true → Shut (s.step (.step j ok))) →
          Prog (s.step (.step j ok)) j := by
        intro pc' he h1 h2 h3
        refine ⟨q.settled, ?_, ?_, ?_, ⟨pc', he⟩⟩
        · intro x hx; rw [he] at hx; cases hx; exact h1
        · intro x hx; rw [he] at hx; cases hx; exact h2
        · intro x hx; rw [he] at hx; cases hx; exact h3
      have hset : ∀ pc', (s.threads.set j pc')[j]? = some pc' := by
        intro pc'; rw [List.getElem?_set]; simp [hlt]
      cases pc with
      | stopCheck b =>
        by_cases hs : s.life.state = .stopped
        · refine moved (.done (.err .other)) ?_ rfl (by simp [Tcpx.late]) (by simp [Tcpx.final])
          simp only [CState.step, CState.stepThread, hpc, hs, if_true, Option.getD, CState.setPc, CState.log]; exact hset _
        · refine moved (.stopSet b) ?_ rfl (by simp [Tcpx.late]) (by simp [Tcpx.final])
          simp only [CState.step, CState.stepThread, hpc, hs, if_false, Option.getD, CState.setPc, CState.log]; exact hset _
      | stopSet b =>
        refine moved (.stopClose b) ?_ rfl (fun _ => ?_) (by simp [Tcpx.final])
        · simp only [CState.step, CState.stepThread, hpc, Option.getD, CState.setPc]; exact hset _
        · simp only [CState.step, CState.stepThread, hpc, Option.getD]
      | stopClose b =>
        have hlate := q.state (h.late _ hpc rfl)
        have hshut : Shut (s.step (.step j ok)) := by
          intro k pck n l hk hsv
          obtain ⟨pc', hk', hsv'⟩ := q.serving k pck n l hk hsv
          have hc : l ∈ s.life.closed ∨ ∃ p, (⟨"tcp", p, l⟩ : LRec) ∈ s.life.recs := by
            by_cases hl : l ∈ s.life.closed
            · exact .inl hl
            · have hsk := h.settled k pc' hk'
              cases pc' <;> simp [Tcpx.serving] at hsv'
              · obtain ⟨rfl, rfl⟩ := hsv'
                simp [Spec.settled] at hsk
                subst hsk
                exact .inr ⟨_, hinv.entered k _ _ _ _ hk' rfl rfl hl⟩
              · obtain ⟨rfl, rfl⟩ := hsv'
                simp [Spec.settled] at hsk
                subst hsk
                exact .inr ⟨_, hinv.entered k _ _ _ _ hk' rfl rfl hl⟩
          have hin : l ∈ s.life.closed ++ (s.life.recs.filter Life.stopsListener).map LRec.listener := by
            rcases hc with hc | ⟨p, hp⟩
            · exact List.mem_append_left _ hc
            · exact List.mem_append_right _ (List.mem_map.2 ⟨_, List.mem_filter.2 ⟨hp, by simp [Life.stopsListener]⟩, rfl⟩)
          have hcl : (s.step (.step j ok)).life.closed = s.life.closed ++ (s.life.recs.filter Life.stopsListener).map LRec.listener := by
            cases b <;> simp [CState.step, CState.stepThread, hpc, CState.setPc, CState.log]
          rw [hcl]; exact hin
        cases b
        · refine moved (.done (.ok ())) ?_ rfl (fun _ => hlate) (fun _ => hshut)
          simp only [CState.step, CState.stepThread, hpc, Option.getD, CState.setPc, CState.log]; exact hset _
        · refine moved .stopAll ?_ rfl (fun _ => hlate) (fun _ => hshut)
          simp only [CState.step, CState.stepThread, hpc, Option.getD, CState.setPc, CState.log]; exact hset _
      | stopAll =>
        refine moved (.done s.life.closeAllConnection.1) ?_ rfl (fun _ => q.state (h.late _ hpc rfl)) (fun _ => q.shut (h.final _ hpc rfl))
        simp only [CState.step, CState.stepThread, hpc, Option.getD, CState.setPc, CState.log]; exact hset _
      | done r =>
        refine same ?_
        simp [CState.step, CState.stepThread, hpc]
      | _ => cases hst
    · refine same ?_
      unfold CState.step
      simp only
      cases hs : s.stepThread j ok with
      | none => exact hpc
      | some s' =>
        simp only [Option.getD]
        have hset : ∀ pc', (s.threads.set j pc')[i]? = some pc := by
          intro pc'; rw [List.getElem?_set]; simp [hj, hpc]
        have happ : ∀ pc' x, (s.threads.set j pc' ++ [x])[i]? = some pc := by
          intro pc' x; rw [List.getElem?_append_left (by simpa using hlt)]; exact hset pc'
        unfold CState.stepThread at hs
        split at hs
        · cases hs
        · split at hs
          all_goals first
            | (cases hs; done)
            | (cases hs; exact hset _)
            | (cases hs; exact happ _ _)
            | (split at hs <;> cases hs <;> exact hset _)
            | (simp only at hs; split at hs <;> cases hs <;> exact hset _)

private theorem Prog.run {s : CState} {i : Nat} (h : Prog s i) (hinv : s.Inv) (ls : List CLabel) (hl : NoNewListening ls) : Prog (s.run ls) i := by
  induction ls generalizing s with
  | nil => exact h
  | cons l ls ih =>
    exact ih (h.step hinv l (fun c hc => hl c (by rw [hc]; exact List.mem_cons_self))) (hinv.step l) (fun c hc => hl c (List.mem_cons_of_mem _ hc))

private theorem quiet_run {s : CState} (hs : Settled s) (ls : List CLabel) (hl : NoNewListening ls) (hst : s.life.state = .stopped) (hsh : Shut s) :
    (s.run ls).life.state = .stopped ∧ acceptances (s.run ls).trace = acceptances s.trace := by
  induction ls generalizing s with
  | nil => exact ⟨hst, rfl⟩
  | cons l ls ih =>
    have q := quiet_step hs l (fun c hc => hl c (by rw [hc]; exact List.mem_cons_self))
    have := ih q.settled (fun c hc => hl c (List.mem_cons_of_mem _ hc)) (q.state hst) (q.shut hsh)
    exact ⟨this.1, this.2.trans (q.accepts hsh)⟩

/-- If, when `Stop` is called, every listening call in progress has reached its loop (on network "tcp") and no call of `Start` is in
progress, then `Stop`, once it has returned nil, has taken effect: the listeners are closed, the server stays stopped and accepts
nothing until another call that listens is begun (missing: listening calls or `Start` still on their way, for which it is false). -/
theorem C80_settled_partial (life : Life) (h : Unstarted life) (ls₀ ls ls' : List CLabel) (i : Nat) (b : Bool)
    (hi : ((CState.start life).run ls₀).threads[i]? = some (.stopCheck b))
    (hs : ∀ pc ∈ ((CState.start life).run ls₀).threads, settled pc = true)
    (hl : NoNewListening ls) (hl' : NoNewListening ls')
    (hd : (((CState.start life).run ls₀).run ls).threads[i]? = some (.done (.ok ()))) :
    let s₁ := ((CState.start life).run ls₀).run ls
    (∀ n p l, (.loop n p l ∈ s₁.threads ∨ .accept n p l ∈ s₁.threads) → l ∈ s₁.life.closed) ∧
    (s₁.run ls').life.state = .stopped ∧ acceptances (s₁.run ls').trace = acceptances s₁.trace := by
  intro s₁
  have hinv : ((CState.start life).run ls₀).Inv := CState.Inv.run (CState.Inv.start h.noRecs h.noClosed) ls₀
  have hset : Settled ((CState.start life).run ls₀) := fun j pc hj => hs pc (List.mem_of_getElem? hj)
  have p0 : Prog ((CState.start life).run ls₀) i := by
    refine ⟨hset, ?_, ?_, ?_, ⟨_, hi⟩⟩ <;> (intro pc hpc; rw [hi] at hpc; cases hpc)
    · rfl
    · simp [late]
    · simp [final]
  have p1 : Prog s₁ i := p0.run hinv ls hl
  have hst : s₁.life.state = .stopped := p1.late _ hd rfl
  have hsh : Shut s₁ := p1.final _ hd rfl
  refine ⟨?_, quiet_run p1.settled ls' hl' hst hsh⟩
  rintro n p l (hm | hm)
  · obtain ⟨j, hj⟩ := List.mem_iff_getElem?.1 hm
    exact hsh j _ n l hj rfl
  · obtain ⟨j, hj⟩ := List.mem_iff_getElem?.1 hm
    exact hsh j _ n l hj rfl

/-- Two listeners in their loops, one in `Accept`, one connection accepted; then `Stop`. -/
example :
    let ls₀ : List CLabel := [.begin (.listen "tcp" ":7171"), .step 0 true, .step 0 true, .step 0 true, .begin (.listen "tcp" ":7172"),
      .step 1 true, .step 1 true, .step 1 true, .step 0 true, .step 0 true, .step 0 true, .begin (.stop true)]
    let s := (CState.start {}).run ls₀
    s.threads[2]? = some (.stopCheck true) ∧ (∀ pc ∈ s.threads, settled pc = true) ∧ acceptances s.trace = 1 ∧
    .accept "tcp" ":7171" 0 ∈ s.threads ∧
    (s.run [.step 2 true, .step 2 true, .step 2 true, .step 2 true]).threads[2]? = some (.done (.ok ())) := by
  decide

end Tcpx
