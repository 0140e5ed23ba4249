import Verif.Lemmas.Watch
/-! # Lemmas about authorisation, closing and the broadcast signal -/
namespace Tcpx
open Spec

/-! ## Authorisation (C53, C54) -/

/-- What holds of the auth watcher of `c`: where it stands, what is in the channel, the first signal sent, what it took, whether its
deadline passed, the closes for either reason, and the number of signals sent. -/
structure AuOk (cfg : WCfg) (c : Nat) (s : WState) : Prop where
  taken : ∀ v, .authTaken c v ∈ s.trace → firstSignal c s.trace = some v ∧ .deadline c ∉ s.trace ∧
    (if v ≥ 0 then (s.ctxs c).au = .ended else (s.ctxs c).au = .closing .denied ∨ (s.ctxs c).au = .ended ∧ .closed c .denied ∈ s.trace)
  late : .deadline c ∈ s.trace → (s.ctxs c).au = .closing .deadline ∨ (s.ctxs c).au = .ended ∧ .closed c .deadline ∈ s.trace
  waiting : (s.ctxs c).au = .select ∨ (s.ctxs c).au = .off → (∀ v, .authTaken c v ∉ s.trace) ∧ .deadline c ∉ s.trace
  closingD : (s.ctxs c).au = .closing .denied → ∃ v, v < 0 ∧ .authTaken c v ∈ s.trace
  closingL : (s.ctxs c).au = .closing .deadline → .deadline c ∈ s.trace
  closedD : .closed c .denied ∈ s.trace → ∃ v, v < 0 ∧ .authTaken c v ∈ s.trace
  closedL : .closed c .deadline ∈ s.trace → .deadline c ∈ s.trace
  first : (∀ v, .authTaken c v ∉ s.trace) → (s.ctxs c).auth = firstSignal c s.trace
  fresh : s.n ≤ c → firstSignal c s.trace = none

set_option maxHeartbeats 2000000 in
theorem auok_step {cfg : WCfg} {s s' : WState} {l : WLabel} {c : Nat} (hw : WInv s) (h : AuOk cfg c s)
    (hs : s.step cfg l = some s') : AuOk cfg c s' := by
  obtain ⟨h1, h2, h3, h4⟩ := hw
  obtain ⟨g1, g2, g3, g4, g5, g6, g7, g8, g9⟩ := h
  have k2 : ∀ i c v, (s.threads i).pc = .authSend c v → c < s.n := fun i c v h => h4 i c (by rw [h]; rfl)
  clear h4
  refine ⟨?_, ?_, ?_, ?_, ?_, ?_, ?_, ?_, ?_⟩
  · clear g2 g6 g7 k2 h2 h3
    cases l <;> wstep hs
    all_goals simp only [List.mem_cons, firstSignal]
    all_goals grind
  · clear g1 g4 g6 g7 g8 g9 k2 h2 h3
    cases l <;> wstep hs
    all_goals simp only [List.mem_cons]
    all_goals grind
  · clear g4 g6 g7 g8 g9 k2 h2 h3
    cases l <;> wstep hs
    all_goals simp only [List.mem_cons]
    all_goals grind
  · clear g2 g6 g7 g8 g9 k2 h2 h3
    cases l <;> wstep hs
    all_goals simp only [List.mem_cons]
    all_goals grind
  · clear g4 g6 g8 g9 k2 h2 h3
    cases l <;> wstep hs
    all_goals simp only [List.mem_cons]
    all_goals grind
  · clear g2 g5 g7 g8 g9 k2
    cases l <;> wstep hs
    all_goals simp only [List.mem_cons]
    all_goals grind
  · clear g1 g4 g6 g8 g9 k2
    cases l <;> wstep hs
    all_goals simp only [List.mem_cons]
    all_goals grind
  · clear g2 g4 g5 g6 g7 h2 h3
    cases l <;> wstep hs
    all_goals simp only [List.mem_cons, firstSignal]
    all_goals grind
  · clear g1 g2 g3 g4 g5 g6 g7 g8 h2 h3
    cases l <;> wstep hs
    all_goals simp only [firstSignal]
    all_goals grind

theorem auok_run (cfg : WCfg) (life : Life) (jobs : Nat → List UCall) (c : Nat) (ls : List WLabel) :
    AuOk cfg c ((WState.start life jobs).run cfg ls) := by
  have : WInv ((WState.start life jobs).run cfg ls) ∧ AuOk cfg c ((WState.start life jobs).run cfg ls) := by
    refine WState.run_induct (P := fun s => WInv s ∧ AuOk cfg c s) ⟨winv_start life jobs, ?_⟩ ?_ ls
    · refine ⟨?_, ?_, ?_, ?_, ?_, ?_, ?_, ?_, ?_⟩ <;> simp [WState.start, firstSignal]
    · exact fun s l s' h hs => ⟨winv_step h.1 hs, auok_step h.1 h.2 hs⟩
  exact this.2

/-- Signals that returned are in the channel or were taken. -/
def RetOk (cfg : WCfg) (c : Nat) (s : WState) : Prop :=
  authReturns c s.trace ≤
    (if (s.ctxs c).auth.isSome then 1 else 0) + (if (s.ctxs c).au = .off ∨ (s.ctxs c).au = .select then 0 else 1) ∧
  (cfg.auth = false → (s.ctxs c).au = .off)

theorem retok_step {cfg : WCfg} {s s' : WState} {l : WLabel} {c : Nat} (hw : WInv s) (h : RetOk cfg c s)
    (hs : s.step cfg l = some s') : RetOk cfg c s' := by
  obtain ⟨h1, h2, h3, h4⟩ := hw
  obtain ⟨g1, g2⟩ := h
  clear h2 h3 h4
  refine ⟨?_, ?_⟩
  · clear g2
    cases l <;> wstep hs
    all_goals simp only [authReturns]
    all_goals grind
  · clear g1
    cases l <;> wstep hs
    all_goals grind

theorem retok_run (cfg : WCfg) (life : Life) (jobs : Nat → List UCall) (c : Nat) (ls : List WLabel) :
    RetOk cfg c ((WState.start life jobs).run cfg ls) := by
  have : WInv ((WState.start life jobs).run cfg ls) ∧ RetOk cfg c ((WState.start life jobs).run cfg ls) := by
    refine WState.run_induct (P := fun s => WInv s ∧ RetOk cfg c s) ⟨winv_start life jobs, ?_⟩ ?_ ls
    · simp [RetOk, WState.start, authReturns]
    · exact fun s l s' h hs => ⟨winv_step h.1 hs, retok_step h.1 h.2 hs⟩
  exact this.2

end Tcpx
