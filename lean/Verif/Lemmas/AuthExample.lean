import Verif.Lemmas.TimedAuth
/-! # Where signals come from, and what a prompt auth watcher does after one (C86, C121) -/
namespace Tcpx
open Spec

/-- Only calls that a goroutine was to make are made. -/
structure SignalsCalled (jobs : Nat → List UCall) (s : WState) : Prop where
  rest : ∀ i u, u ∈ (s.threads i).rest → u ∈ jobs i
  auth : ∀ i c v, (s.threads i).pc = .authSend c v → .auth c v ∈ jobs i
  ret : ∀ i c v, .ret i (.auth c v) ∈ s.trace → .auth c v ∈ jobs i

theorem signals_step {cfg : WCfg} {jobs : Nat → List UCall} {s s' : WState} {l : WLabel} (h : SignalsCalled jobs s)
    (hs : s.step cfg l = some s') : SignalsCalled jobs s' := by
  obtain ⟨h1, h2, h3⟩ := h
  refine ⟨?_, ?_, ?_⟩
  · clear h2 h3
    cases l <;> wstep hs
    all_goals grind
  · clear h3
    cases l <;> wstep hs
    all_goals grind
  · clear h1
    cases l <;> wstep hs
    all_goals try simp only [List.mem_cons]
    all_goals grind

theorem signals_run (cfg : WCfg) (life : Life) (jobs : Nat → List UCall) (ls : List WLabel) :
    SignalsCalled jobs ((WState.start life jobs).run cfg ls) :=
  WState.run_induct (P := SignalsCalled jobs) (s := .start life jobs) ⟨fun _ _ h => h, fun _ _ _ h => (by cases h), fun _ _ _ h => (by cases h)⟩
    (fun _ _ _ h hs => signals_step h hs) ls

theorem firstSignal_mem {c : Nat} {v : Int} {tr : List WatchEv} (h : firstSignal c tr = some v) : ∃ i, .ret i (.auth c v) ∈ tr := by
  induction tr with
  | nil => cases h
  | cons e tr ih =>
    cases e with
    | ret i u =>
      cases u with
      | auth c' v' =>
        simp only [firstSignal] at h
        cases hf : firstSignal c tr with
        | some w =>
          rw [hf] at h
          simp only [Option.some_or, Option.some.injEq] at h
          subst h
          obtain ⟨j, hj⟩ := ih hf
          exact ⟨j, List.mem_cons_of_mem _ hj⟩
        | none =>
          rw [hf] at h
          split at h
          · next hc =>
            subst hc
            simp only [Option.none_or, Option.some.injEq] at h
            subst h
            exact ⟨i, List.mem_cons_self⟩
          · cases h
      | _ => obtain ⟨j, hj⟩ := ih h; exact ⟨j, List.mem_cons_of_mem _ hj⟩
    | _ => obtain ⟨j, hj⟩ := ih h; exact ⟨j, List.mem_cons_of_mem _ hj⟩

/-- When a prompt watcher that is about to close came there, after a signal. -/
def AuSoon (d c : Nat) (s : TState) : Prop :=
  ∀ r w, SignalAt c r s.log → (s.w.ctxs c).au = .closing w → s.auAt c ≤ r + 2 * d

theorem ausoon_step {cfg : TCfg} {d c : Nat} {s s' : TState} {l : TLabel} (hw : WInv s.w) (hp : PromptAuth cfg d c s)
    (ha : AuthOk cfg c s) (hg : SigOk cfg d c s) (h : AuSoon d c s) (hs : s.step cfg l = some s') : AuSoon d c s' := by
  rcases tstep_cases hs with ⟨d, rfl⟩ | ⟨l, w', rfl, hdue, hst, rfl⟩
  · exact h
  · clear hs hdue
    have hf := hw.fresh c
    clear hw
    have key : ∀ r, SignalAt c r s.log → (s.w.ctxs c).au = .select → s.now ≤ r + 2 * d := by
      intro r e1 e2
      obtain ⟨q1, q2⟩ := hg.sel r e1 e2
      unfold PromptAuth at hp
      rw [e2] at hp
      have hlt : c < s.w.n := Nat.lt_of_not_le fun h => hg.fresh h r e1
      obtain ⟨a, hacc⟩ := Option.isSome_iff_exists.1 (ha.known hlt)
      have q3 := (ha.wait a hacc).2.1 e2
      have q4 := hp.2 q1
      have q5 := hg.since a hacc r e1
      omega
    have hb := ha.now
    clear hp hg ha
    unfold AuSoon at h ⊢
    cases l <;> tstep hst
    all_goals try simp only [signalAt_cons, setAt]
    all_goals grind

theorem ausoon_run (cfg : TCfg) (d : Nat) (life : Life) (jobs : Nat → List UCall) (c : Nat) (ls : List TLabel)
    (hp : Throughout cfg (.start life jobs) ls (PromptAuth cfg d c)) : AuSoon d c ((TState.start life jobs).run cfg ls) := by
  refine (TState.run_induct (P := fun s => WInv s.w ∧ AuthOk cfg c s ∧ SigOk cfg d c s ∧ AuSoon d c s) hp
    ⟨winv_start life jobs, authok_run cfg life jobs c [], sigok_run cfg d life jobs c [] (fun k => ?_), ?_⟩ ?_).2.2.2
  · have := hp 0
    simpa using this
  · intro r w h
    simp [TState.start, SignalAt] at h
  · exact fun s l s' h hp _ hs => ⟨winv_tstep h.1 hs, authok_step h.1 h.2.1 hs, sigok_step h.1 h.2.1 hp h.2.2.1 hs,
      ausoon_step h.1 hp h.2.1 h.2.2.1 h.2.2.2 hs⟩

end Tcpx
