import Verif.Lemmas.TimedKeep
/-! # The auth watcher with a clock, run promptly -/
namespace Tcpx
open Spec

/-- `c` has been closed for the deadline. -/
def DeadIn (c : Nat) (log : List (Nat × WatchEv)) : Prop := ∃ t, (t, .closed c .deadline) ∈ log

/-- `r` is a time at which an auth signal for `c` was sent. -/
def SignalAt (c r : Nat) (log : List (Nat × WatchEv)) : Prop := ∃ i v, (r, .ret i (.auth c v)) ∈ log

theorem deadIn_cons (c t : Nat) (e : WatchEv) (tr : List (Nat × WatchEv)) : DeadIn c ((t, e) :: tr) ↔ e = .closed c .deadline ∨ DeadIn c tr := by
  constructor
  · rintro ⟨t', h⟩
    rcases List.mem_cons.1 h with h | h
    · exact .inl (by injection h with _ h; exact h.symm)
    · exact .inr ⟨t', h⟩
  · rintro (rfl | ⟨t', h⟩)
    · exact ⟨t, List.mem_cons_self⟩
    · exact ⟨t', List.mem_cons_of_mem _ h⟩

theorem signalAt_cons (c r t : Nat) (e : WatchEv) (tr : List (Nat × WatchEv)) :
    SignalAt c r ((t, e) :: tr) ↔ (r = t ∧ match e with | .ret _ (.auth c' _) => c' = c | _ => False) ∨ SignalAt c r tr := by
  constructor
  · rintro ⟨i, v, h⟩
    rcases List.mem_cons.1 h with h | h
    · injection h with h1 h2
      subst h2
      exact .inl ⟨h1, rfl⟩
    · exact .inr ⟨i, v, h⟩
  · rintro (⟨rfl, h⟩ | ⟨i, v, h⟩)
    · split at h
      · subst h
        exact ⟨_, _, List.mem_cons_self⟩
      · exact h.elim
    · exact ⟨i, v, List.mem_cons_of_mem _ h⟩

/-- What a prompt watcher does with signals; what is still `known` of a context not yet made. -/
structure SigOk (cfg : TCfg) (d c : Nat) (s : TState) : Prop where
  fresh : s.w.n ≤ c → ∀ r, ¬ SignalAt c r s.log
  sel : ∀ r, SignalAt c r s.log → (s.w.ctxs c).au = .select → (s.w.ctxs c).auth.isSome = true ∧ s.sgAt c ≤ r
  past : ∀ a, acceptedAt c s.log = some a → ((s.w.ctxs c).au = .closing .deadline ∨ DeadIn c s.log) → a + cfg.authDeadline ≤ s.now
  dead : ∀ r a, SignalAt c r s.log → acceptedAt c s.log = some a → ((s.w.ctxs c).au = .closing .deadline ∨ DeadIn c s.log) →
    a + cfg.authDeadline ≤ r + 2 * d
  none : s.w.n ≤ c → ¬ DeadIn c s.log
  since : ∀ a, acceptedAt c s.log = some a → ∀ r, SignalAt c r s.log → a ≤ r

set_option maxHeartbeats 2000000 in
theorem sigok_step {cfg : TCfg} {d c : Nat} {s s' : TState} {l : TLabel} (hw : WInv s.w) (ha : AuthOk cfg c s) (hp : PromptAuth cfg d c s)
    (h : SigOk cfg d c s) (hs : s.step cfg l = some s') : SigOk cfg d c s' := by
  obtain ⟨h1, h2, h3, h4, h5, h6⟩ := h
  rcases tstep_cases hs with ⟨d, rfl⟩ | ⟨a, w', rfl, hdue, hst, rfl⟩
  · exact ⟨h1, h2, fun a e k => Nat.le_trans (h3 a e k) (Nat.le_add_right _ _), h4, h5, h6⟩
  · clear hs
    have hthr : ∀ i c v, (s.w.threads i).pc = .authSend c v → c < s.w.n := fun i c v h => hw.thr i c (by rw [h]; rfl)
    have hthr2 : ∀ i c, (s.w.threads i).pc = .closing c → c < s.w.n := fun i c h => hw.thr i c (by rw [h]; rfl)
    have hau := hw.au c
    have hhb := hw.hb c
    have hf := hw.fresh c
    obtain ⟨k1, k2, k3, k4⟩ := ha
    clear hw k4
    refine ⟨?_, ?_, ?_, ?_, ?_, ?_⟩
    · clear h2 h3 h4 h5 h6 k1 k2 k3 hau hhb hf hp hdue
      cases a <;> tstep hst
      all_goals try simp only [signalAt_cons]
      all_goals grind
    · clear h3 h4 h5 h6 k1 k2 k3 hau hhb hf hp hdue hthr2
      cases a <;> tstep hst
      all_goals try simp only [signalAt_cons]
      all_goals grind
    · clear h1 h2 h4 h6 hp hau hthr
      cases hacc : acceptedAt c s.log <;> rw [hacc] at h3 k2 k3 <;> simp only [reduceCtorEq, Option.some.injEq, forall_eq', false_imp_iff, implies_true, Option.isSome_none, Option.isSome_some, Bool.false_eq_true, imp_false] at h3 k2 k3
      all_goals cases a with
      | au c' x =>
        simp only [TState.due] at hdue
        tstep hst
        all_goals try simp only [acceptedAt, deadIn_cons, hacc]
        all_goals grind
      | _ =>
        clear hdue
        tstep hst
        all_goals try simp only [acceptedAt, deadIn_cons, hacc]
        all_goals grind
    · have key : ∀ r a, SignalAt c r s.log → acceptedAt c s.log = some a → (s.w.ctxs c).au = .select →
          s.auAt c + cfg.authDeadline ≤ s.now → a + cfg.authDeadline ≤ r + 2 * d := by
        intro r a e1 e2 e3 e4
        obtain ⟨q1, q2⟩ := h2 r e1 e3
        unfold PromptAuth at hp
        rw [e3] at hp
        have q3 := (k3 a e2).2.1 e3
        have q4 := hp.2 q1
        have q5 := h6 a e2 r e1
        omega
      clear h2 h6 hp hau k1 k3
      have h4' : ∀ a, acceptedAt c s.log = some a → ∀ r, SignalAt c r s.log → ((s.w.ctxs c).au = .closing .deadline ∨ DeadIn c s.log) →
          a + cfg.authDeadline ≤ r + 2 * d := fun a e r q => h4 r a q e
      have key' : ∀ a, acceptedAt c s.log = some a → ∀ r, SignalAt c r s.log → (s.w.ctxs c).au = .select →
          s.auAt c + cfg.authDeadline ≤ s.now → a + cfg.authDeadline ≤ r + 2 * d := fun a e r q => key r a q e
      clear key h4
      cases hacc : acceptedAt c s.log <;> rw [hacc] at h3 k2 h4' key' <;> simp only [reduceCtorEq, Option.some.injEq, forall_eq', false_imp_iff, implies_true, Option.isSome_none, Option.isSome_some, Bool.false_eq_true, imp_false] at h3 k2 h4' key'
      all_goals cases a with
      | au c' x =>
        simp only [TState.due] at hdue
        tstep hst
        all_goals try simp only [acceptedAt, deadIn_cons, signalAt_cons, hacc]
        all_goals grind
      | _ =>
        clear hdue key'
        tstep hst
        all_goals try simp only [acceptedAt, deadIn_cons, signalAt_cons, hacc]
        all_goals grind
    · clear h1 h2 h3 h4 h6 hp k1 k2 k3 hdue hau hhb
      cases a <;> tstep hst
      all_goals try simp only [deadIn_cons]
      all_goals grind
    · clear h2 h3 h4 h5 k1 hp hdue hau hhb hthr2 k2
      have k3 : ∀ a, acceptedAt c s.log = some a → a ≤ s.now := fun a e => (k3 a e).1
      cases hacc : acceptedAt c s.log <;> rw [hacc] at k3 h6 <;> simp only [reduceCtorEq, Option.some.injEq, forall_eq', false_imp_iff, implies_true] at k3 h6
      all_goals cases a <;> tstep hst
      all_goals try simp only [acceptedAt, signalAt_cons, hacc]
      all_goals grind

theorem sigok_run (cfg : TCfg) (d : Nat) (life : Life) (jobs : Nat → List UCall) (c : Nat) (ls : List TLabel)
    (hp : Throughout cfg (.start life jobs) ls (PromptAuth cfg d c)) : SigOk cfg d c ((TState.start life jobs).run cfg ls) := by
  refine (TState.run_induct (P := fun s => WInv s.w ∧ AuthOk cfg c s ∧ SigOk cfg d c s) hp ⟨winv_start life jobs, ?_, ?_⟩ ?_).2.2
  · exact ⟨Nat.le_refl _, fun h => absurd h (Nat.not_lt_zero _), fun h e => (by cases e), atEachT_nil _ _⟩
  · refine ⟨?_, ?_, ?_, ?_, ?_, ?_⟩ <;> simp [TState.start, SignalAt, DeadIn, acceptedAt]
  · exact fun s l s' h hp _ hs => ⟨winv_tstep h.1 hs, authok_step h.1 h.2.1 hs, sigok_step h.1 h.2.1 hp h.2.2 hs⟩

/-- Only contexts that exist have been announced. -/
theorem newConn_lt {cfg : WCfg} {life : Life} {jobs : Nat → List UCall} {ls : List WLabel} {c : Nat}
    (h : .newConn c ∈ ((WState.start life jobs).run cfg ls).trace) : c < ((WState.start life jobs).run cfg ls).n := by
  revert h
  refine WState.run_induct (P := fun s => .newConn c ∈ s.trace → c < s.n) (s := .start life jobs) (by simp [WState.start]) ?_ ls
  intro s l s' h hs
  cases l <;> wstep hs
  all_goals try simp only [List.mem_cons]
  all_goals grind

/-! ## What ends an auth watcher -/

/-- `c` has been let in. -/
def LetIn (c : Nat) (tr : List WatchEv) : Prop := ∃ v, 0 ≤ v ∧ .authTaken c v ∈ tr

theorem letIn_cons (c : Nat) (e : WatchEv) (tr : List WatchEv) :
    LetIn c (e :: tr) ↔ (match e with | .authTaken c' v => c' = c ∧ 0 ≤ v | _ => False) ∨ LetIn c tr := by
  constructor
  · rintro ⟨v, hv, h⟩
    rcases List.mem_cons.1 h with rfl | h
    · exact .inl ⟨rfl, hv⟩
    · exact .inr ⟨v, hv, h⟩
  · rintro (h | ⟨v, hv, h⟩)
    · split at h
      · obtain ⟨rfl, hv⟩ := h
        exact ⟨_, hv, List.mem_cons_self⟩
      · exact h.elim
    · exact ⟨v, hv, List.mem_cons_of_mem _ h⟩

/-- Until it ends, an auth watcher is in its `select` or about to close; it ends when the connection is closed or let in. -/
structure AuEnd (c : Nat) (s : WState) : Prop where
  lt : c < s.n
  on : (s.ctxs c).au ≠ .off
  closed : (s.ctxs c).endClosed = true → IsClosed c s.trace
  ended : (s.ctxs c).au = .ended → IsClosed c s.trace ∨ LetIn c s.trace

theorem auend_step {cfg : WCfg} {c : Nat} {s s' : WState} {l : WLabel} (h : AuEnd c s) (hs : s.step cfg l = some s') : AuEnd c s' := by
  obtain ⟨h1, h2, h3, h4⟩ := h
  refine ⟨?_, ?_, ?_, ?_⟩
  · clear h2 h3 h4
    cases l <;> wstep hs
    all_goals grind
  · clear h3 h4
    cases l <;> wstep hs
    all_goals grind
  · clear h2 h4
    cases l <;> wstep hs
    all_goals simp only [isClosed_cons]
    all_goals grind
  · clear h2
    cases l <;> wstep hs
    all_goals simp only [isClosed_cons, letIn_cons]
    all_goals grind

/-- When a prompt watcher came to where it stands. -/
structure AuUp (cfg : TCfg) (d c : Nat) (s : TState) : Prop where
  sel : ∀ a, acceptedAt c s.log = some a → (s.w.ctxs c).au = .select → s.auAt c = a
  closing : ∀ a w, acceptedAt c s.log = some a → (s.w.ctxs c).au = .closing w → s.auAt c ≤ a + cfg.authDeadline + 2 * d

theorem auup_step {cfg : TCfg} {d c : Nat} {s s' : TState} {l : TLabel} (hw : WInv s.w) (hp : PromptAuth cfg d c s)
    (h : AuUp cfg d c s) (hs : s.step cfg l = some s') : AuUp cfg d c s' := by
  obtain ⟨h1, h2⟩ := h
  rcases tstep_cases hs with ⟨d, rfl⟩ | ⟨a, w', rfl, hdue, hst, rfl⟩
  · exact ⟨h1, h2⟩
  · clear hs hdue
    have hf := hw.fresh c
    clear hw
    have key : ∀ a, acceptedAt c s.log = some a → (s.w.ctxs c).au = .select → s.now ≤ a + cfg.authDeadline + 2 * d := by
      intro a e1 e2
      unfold PromptAuth at hp
      rw [e2] at hp
      have := h1 a e1 e2
      have := hp.1
      omega
    refine ⟨?_, ?_⟩
    · clear h2 key
      cases a <;> tstep hst
      all_goals try simp only [acceptedAt, setAt]
      all_goals grind
    · clear hp h1
      cases a <;> tstep hst
      all_goals try simp only [acceptedAt, setAt]
      all_goals grind

end Tcpx
