import Verif.Lemmas.SessionTime
/-! # Lemmas about the end of the goroutine of a connection -/
namespace Tcpx
open Spec

/-- What the goroutine of `c` has still to do when its loop is over, if `OnClose` does nothing to connections. -/
def TailOk (c : Nat) (s : SState) : Prop :=
  ∀ k, s.loops c = .last k → k < s.next ∧
    (s.t.w.threads k = ⟨.idle, [.close c]⟩ ∨ s.t.w.threads k = ⟨.closing c, []⟩ ∨ ShutIn c s.ev)

theorem tail_user {cfg : TCfg} {t t' : TState} {k c : Nat} (hs : t.step cfg (.act (.user k)) = some t') :
    (t.w.threads k = ⟨.idle, [.close c]⟩ → t'.w.threads k = ⟨.closing c, []⟩) ∧
    (t.w.threads k = ⟨.closing c, []⟩ → ∃ why, .closed c why ∈ newEvents t.w t'.w) := by
  simp only [TState.step, TState.due, if_true, WState.step, Option.map_eq_some_iff] at hs
  obtain ⟨w', hw, rfl⟩ := hs
  refine ⟨fun h => ?_, fun h => ?_⟩
  · simp only [userStep, h] at hw
    split at hw
    · simp only [Option.some.injEq] at hw
      subst hw
      simp [TState.after, WState.log, WState.setThread]
    · cases hw
  · simp only [userStep, h, Option.some.injEq] at hw
    subst hw
    refine ⟨.user, ?_⟩
    show _ ∈ newEvents t.w _
    rw [newEvents_append (es := [.ret k (.close c), .closed c .user]) _ _ rfl]
    simp

theorem tailok_step {cfg : SCfg} {c : Nat} (hcb : ∀ f, cfg.onClose = some f → f c = []) {s s' : SState} {l : SLabel}
    (h : TailOk c s) (hs : s.step cfg l = some s') : TailOk c s' := by
  cases l with
  | base a =>
    rcases sstep_cases hs with ⟨a', t', ha, ht, e1, e2, -, ib, hu, ev, hl⟩ | ⟨j, hl, -⟩ | ⟨hl, -⟩
    · intro k hk
      have hk' : s.loops c = .last k := by
        rcases hl with ⟨-, hl, -⟩ | ⟨-, hl, -⟩
        · rw [hl] at hk
          simp only [SState.setLoop] at hk
          split at hk
          · cases hk
          · exact hk
        · rw [hl] at hk; exact hk
      obtain ⟨h0, h1⟩ := h k hk'
      refine ⟨by simp only [SState.next, e2]; exact h0, ?_⟩
      rw [e1, ev]
      by_cases hu : a' = .act (.user k)
      · subst hu
        obtain ⟨u1, u2⟩ := tail_user (c := c) ht
        rcases h1 with h1 | h1 | h1
        · exact .inr (.inl (u1 h1))
        · obtain ⟨w, hw⟩ := u2 h1
          exact .inr (.inr ⟨s.t.now, w, List.mem_append_left _ (List.mem_map.2 ⟨_, hw, rfl⟩)⟩)
        · exact .inr (.inr (shutIn_append _ h1))
      · rw [threads_step ht k hu]
        rcases h1 with h1 | h1 | h1
        · exact .inl h1
        · exact .inr (.inl h1)
        · exact .inr (.inr (shutIn_append _ h1))
    · exact absurd rfl (hl a)
    · exact absurd rfl (hl a)
  | arrive c' m =>
    lstep hs
    intro k hk
    obtain ⟨h0, h1⟩ := h k hk
    exact ⟨h0, h1.imp id (Or.imp id (shutIn_append [_]))⟩
  | hangup c' =>
    lstep hs
    intro k hk
    obtain ⟨h0, h1⟩ := h k hk
    exact ⟨h0, h1.imp id (Or.imp id (shutIn_append [_]))⟩
  | reset c' =>
    lstep hs
    intro k hk
    obtain ⟨h0, h1⟩ := h k hk
    exact ⟨h0, h1.imp id (Or.imp id (shutIn_append [_]))⟩
  | loop c' x =>
    by_cases hc : c = c'
    · subst hc
      cases hl : s.loops c with
      | off => simp only [SState.step, SState.loopStep, hl] at hs; cases hs
      | last k => simp only [SState.step, SState.loopStep, hl] at hs; cases x <;> cases hs
      | read =>
        intro k hk
        exfalso
        lstep hs
        all_goals simp_all
        all_goals (split at hk <;> cases hk)
      | go m =>
        intro k hk
        exfalso
        lstep hs
        all_goals simp_all
      | leaving =>
        cases x with
        | fail => simp only [SState.step, SState.loopStep, hl] at hs; cases hs
        | go =>
          intro k hk
          simp only [SState.step, SState.loopStep, hl] at hs
          split at hs
          all_goals
            simp only [Option.some.injEq] at hs
            subst hs
            simp only [SState.log, SState.setLoop, SState.spawn, if_true, LPc.last.injEq] at hk
            subst hk
            refine ⟨by simp only [SState.next, SState.log, SState.setLoop, SState.spawn, List.length_append, List.length_cons]; omega, .inl ?_⟩
          · simp [SState.setLoop, SState.spawn, WState.setThread]
          · rename_i f hf
            simp [SState.log, SState.setLoop, SState.spawn, WState.setThread, hcb f hf]
    · intro k hk
      have h1 : s'.loops c = s.loops c ∧ s.next ≤ s'.next ∧ (∀ k, k < s.next → s'.t.w.threads k = s.t.w.threads k) ∧
          (ShutIn c s.ev → ShutIn c s'.ev) := by
        lstep hs
        all_goals refine ⟨by simp [hc], by simp only [SState.next, List.length_append, List.length_cons, List.length_nil]; omega, ?_, ?_⟩
        all_goals first
          | exact shutIn_append [_]
          | exact id
          | (intro k hk; rfl)
          | (intro k hk; simp only [WState.setThread]; rw [if_neg (by omega)])
      obtain ⟨i1, i2, i3, i4⟩ := h1
      rw [i1] at hk
      obtain ⟨h0, h1⟩ := h k hk
      rw [i3 k h0]
      exact ⟨by omega, h1.imp id (Or.imp id i4)⟩

theorem tailok_run (cfg : SCfg) (c : Nat) (hcb : ∀ f, cfg.onClose = some f → f c = []) (life : Life) (jobs : Nat → List UCall)
    (ls : List SLabel) : TailOk c (srun cfg life jobs ls) :=
  SState.run_induct (sthroughout_true _ _ _) (fun k h => by cases h) fun _ _ _ h _ _ hs => tailok_step hcb h hs

theorem hungok_run (cfg : SCfg) (d c : Nat) (life : Life) (jobs : Nat → List UCall) (ls : List SLabel)
    (hp : SThroughout cfg (.start life jobs) ls (PromptLoop d c)) : HungOk d c (srun cfg life jobs ls) :=
  (SState.run_induct (P := fun s => (SOk s ∧ PastOk c s) ∧ HungOk d c s) hp
    ⟨⟨sok_start life jobs, pastok_start c life jobs⟩, fun _ => rfl, fun t h => (by cases h)⟩
    fun _ _ _ h hp _ hs => ⟨⟨sok_step h.1.1 hs, pastok_step h.1.2 hs⟩, hungok_step h.1.1 h.1.2 hp h.2 hs⟩).2

theorem pastok_run (cfg : SCfg) (c : Nat) (life : Life) (jobs : Nat → List UCall) (ls : List SLabel) : PastOk c (srun cfg life jobs ls) :=
  SState.run_induct (sthroughout_true _ _ _) (pastok_start c life jobs) fun _ _ _ h _ _ hs => pastok_step h hs

/-- Nothing that happened is forgotten. -/
theorem ev_step {cfg : SCfg} {s s' : SState} {l : SLabel} (hs : s.step cfg l = some s') : ∃ es, s'.ev = es ++ s.ev := by
  cases l with
  | base a =>
    rcases sstep_cases hs with ⟨a', t', -, -, -, -, -, -, -, ev, -⟩ | ⟨j, hl, -⟩ | ⟨hl, -⟩
    · exact ⟨_, ev⟩
    · exact absurd rfl (hl a)
    · exact absurd rfl (hl a)
  | arrive c' m => lstep hs; exact ⟨[_], rfl⟩
  | hangup c' => lstep hs; exact ⟨[_], rfl⟩
  | reset c' => lstep hs; exact ⟨[_], rfl⟩
  | loop c' x =>
    lstep hs
    all_goals first
      | exact ⟨[], rfl⟩
      | exact ⟨[_], rfl⟩

/-- A connection once served goes on being served, or has been. -/
theorem loops_step {cfg : SCfg} {c : Nat} {s s' : SState} {l : SLabel} (hoff : s.loops c ≠ .off)
    (hs : s.step cfg l = some s') : s'.loops c ≠ .off := by
  cases l with
  | base a =>
    rcases sstep_cases hs with ⟨a', t', -, -, -, -, -, -, -, -, hl⟩ | ⟨j, hl, -⟩ | ⟨hl, -⟩
    · rcases hl with ⟨-, hl, -⟩ | ⟨-, hl, -⟩
      · rw [hl]
        simp only [SState.setLoop]
        split
        · simp
        · exact hoff
      · rw [hl]; exact hoff
    · exact absurd rfl (hl a)
    · exact absurd rfl (hl a)
  | arrive c' m => lstep hs; exact hoff
  | hangup c' => lstep hs; exact hoff
  | reset c' => lstep hs; exact hoff
  | loop c' x =>
    lstep hs
    all_goals (simp only; split)
    all_goals first
      | exact hoff
      | simp
      | (split <;> simp)

/-- A TCP connection is served, and was accepted when it was. -/
theorem served (cfg : SCfg) (life : Life) (jobs : Nat → List UCall) (ls ls' : List SLabel) :
    (srun cfg life jobs (ls ++ .base (.act (.accept .tcp)) :: ls')).loops (srun cfg life jobs ls).t.w.n ≠ .off := by
  rw [srun, SState.run_append]
  refine SState.run_induct (s := (((SState.start life jobs).run cfg ls).step cfg (.base (.act (.accept .tcp)))).getD _)
    (P := fun s => s.loops ((SState.start life jobs).run cfg ls).t.w.n ≠ .off) (sthroughout_true _ _ _) ?_ fun _ _ _ h _ _ hs => loops_step h hs
  simp [SState.step, TState.step, TState.due, WState.step, SState.setLoop]

/-- The state in which a connection was first closed. -/
theorem shutAt_state (cfg : SCfg) (life : Life) (jobs : Nat → List UCall) (c t : Nat) (ls : List SLabel)
    (h : shutAt c (srun cfg life jobs ls).ev = some t) :
    ∃ k, ¬ ShutIn c (srun cfg life jobs (ls.take k)).ev ∧ (srun cfg life jobs (ls.take k)).t.now = t ∧
      ∃ es, (srun cfg life jobs ls).ev = es ++ (srun cfg life jobs (ls.take k)).ev := by
  suffices hk : ∀ n, n ≤ ls.length → shutAt c (srun cfg life jobs (ls.take n)).ev = some t →
      ∃ k, ¬ ShutIn c (srun cfg life jobs (ls.take k)).ev ∧ (srun cfg life jobs (ls.take k)).t.now = t ∧
        ∃ es, (srun cfg life jobs (ls.take n)).ev = es ++ (srun cfg life jobs (ls.take k)).ev by
    have := hk ls.length (Nat.le_refl _)
    rw [List.take_of_length_le (Nat.le_refl _)] at this
    exact this h
  clear h
  intro n
  induction n with
  | zero => intro _ h; cases h
  | succ n ih =>
    intro hn h
    have hlt : n < ls.length := hn
    have e : ls.take (n + 1) = ls.take n ++ [ls[n]] := by rw [List.take_succ_eq_append_getElem hlt]
    have e' : srun cfg life jobs (ls.take (n + 1)) =
        ((srun cfg life jobs (ls.take n)).step cfg ls[n]).getD (srun cfg life jobs (ls.take n)) := by
      rw [e, srun, SState.run_append]; rfl
    rw [e'] at h ⊢
    cases hs : (srun cfg life jobs (ls.take n)).step cfg ls[n] with
    | none =>
      rw [hs] at h
      exact ih (by omega) h
    | some s' =>
      rw [hs] at h
      simp only [Option.getD_some] at h ⊢
      obtain ⟨es, hes⟩ := ev_step hs
      have hback : shutAt c s'.ev = some t → shutAt c (srun cfg life jobs (ls.take n)).ev = some t ∨
          shutAt c (srun cfg life jobs (ls.take n)).ev = none ∧ (srun cfg life jobs (ls.take n)).t.now = t := by
        intro h
        cases hl : ls[n] with
        | base a =>
          rw [hl] at hs
          rcases sstep_cases hs with ⟨a', t', -, -, -, -, -, -, -, ev, -⟩ | ⟨j, hl, -⟩ | ⟨hl, -⟩
          · rw [ev] at h
            exact ((shutAt_w c _ _ _).2 t h).imp id fun h => ⟨h.1, h.2.symm⟩
          · exact absurd rfl (hl a)
          · exact absurd rfl (hl a)
        | arrive c' m => rw [hl] at hs; left; lstep hs; exact h
        | hangup c' => rw [hl] at hs; left; lstep hs; exact h
        | reset c' => rw [hl] at hs; left; lstep hs; exact h
        | loop c' x => rw [hl] at hs; left; lstep hs; all_goals exact h
      rcases hback h with h0 | ⟨h0, hnow⟩
      · obtain ⟨k, k1, k2, es', k3⟩ := ih (by omega) h0
        exact ⟨k, k1, k2, es ++ es', by rw [hes, k3, List.append_assoc]⟩
      · exact ⟨n, (shutAt_none _ _).1 h0, hnow, es, hes⟩

end Tcpx
