import Verif.Lemmas.SessionLoop
/-! # Lemmas about how long the goroutine of a connection goes on -/
namespace Tcpx
open Spec

theorem shutIn_append {c : Nat} {ev : List (Nat × SEv)} (es : List (Nat × SEv)) (h : ShutIn c ev) : ShutIn c (es ++ ev) := by
  obtain ⟨t, w, h⟩ := h
  exact ⟨t, w, List.mem_append_right _ h⟩

theorem shutAt_none (c : Nat) (ev : List (Nat × SEv)) : shutAt c ev = none ↔ ¬ ShutIn c ev := by
  induction ev with
  | nil => simp [shutAt, ShutIn]
  | cons x ev ih =>
    obtain ⟨u, x⟩ := x
    simp only [ShutIn] at ih ⊢
    cases x with
    | w e =>
      cases e with
      | closed c' w' =>
        simp only [shutAt]
        by_cases hc : c' = c
        · subst hc
          rw [if_pos rfl]
          simp only [Option.or_eq_none_iff, reduceCtorEq, and_false, List.mem_cons, false_iff, Classical.not_not]
          exact ⟨u, w', .inl rfl⟩
        · simp only [if_neg hc, Option.or_none, ih, List.mem_cons]
          constructor
          · rintro h ⟨t, w, h1 | h1⟩
            · cases h1; exact hc rfl
            · exact h ⟨t, w, h1⟩
          · rintro h ⟨t, w, h1⟩; exact h ⟨t, w, .inr h1⟩
      | _ => simpa [shutAt] using ih
    | _ => simpa [shutAt] using ih

/-- Once a connection has been closed the time does not change; if it is closed now, the time is now. -/
theorem shutAt_w (c : Nat) (es : List WatchEv) (now : Nat) (ev : List (Nat × SEv)) :
    (∀ t, shutAt c ev = some t → shutAt c (es.map (fun e => (now, .w e)) ++ ev) = some t) ∧
    (∀ t, shutAt c (es.map (fun e => (now, .w e)) ++ ev) = some t → shutAt c ev = some t ∨ shutAt c ev = none ∧ t = now) := by
  induction es with
  | nil => exact ⟨fun t h => h, fun t h => .inl h⟩
  | cons e es ih =>
    obtain ⟨h1, h2⟩ := ih
    rw [List.map_cons, List.cons_append]
    cases e with
    | closed c' w' =>
      simp only [shutAt]
      refine ⟨fun t h => by rw [h1 t h]; rfl, fun t h => ?_⟩
      cases hs : shutAt c (es.map (fun e => (now, SEv.w e)) ++ ev) with
      | some u => rw [hs] at h; simp only [Option.some_or, Option.some.injEq] at h; subst h; exact h2 u hs
      | none =>
        rw [hs] at h
        simp only [Option.none_or] at h
        split at h
        · simp only [Option.some.injEq] at h
          refine .inr ⟨?_, h.symm⟩
          cases hev : shutAt c ev with
          | none => rfl
          | some v => rw [h1 v hev] at hs; cases hs
        · cases h
    | _ => exact ⟨h1, h2⟩

theorem now_tstep {cfg : TCfg} {t t' : TState} {a : TLabel} (hs : t.step cfg a = some t') :
    (∃ d, a = .delay d ∧ t' = { t with now := t.now + d }) ∨ t'.now = t.now := by
  cases a with
  | delay d => simp only [TState.step, Option.some.injEq] at hs; exact .inl ⟨d, rfl, hs.symm⟩
  | act a =>
    rcases tstep_cases hs with ⟨d, rfl⟩ | ⟨a, w', -, -, -, rfl⟩
    · right
      simp only [TState.step] at hs
      split at hs
      · simp only [Option.map_eq_some_iff] at hs
        obtain ⟨w', -, h⟩ := hs
        rw [← h]; rfl
      · cases hs
    · exact .inr rfl

/-- Times are not in the future. -/
structure PastOk (c : Nat) (s : SState) : Prop where
  lp : s.lpAt c ≤ s.t.now
  box : ∀ a m, (a, m) ∈ s.inbox c → a ≤ s.t.now
  ev : ∀ t e, (t, e) ∈ s.ev → t ≤ s.t.now

theorem pastok_step {cfg : SCfg} {c : Nat} {s s' : SState} {l : SLabel} (h : PastOk c s) (hs : s.step cfg l = some s') : PastOk c s' := by
  obtain ⟨g1, g2, g3⟩ := h
  have hcons : ∀ e t e', (t, e') ∈ (s.t.now, e) :: s.ev → t ≤ s.t.now := by
    intro e t e' h
    rcases List.mem_cons.1 h with h | h
    · cases h; exact Nat.le_refl _
    · exact g3 t e' h
  cases l with
  | base a =>
    rcases sstep_cases hs with ⟨a', t', ha, ht, e1, e2, -, ib, hu, ev, hl⟩ | ⟨j, hl, -⟩ | ⟨hl, -⟩
    · have hn : s.t.now ≤ t'.now := by
        rcases now_tstep ht with ⟨d, -, rfl⟩ | h
        · exact Nat.le_add_right _ _
        · omega
      refine ⟨?_, ?_, ?_⟩
      · rw [e1]
        rcases hl with ⟨-, -, hl⟩ | ⟨-, -, hl⟩
        · rw [hl]; simp only [setAt]; split
          · exact Nat.le_refl _
          · omega
        · rw [hl]; omega
      · rw [e1, ib]; intro a m h; have := g2 a m h; omega
      · rw [e1, ev]
        intro t e h
        rcases List.mem_append.1 h with h | h
        · simp only [List.mem_map, Prod.mk.injEq] at h
          obtain ⟨_, -, rfl, -⟩ := h
          exact hn
        · have := g3 t e h; omega
    · exact absurd rfl (hl a)
    · exact absurd rfl (hl a)
  | arrive c' m =>
    lstep hs
    refine ⟨g1, ?_, hcons _⟩
    intro a m' hm
    simp only at hm ⊢
    split at hm
    · rename_i hc; subst hc
      simp only [List.mem_append, List.mem_singleton, Prod.mk.injEq] at hm
      rcases hm with hm | ⟨rfl, -⟩
      · exact g2 a m' hm
      · exact Nat.le_refl _
    · exact g2 a m' hm
  | hangup c' => lstep hs; exact ⟨g1, g2, hcons _⟩
  | reset c' =>
    lstep hs
    refine ⟨g1, ?_, hcons _⟩
    intro a m' hm
    simp only at hm ⊢
    split at hm
    · cases hm
    · exact g2 a m' hm
  | loop c' x =>
    have hset : setAt s.lpAt c' s.t.now c ≤ s.t.now := by
      simp only [setAt]; split
      · exact Nat.le_refl _
      · exact g1
    lstep hs
    all_goals refine ⟨hset, ?_, by first | exact hcons _ | exact g3⟩
    all_goals first
      | exact g2
      | (intro a m' hm
         simp only at hm ⊢
         split at hm
         · rename_i hi _ hc; subst hc; exact g2 a m' (by simp_all)
         · exact g2 a m' hm)

theorem pastok_start (c : Nat) (life : Life) (jobs : Nat → List UCall) : PastOk c (.start life jobs) :=
  ⟨Nat.le_refl _, fun _ _ h => (by cases h), fun _ _ h => (by cases h)⟩

/-! ## After the connection was closed by the server -/

/-- When the goroutine of a connection closed at `t` came to where it stands. -/
def ShutTime (d t at_ : Nat) : LPc → Prop
  | .off => True
  | .last _ => True
  | .read => at_ ≤ t + d
  | .go _ => at_ ≤ t
  | .leaving => at_ ≤ t + 2 * d

def ShutOk (d c : Nat) (s : SState) : Prop := ∀ t, shutAt c s.ev = some t → ShutTime d t (s.lpAt c) (s.loops c)

theorem shutTime_le {d t a : Nat} {p : LPc} (h : a ≤ t) : ShutTime d t a p := by
  cases p <;> simp only [ShutTime] <;> omega

theorem shutok_step {cfg : SCfg} {d c : Nat} {s s' : SState} {l : SLabel} (hok : SOk s) (hpast : PastOk c s) (hp : PromptLoop d c s)
    (h : ShutOk d c s) (hs : s.step cfg l = some s') : ShutOk d c s' := by
  cases l with
  | base a =>
    rcases sstep_cases hs with ⟨a', t', ha, ht, e1, e2, -, ib, hu, ev, hl⟩ | ⟨j, hl, -⟩ | ⟨hl, -⟩
    · intro t hsh
      rw [ev] at hsh
      have hloops : s'.loops c = s.loops c ∧ s'.lpAt c = s.lpAt c ∨ a' = .act (.accept .tcp) ∧ c = s.t.w.n := by
        rcases hl with ⟨e, hl, hl'⟩ | ⟨-, hl, hl'⟩
        · by_cases hc : c = s.t.w.n
          · exact .inr ⟨e, hc⟩
          · left; rw [hl, hl']; simp [SState.setLoop, setAt, hc]
        · left; rw [hl, hl']; exact ⟨rfl, rfl⟩
      rcases hloops with ⟨h1, h2⟩ | ⟨rfl, hc⟩
      · rw [h1, h2]
        rcases (shutAt_w c _ _ _).2 t hsh with h0 | ⟨-, rfl⟩
        · exact h t h0
        · exact shutTime_le hpast.lp
      · -- a connection that is being accepted has not been closed
        exfalso
        have ht0 := ht
        simp only [TState.step, TState.due, if_true, WState.step, Option.map_some, Option.some.injEq] at ht
        subst ht
        have : newEvents s.t.w (s.t.after (({ s.t.w.setCtx s.t.w.n (newCtx cfg.t.w s.t.w.life.withSignals s.t.w.n .tcp) with n := s.t.w.n + 1 }).log
            (.newConn s.t.w.n)) (.accept .tcp)).w = [.newConn s.t.w.n] := newEvents_one _ _ _ rfl
        rw [this] at hsh
        simp only [List.map_cons, List.map_nil, List.cons_append, List.nil_append, shutAt] at hsh
        have h3 : ShutIn c s.ev := by
          apply Classical.byContradiction
          intro h0
          rw [(shutAt_none c s.ev).2 h0] at hsh
          cases hsh
        rw [shutIn_iff, hok.ev, closedIn_iff, hok.trace] at h3
        have := hok.sock.lt c h3
        omega
    · exact absurd rfl (hl a)
    · exact absurd rfl (hl a)
  | arrive c' m => lstep hs; exact h
  | hangup c' => lstep hs; exact h
  | reset c' => lstep hs; exact h
  | loop c' x =>
    by_cases hc : c = c'
    · subst hc
      cases hl : s.loops c with
      | off => simp only [SState.step, SState.loopStep, hl] at hs; cases hs
      | last k => simp only [SState.step, SState.loopStep, hl] at hs; cases x <;> cases hs
      | read =>
        have hsh := shut_iff hok (c := c) (by rw [hl]; simp)
        unfold PromptLoop at hp
        rw [hl] at hp
        cases x with
        | go =>
          simp only [SState.step, SState.loopStep, hl] at hs
          split at hs
          · cases hs
          · split at hs
            · cases hs
            · rename_i hn
              simp only [Option.some.injEq] at hs
              subst hs
              intro t ht
              exfalso
              have h3 : ¬ ShutIn c s.ev := fun h0 => hn (hsh.2 h0)
              rw [← shutAt_none] at h3
              simp only [SState.log, SState.setLoop, shutAt] at ht
              rw [h3] at ht
              cases ht
        | fail =>
          simp only [SState.step, SState.loopStep, hl] at hs
          split at hs
          · simp only [Option.some.injEq] at hs
            subst hs
            intro t ht
            have h1 := h t ht
            have h2 := hp.1 t ht
            rw [hl] at h1
            simp only [ShutTime] at h1
            simp only [SState.setLoop, setAt, if_true, ShutTime]
            omega
          · cases hs
      | go m =>
        unfold PromptLoop at hp
        rw [hl] at hp
        cases x with
        | fail => simp only [SState.step, SState.loopStep, hl] at hs; cases hs
        | go =>
          simp only [SState.step, SState.loopStep, hl, Option.some.injEq] at hs
          subst hs
          intro t ht
          have h1 := h t ht
          rw [hl] at h1
          simp only [ShutTime] at h1
          simp only [SState.log, SState.setLoop, SState.spawn, setAt, if_true, ShutTime]
          omega
      | leaving =>
        cases x with
        | fail => simp only [SState.step, SState.loopStep, hl] at hs; cases hs
        | go =>
          simp only [SState.step, SState.loopStep, hl] at hs
          split at hs
          all_goals
            simp only [Option.some.injEq] at hs
            subst hs
            intro t ht
            simp [SState.log, SState.setLoop, ShutTime]
    · have h1 : s'.loops c = s.loops c ∧ s'.lpAt c = s.lpAt c ∧ shutAt c s'.ev = shutAt c s.ev := by
        lstep hs
        all_goals simp [setAt, hc, shutAt]
      intro t ht
      rw [h1.2.2] at ht
      rw [h1.1, h1.2.1]
      exact h t ht

theorem shutok_run (cfg : SCfg) (d c : Nat) (life : Life) (jobs : Nat → List UCall) (ls : List SLabel)
    (hp : SThroughout cfg (.start life jobs) ls (PromptLoop d c)) : ShutOk d c (srun cfg life jobs ls) :=
  (SState.run_induct (P := fun s => (SOk s ∧ PastOk c s) ∧ ShutOk d c s) hp
    ⟨⟨sok_start life jobs, pastok_start c life jobs⟩, fun t h => (by cases h)⟩
    fun _ _ _ h hp _ hs => ⟨⟨sok_step h.1.1 hs, pastok_step h.1.2 hs⟩, shutok_step h.1.1 h.1.2 hp h.2 hs⟩).2

theorem closedAt_mem (c : Nat) (log : List (Nat × WatchEv)) (t : Nat) (h : closedAt c log = some t) : ∃ w, (t, .closed c w) ∈ log := by
  induction log with
  | nil => cases h
  | cons x log ih =>
    obtain ⟨u, x⟩ := x
    cases x with
    | closed c' w' =>
      simp only [closedAt] at h
      cases hs : closedAt c log with
      | some v =>
        rw [hs] at h
        simp only [Option.some_or, Option.some.injEq] at h
        obtain ⟨w, hw⟩ := ih (by rw [hs, h])
        exact ⟨w, List.mem_cons_of_mem _ hw⟩
      | none =>
        rw [hs] at h
        simp only [Option.none_or] at h
        split at h
        · rename_i hc
          simp only [Option.some.injEq] at h
          subst h; subst hc
          exact ⟨w', List.mem_cons_self⟩
        · cases h
    | _ =>
      obtain ⟨w, hw⟩ := ih h
      exact ⟨w, List.mem_cons_of_mem _ hw⟩

theorem shutAt_past {c : Nat} {s : SState} (h : PastOk c s) {t : Nat} (ht : shutAt c s.ev = some t) : t ≤ s.t.now := by
  rw [shutAt_eq] at ht
  obtain ⟨w, hw⟩ := closedAt_mem c _ t ht
  exact h.ev t _ ((mem_wlog _ _ _).1 hw)

/-! ## After the client has hung up -/

/-- When the goroutine of a connection whose client hung up at `t` came to where it stands, what has arrived, and when the connection
was closed, if something is still to be read. -/
structure HungTime (d c t : Nat) (s : SState) : Prop where
  box : ∀ a m, (a, m) ∈ s.inbox c → a ≤ t
  at_ : match s.loops c with
    | .off => False
    | .read => s.lpAt c ≤ t + 2 * d
    | .go _ => s.lpAt c ≤ t + d
    | .leaving => s.lpAt c ≤ t + 3 * d
    | .last _ => s.lpAt c ≤ t + 4 * d
  shut : (s.loops c = .read ∨ ∃ m, s.loops c = .go m) → s.inbox c ≠ [] → ∀ t', shutAt c s.ev = some t' → t' ≤ t + d

structure HungOk (d c : Nat) (s : SState) : Prop where
  flag : s.hung c = false → hungAt c s.ev = none
  time : ∀ t, hungAt c s.ev = some t → t ≤ s.t.now ∧ HungTime d c t s

theorem hungok_step {cfg : SCfg} {d c : Nat} {s s' : SState} {l : SLabel} (hok : SOk s) (hpast : PastOk c s) (hp : PromptLoop d c s)
    (h : HungOk d c s) (hs : s.step cfg l = some s') : HungOk d c s' := by
  cases l with
  | base a =>
    rcases sstep_cases hs with ⟨a', t', ha, ht, e1, e2, -, ib, hu, ev, hl⟩ | ⟨j, hl, -⟩ | ⟨hl, -⟩
    · have hn : s.t.now ≤ t'.now := by
        rcases now_tstep ht with ⟨d, -, rfl⟩ | h
        · exact Nat.le_add_right _ _
        · omega
      have hq : hungAt c s'.ev = hungAt c s.ev := by rw [ev]; exact (quiet_w c _ _ _).2.2.2.2
      refine ⟨fun hf => by rw [hq]; exact h.flag (by rw [← hu]; exact hf), fun t hht => ?_⟩
      rw [hq] at hht
      obtain ⟨k0, k1, k2, k3⟩ := h.time t hht
      have hoff : s.loops c ≠ .off := by intro h0; rw [h0] at k2; exact k2
      have hloops : s'.loops c = s.loops c ∧ s'.lpAt c = s.lpAt c := by
        have := (hok.conn c hoff).1
        rcases hl with ⟨e, hl, hl'⟩ | ⟨-, hl, hl'⟩
        · have hc : c ≠ s.t.w.n := by omega
          rw [hl, hl']; simp [SState.setLoop, setAt, hc]
        · rw [hl, hl']; exact ⟨rfl, rfl⟩
      refine ⟨by rw [e1]; omega, ?_, ?_, ?_⟩
      · rw [ib]; exact k1
      · rw [hloops.1, hloops.2]; exact k2
      · rw [hloops.1, ib]
        intro hlo hne t' ht'
        rw [ev] at ht'
        rcases (shutAt_w c _ _ _).2 t' ht' with h0 | ⟨h0, rfl⟩
        · exact k3 hlo hne t' h0
        · -- closed just now, with something still to be read
          rw [shutAt_none] at h0
          obtain ⟨am, rest, hin⟩ := List.exists_cons_of_ne_nil hne
          obtain ⟨x, m⟩ := am
          have hx := k1 x m (by rw [hin]; exact List.mem_cons_self)
          unfold PromptLoop at hp
          rcases hlo with hlo | ⟨m', hlo⟩
          · rw [hlo] at hp
            have := hp.2.2 h0 x m (by rw [hin]; exact List.mem_cons_self)
            omega
          · rw [hlo] at hp
            have := hp.2 h0 x m (by rw [hin]; exact List.mem_cons_self)
            omega
    · exact absurd rfl (hl a)
    · exact absurd rfl (hl a)
  | arrive c' m =>
    lstep hs
    rename_i hn
    refine ⟨h.flag, fun t ht => ?_⟩
    have hcc : c ≠ c' := by
      intro hc; subst hc
      have := h.flag (by simp_all)
      simp only [hungAt] at ht
      rw [this] at ht; cases ht
    obtain ⟨k0, k1, k2, k3⟩ := h.time t ht
    refine ⟨k0, ?_, k2, ?_⟩
    · simpa [hcc] using k1
    · simpa [hcc, shutAt] using k3
  | hangup c' =>
    lstep hs
    rename_i hn
    by_cases hc : c = c'
    · subst hc
      refine ⟨fun hf => by simp at hf, fun t ht => ?_⟩
      simp only [hungAt, if_true, Option.some.injEq] at ht
      subst ht
      refine ⟨Nat.le_refl _, fun a m h => hpast.box a m h, ?_, ?_⟩
      · have := hpast.lp
        have hn' : s.loops c ≠ .off := fun h => hn (.inl h)
        simp only
        cases hl : s.loops c with
        | off => exact hn' hl
        | _ => simp only; omega
      · intro hlo hne t' ht'
        -- closed before: not later than now
        have := shutAt_past hpast ht'
        omega
    · have hc' : c' ≠ c := Ne.symm hc
      refine ⟨fun hf => ?_, fun t ht => ?_⟩
      · simp only [hc, if_false] at hf
        simpa [hungAt, hc'] using h.flag hf
      · simp only [hungAt, hc', if_false] at ht
        obtain ⟨k0, k1, k2, k3⟩ := h.time t ht
        exact ⟨k0, k1, k2, k3⟩
  | reset c' =>
    lstep hs
    rename_i hn
    by_cases hc : c = c'
    · subst hc
      refine ⟨fun hf => by simp at hf, fun t ht => ?_⟩
      simp only [hungAt, if_true, Option.some.injEq] at ht
      subst ht
      refine ⟨Nat.le_refl _, fun a m h => by simp at h, ?_, ?_⟩
      · have := hpast.lp
        have hn' : s.loops c ≠ .off := fun h => hn (.inl h)
        simp only
        cases hl : s.loops c with
        | off => exact hn' hl
        | _ => simp only; omega
      · intro hlo hne
        simp at hne
    · have hc' : c' ≠ c := Ne.symm hc
      refine ⟨fun hf => ?_, fun t ht => ?_⟩
      · simp only [hc, if_false] at hf
        simpa [hungAt, hc'] using h.flag hf
      · simp only [hungAt, hc', if_false] at ht
        obtain ⟨k0, k1, k2, k3⟩ := h.time t ht
        refine ⟨k0, ?_, k2, ?_⟩
        · simpa [hc] using k1
        · simpa [hc, shutAt] using k3
  | loop c' x =>
    by_cases hc : c = c'
    · subst hc
      cases hl : s.loops c with
      | off => simp only [SState.step, SState.loopStep, hl] at hs; cases hs
      | last k => simp only [SState.step, SState.loopStep, hl] at hs; cases x <;> cases hs
      | read =>
        have hsh := shut_iff hok (c := c) (by rw [hl]; simp)
        unfold PromptLoop at hp
        rw [hl] at hp
        obtain ⟨p1, p2, p3⟩ := hp
        cases x with
        | go =>
          simp only [SState.step, SState.loopStep, hl] at hs
          cases hi : s.inbox c with
          | nil => rw [hi] at hs; cases hs
          | cons am rest =>
            obtain ⟨a, m⟩ := am
            rw [hi] at hs
            simp only [] at hs
            split at hs
            · cases hs
            · rename_i hn
              have hnot : ¬ ShutIn c s.ev := fun h0 => hn (hsh.2 h0)
              have hnow := p3 hnot a m (by rw [hi]; exact List.mem_cons_self)
              simp only [Option.some.injEq] at hs
              subst hs
              refine ⟨h.flag, fun t ht => ?_⟩
              obtain ⟨k0, k1, k2, k3⟩ := h.time t ht
              have ha := k1 a m (by rw [hi]; exact List.mem_cons_self)
              refine ⟨k0, ?_, ?_, ?_⟩
              · intro a' m' hm
                simp only [SState.log, SState.setLoop, if_true] at hm
                exact k1 a' m' (by rw [hi]; exact List.mem_cons_of_mem _ hm)
              · simp only [SState.log, SState.setLoop, if_true, setAt]
                cases cfg.takes m
                · simp only [Bool.false_eq_true, if_false]; omega
                · simp only [if_true]; omega
              · intro _ _ t' ht'
                exfalso
                simp only [SState.log, SState.setLoop, shutAt] at ht'
                rw [(shutAt_none c s.ev).2 hnot] at ht'
                cases ht'
        | fail =>
          simp only [SState.step, SState.loopStep, hl] at hs
          split at hs
          · simp only [Option.some.injEq] at hs
            subst hs
            refine ⟨h.flag, fun t ht => ?_⟩
            obtain ⟨k0, k1, k2, k3⟩ := h.time t ht
            rw [hl] at k2
            simp only at k2
            refine ⟨k0, k1, ?_, ?_⟩
            · simp only [SState.setLoop, if_true, setAt]
              by_cases hemp : s.inbox c = []
              · have := p2 t ht hemp; omega
              · cases hsa : shutAt c s.ev with
                | some t' =>
                  have h1 := k3 (.inl hl) hemp t' hsa
                  have h2 := p1 t' hsa
                  omega
                | none =>
                  obtain ⟨am, rest, hin⟩ := List.exists_cons_of_ne_nil hemp
                  obtain ⟨a, m⟩ := am
                  rw [shutAt_none] at hsa
                  have h1 := p3 hsa a m (by rw [hin]; exact List.mem_cons_self)
                  have h2 := k1 a m (by rw [hin]; exact List.mem_cons_self)
                  omega
            · intro hlo
              simp [SState.setLoop] at hlo
          · cases hs
      | go m =>
        unfold PromptLoop at hp
        rw [hl] at hp
        cases x with
        | fail => simp only [SState.step, SState.loopStep, hl] at hs; cases hs
        | go =>
          simp only [SState.step, SState.loopStep, hl, Option.some.injEq] at hs
          subst hs
          refine ⟨h.flag, fun t ht => ?_⟩
          obtain ⟨k0, k1, k2, k3⟩ := h.time t ht
          rw [hl] at k2
          simp only at k2
          refine ⟨k0, k1, ?_, fun _ => k3 (.inr ⟨m, hl⟩)⟩
          simp only [SState.log, SState.setLoop, SState.spawn, setAt, if_true]
          omega
      | leaving =>
        unfold PromptLoop at hp
        rw [hl] at hp
        simp only at hp
        cases x with
        | fail => simp only [SState.step, SState.loopStep, hl] at hs; cases hs
        | go =>
          simp only [SState.step, SState.loopStep, hl] at hs
          split at hs
          all_goals
            simp only [Option.some.injEq] at hs
            subst hs
            refine ⟨h.flag, fun t ht => ?_⟩
            obtain ⟨k0, k1, k2, k3⟩ := h.time t ht
            rw [hl] at k2
            simp only at k2
            refine ⟨k0, k1, ?_, ?_⟩
            · simp only [SState.log, SState.setLoop, SState.spawn, setAt, if_true]
              omega
            · intro hlo
              simp [SState.log, SState.setLoop] at hlo
    · have hc' : c' ≠ c := Ne.symm hc
      have h1 : s'.loops c = s.loops c ∧ s'.lpAt c = s.lpAt c ∧ shutAt c s'.ev = shutAt c s.ev ∧ hungAt c s'.ev = hungAt c s.ev ∧
          s'.inbox c = s.inbox c ∧ s'.hung = s.hung ∧ s'.t.now = s.t.now := by
        lstep hs
        all_goals simp [setAt, hc, shutAt, hungAt]
      obtain ⟨i1, i2, i3, i4, i5, i6, i7⟩ := h1
      refine ⟨fun hf => by rw [i4]; exact h.flag (by rw [← i6]; exact hf), fun t ht => ?_⟩
      rw [i4] at ht
      obtain ⟨k0, k1, k2, k3⟩ := h.time t ht
      refine ⟨by rw [i7]; exact k0, by rw [i5]; exact k1, by rw [i1, i2]; exact k2, by rw [i1, i5, i3]; exact k3⟩

end Tcpx
