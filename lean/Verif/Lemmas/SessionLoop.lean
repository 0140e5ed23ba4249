import Verif.Lemmas.Session
/-! # Lemmas about the goroutine of a connection -/
namespace Tcpx
open Spec

/-! ## Sockets -/

/-- What closed sockets have to do with what happened. -/
structure SockOk (w : WState) : Prop where
  kind : ∀ c, (w.ctxs c).sock = 2 * c + 1 ∨ (w.ctxs c).sock % 2 = 0
  lt : ∀ c, IsClosed c w.trace → c < w.n
  shut : ∀ c, IsClosed c w.trace → w.closed (w.ctxs c).sock = true
  only : ∀ c, w.closed (2 * c + 1) = true → IsClosed c w.trace

theorem closing_lt {s : WState} (hw : WInv s) {c : Nat} (h : (s.ctxs c).hb ≠ .off ∨ (s.ctxs c).bc ≠ .off ∨ (s.ctxs c).au ≠ .off) : c < s.n := by
  apply Classical.byContradiction
  intro hn
  have := hw.fresh c (by omega)
  rw [this] at h
  simp at h

theorem sockok_step {cfg : WCfg} {s s' : WState} {l : WLabel} (hw : WInv s) (h : SockOk s) (hs : s.step cfg l = some s') : SockOk s' := by
  have k0 : ∀ c, (s.ctxs c).hb ≠ .off ∨ (s.ctxs c).bc ≠ .off ∨ (s.ctxs c).au ≠ .off → c < s.n := fun c => closing_lt hw
  have k1 : ∀ i c, (s.threads i).pc = .closing c → c < s.n := fun i c h => hw.thr i c (by rw [h]; rfl)
  clear hw
  obtain ⟨g1, g2, g3, g4⟩ := h
  refine ⟨?_, ?_, ?_, ?_⟩
  · clear g2 g3 g4 k0 k1
    cases l <;> wstep hs
    all_goals grind
  · clear g1 g3 g4
    cases l <;> wstep hs
    all_goals (intro c; have g2' := g2 c; have k0' := k0 c; simp only [isClosed_cons])
    all_goals grind
  · clear g4 k0 k1
    cases l <;> wstep hs
    all_goals (intro c; have g3' := g3 c; have g2' := g2 c; simp only [isClosed_cons])
    all_goals grind
  · clear g2 g3 k0 k1
    cases l <;> wstep hs
    all_goals (intro c; have g4' := g4 c; simp only [isClosed_cons])
    all_goals grind

theorem sockok_start (life : Life) (jobs : Nat → List UCall) : SockOk (.start life jobs) := by
  refine ⟨fun c => .inr rfl, fun c h => ?_, fun c h => ?_, fun c h => ?_⟩
  · simp [IsClosed, WState.start] at h
  · simp [IsClosed, WState.start] at h
  · simp [WState.start] at h

/-! ## Events -/

theorem wlog_w (es : List WatchEv) (now : Nat) (ev : List (Nat × SEv)) :
    wlog (es.map (fun e => (now, .w e)) ++ ev) = es.map (fun e => (now, e)) ++ wlog ev := by
  induction es with
  | nil => rfl
  | cons e es ih => simp only [List.map_cons, List.cons_append, wlog, ih]

theorem mem_wlog (t : Nat) (e : WatchEv) (ev : List (Nat × SEv)) : (t, e) ∈ wlog ev ↔ (t, .w e) ∈ ev := by
  induction ev with
  | nil => simp [wlog]
  | cons x ev ih =>
    obtain ⟨u, x⟩ := x
    cases x <;> simp [wlog, ih]

theorem shutIn_iff (c : Nat) (ev : List (Nat × SEv)) : ShutIn c ev ↔ ClosedIn c (wlog ev) := by
  simp only [ShutIn, ClosedIn, mem_wlog]

theorem shutAt_eq (c : Nat) (ev : List (Nat × SEv)) : shutAt c ev = closedAt c (wlog ev) := by
  induction ev with
  | nil => rfl
  | cons x ev ih =>
    obtain ⟨u, x⟩ := x
    cases x with
    | w e => cases e <;> simp [wlog, shutAt, closedAt, ih]
    | _ => simp [wlog, shutAt, ih]

theorem joinedAt_eq (c : Nat) (ev : List (Nat × SEv)) : joinedAt c ev = acceptedAt c (wlog ev) := by
  induction ev with
  | nil => rfl
  | cons x ev ih =>
    obtain ⟨u, x⟩ := x
    cases x with
    | w e => cases e <;> simp [wlog, joinedAt, acceptedAt, ih]
    | _ => simp [wlog, joinedAt, ih]

theorem atEachS_nil (e : SEv) (P : Nat → List (Nat × SEv) → Prop) : AtEachS e P [] := by
  intro post pre t h
  cases post <;> cases h

theorem atEachS_cons (e e' : SEv) (t : Nat) (P : Nat → List (Nat × SEv) → Prop) (tr : List (Nat × SEv)) :
    AtEachS e P ((t, e') :: tr) ↔ (e' = e → P t tr) ∧ AtEachS e P tr := by
  constructor
  · intro h
    exact ⟨fun he => h [] tr t (by rw [he]; rfl), fun post pre u hp => h ((t, e') :: post) pre u (by rw [hp]; rfl)⟩
  · rintro ⟨h1, h2⟩ post pre u hp
    cases post with
    | nil =>
      simp only [List.nil_append, List.cons.injEq, Prod.mk.injEq] at hp
      obtain ⟨⟨rfl, he⟩, rfl⟩ := hp
      exact h1 he
    | cons a post =>
      simp only [List.cons_append, List.cons.injEq] at hp
      exact h2 post pre u hp.2

theorem atEachS_w (e : SEv) (he : ∀ x, e ≠ .w x) (P : Nat → List (Nat × SEv) → Prop) (es : List WatchEv) (now : Nat) (ev : List (Nat × SEv)) :
    AtEachS e P (es.map (fun x => (now, .w x)) ++ ev) ↔ AtEachS e P ev := by
  induction es with
  | nil => rfl
  | cons x es ih => rw [List.map_cons, List.cons_append, atEachS_cons, ih]; exact ⟨fun h => h.2, fun h => ⟨fun h' => absurd h'.symm (he x), h⟩⟩

/-- The whole trace of a timed state is what was logged. -/
theorem tlog_step {cfg : TCfg} {t t' : TState} {a : TLabel} (h : t.log.map Prod.snd = t.w.trace) (hs : t.step cfg a = some t') :
    t'.log.map Prod.snd = t'.w.trace ∧ t'.log = (newEvents t.w t'.w).map (fun e => (t.now, e)) ++ t.log := by
  rcases tstep_cases hs with ⟨d, rfl⟩ | ⟨a, w', rfl, -, hw, rfl⟩
  · exact ⟨h, by simp [newEvents]⟩
  · refine ⟨?_, rfl⟩
    clear hs
    obtain ⟨es, hes⟩ : ∃ es, w'.trace = es ++ t.w.trace := by
      cases a <;> wstep hw
      all_goals first
        | exact ⟨[], rfl⟩
        | exact ⟨[_], rfl⟩
        | exact ⟨[_, _], rfl⟩
    show ((newEvents t.w w').map (fun e => (t.now, e)) ++ t.log).map Prod.snd = w'.trace
    rw [newEvents_append _ _ _ hes, List.map_append, h, List.map_map, hes]
    congr 1
    exact List.map_id' es

/-! ## The goroutine -/

theorem quiet_w (c : Nat) (es : List WatchEv) (now : Nat) (ev : List (Nat × SEv)) :
    onCloses c (es.map (fun e => (now, .w e)) ++ ev) = onCloses c ev ∧ arrivals c (es.map (fun e => (now, .w e)) ++ ev) = arrivals c ev ∧
    reads c (es.map (fun e => (now, .w e)) ++ ev) = reads c ev ∧ begun c (es.map (fun e => (now, .w e)) ++ ev) = begun c ev ∧
    hungAt c (es.map (fun e => (now, .w e)) ++ ev) = hungAt c ev := by
  induction es with
  | nil => exact ⟨rfl, rfl, rfl, rfl, rfl⟩
  | cons e es ih =>
    obtain ⟨h1, h2, h3, h4, h5⟩ := ih
    refine ⟨?_, h2, h3, h4, h5⟩
    rw [← h1]
    simp [onCloses]

theorem onCloses_cons (c t : Nat) (e : SEv) (ev : List (Nat × SEv)) :
    onCloses c ((t, e) :: ev) = onCloses c ev + (if e = .onClose c then 1 else 0) := by
  simp only [onCloses, List.map_cons, List.count_cons]
  by_cases h : e = .onClose c <;> simp [h]

/-- Unfold a step that is not of the watchers into its cases. -/
macro "lstep" h:ident : tactic => `(tactic| (
  simp only [SState.step, SState.loopStep, SState.spawn, SState.setLoop, SState.log] at $h:ident
  repeat' split at $h:ident
  all_goals first
    | (cases $h:ident; done)
    | (simp only [Option.some.injEq] at $h:ident; subst $h:ident)))

/-- What holds of the watchers, events and sockets in every state. -/
structure SOk (s : SState) : Prop where
  w : WInv s.t.w
  sock : SockOk s.t.w
  trace : s.t.log.map Prod.snd = s.t.w.trace
  ev : wlog s.ev = s.t.log
  conn : ∀ c, s.loops c ≠ .off → c < s.t.w.n ∧ (s.t.w.ctxs c).sock = 2 * c + 1

theorem winv_setThread {w : WState} (h : WInv w) (i : Nat) (job : List UCall) : WInv (w.setThread i ⟨.idle, job⟩) := by
  refine ⟨h.fresh, h.au, h.hb, fun j c hj => ?_⟩
  simp only [WState.setThread] at hj
  split at hj
  · cases hj
  · exact h.thr j c hj

theorem n_tstep {cfg : TCfg} {t t' : TState} {a : TLabel} (hs : t.step cfg a = some t') : t.w.n ≤ t'.w.n := by
  rcases tstep_cases hs with ⟨d, rfl⟩ | ⟨a, w', rfl, -, hw, rfl⟩
  · exact Nat.le_refl _
  · exact n_step hw

theorem sok_base {cfg : SCfg} {s s' : SState} {a : TLabel} (h : SOk s) (hs : s.step cfg (.base a) = some s') : SOk s' := by
  rcases sstep_cases hs with ⟨a', t', ha, ht, e1, e2, -, -, -, ev, hl⟩ | ⟨j, hl, -⟩ | ⟨hl, -⟩
  · obtain ⟨l1, l2⟩ := tlog_step h.trace ht
    have hn := n_tstep ht
    cases ha
    have hsock : ∀ c, c < s.t.w.n → (t'.w.ctxs c).sock = (s.t.w.ctxs c).sock := by
      intro c hc
      rcases tstep_cases ht with ⟨d, rfl⟩ | ⟨a, w', rfl, -, hw, rfl⟩
      · rfl
      · exact sock_step hc hw
    refine ⟨?_, ?_, ?_, ?_, ?_⟩
    · rw [e1]; exact winv_tstep h.w ht
    · rw [e1]
      rcases tstep_cases ht with ⟨d, rfl⟩ | ⟨a, w', rfl, -, hw, rfl⟩
      · exact h.sock
      · exact sockok_step h.w h.sock hw
    · rw [e1]; exact l1
    · rw [ev, e1, wlog_w, h.ev, l2]
    · intro c hc
      rw [e1]
      rcases hl with ⟨rfl, hl, -⟩ | ⟨-, hl, -⟩
      · rw [hl] at hc
        simp only [SState.setLoop] at hc
        by_cases hcn : c = s.t.w.n
        · subst hcn
          simp only [TState.step, TState.due, if_true, WState.step, Option.map_some, Option.some.injEq] at ht
          subst ht
          simp [TState.after, WState.log, WState.setCtx, newCtx]
        · rw [if_neg hcn] at hc
          obtain ⟨h1, h2⟩ := h.conn c hc
          exact ⟨by omega, by rw [hsock c h1, h2]⟩
      · rw [hl] at hc
        obtain ⟨h1, h2⟩ := h.conn c hc
        exact ⟨by omega, by rw [hsock c h1, h2]⟩
  · exact absurd rfl (hl a)
  · exact absurd rfl (hl a)

theorem sok_step {cfg : SCfg} {s s' : SState} {l : SLabel} (h : SOk s) (hs : s.step cfg l = some s') : SOk s' := by
  have hst : ∀ i j, SockOk (s.t.w.setThread i j) := fun i j => ⟨h.sock.kind, h.sock.lt, h.sock.shut, h.sock.only⟩
  have hwt := fun i j => winv_setThread h.w i j
  have hset : ∀ c, s.loops c ≠ .off → ∀ x p, (if x = c then p else s.loops x) ≠ .off → x < s.t.w.n ∧ (s.t.w.ctxs x).sock = 2 * x + 1 := by
    intro c hc x p hx
    by_cases hxc : x = c
    · subst hxc; exact h.conn x hc
    · rw [if_neg hxc] at hx; exact h.conn x hx
  cases l with
  | base a => exact sok_base h hs
  | arrive c m => lstep hs; exact ⟨h.w, h.sock, h.trace, h.ev, h.conn⟩
  | hangup c => lstep hs; exact ⟨h.w, h.sock, h.trace, h.ev, h.conn⟩
  | reset c => lstep hs; exact ⟨h.w, h.sock, h.trace, h.ev, h.conn⟩
  | loop c x =>
    have hoff : s.loops c ≠ .off := by
      intro h0
      simp only [SState.step, SState.loopStep, h0] at hs
      cases hs
    lstep hs
    all_goals first
      | exact ⟨h.w, h.sock, h.trace, h.ev, fun x hx => hset c hoff x _ hx⟩
      | exact ⟨hwt _ _, hst _ _, h.trace, h.ev, fun x hx => hset c hoff x _ hx⟩

theorem sok_start (life : Life) (jobs : Nat → List UCall) : SOk (.start life jobs) :=
  ⟨winv_start life _, sockok_start life _, rfl, rfl, fun _ h => absurd rfl h⟩

theorem sok_run (cfg : SCfg) (life : Life) (jobs : Nat → List UCall) (ls : List SLabel) : SOk (srun cfg life jobs ls) :=
  SState.run_induct (sthroughout_true _ _ _) (sok_start life jobs) fun _ _ _ h _ _ hs => sok_step h hs

/-- The socket of a connection is closed exactly if it has been closed by the server. -/
theorem shut_iff {s : SState} (h : SOk s) {c : Nat} (hc : s.loops c ≠ .off) : s.shut c = true ↔ ShutIn c s.ev := by
  obtain ⟨h1, h2⟩ := h.conn c hc
  rw [shutIn_iff, h.ev, closedIn_iff, h.trace, SState.shut]
  constructor
  · intro h0
    rw [h2] at h0
    exact h.sock.only c h0
  · exact h.sock.shut c

/-- What the goroutine of `c` has done. -/
structure LoopOk (cfg : SCfg) (c : Nat) (s : SState) : Prop where
  closes : onCloses c s.ev = (match s.loops c with | .last _ => if cfg.onClose.isSome then 1 else 0 | _ => 0)
  silent : ∀ m, AtEachS (.read c m) (fun _ before => ¬ ShutIn c before ∧ onCloses c before = 0) s.ev
  later : ∀ m k, AtEachS (.begun c m k) (fun _ before => onCloses c before = 0) s.ev
  order : reads c s.ev ++ (s.inbox c).map Prod.snd <+: arrivals c s.ev
  all : s.hung c = false → reads c s.ev ++ (s.inbox c).map Prod.snd = arrivals c s.ev
  starts : begun c s.ev ++ (match s.loops c with | .go m => [m] | _ => []) = (reads c s.ev).filter cfg.takes

theorem loopok_own {cfg : SCfg} {c : Nat} {s s' : SState} {x : LSel} (hok : SOk s) (h : LoopOk cfg c s)
    (hs : s.loopStep cfg c x = some s') : LoopOk cfg c s' := by
  obtain ⟨g1, g2, g3, g4, g5, g6⟩ := h
  have hoff : s.loops c ≠ .off := by
    intro h0
    simp only [SState.loopStep, h0] at hs
    cases hs
  have hsh := shut_iff hok hoff
  cases hl : s.loops c with
  | off => exact absurd hl hoff
  | read =>
    rw [hl] at g1 g6
    simp only [List.append_nil] at g1 g6
    cases x with
    | go =>
      simp only [SState.loopStep, hl] at hs
      cases hi : s.inbox c with
      | nil => rw [hi] at hs; cases hs
      | cons am rest =>
        obtain ⟨a, m⟩ := am
        rw [hi] at hs g4 g5
        simp only [] at hs
        split at hs
        · cases hs
        · rename_i hn
          simp only [Option.some.injEq] at hs
          subst hs
          have hnot : ¬ ShutIn c s.ev := fun h0 => hn (hsh.2 h0)
          refine ⟨?_, ?_, ?_, ?_, ?_, ?_⟩
          · simp only [SState.log, SState.setLoop, onCloses_cons, if_true, g1]
            cases cfg.takes m <;> simp
          · intro m'
            simp only [SState.log, SState.setLoop]
            rw [atEachS_cons]
            exact ⟨fun _ => ⟨hnot, g1⟩, g2 m'⟩
          · intro m' k
            simp only [SState.log, SState.setLoop]
            rw [atEachS_cons]
            exact ⟨by simp, g3 m' k⟩
          · simpa [SState.log, SState.setLoop, reads, arrivals] using g4
          · simpa [SState.log, SState.setLoop, reads, arrivals] using g5
          · simp only [SState.log, SState.setLoop, reads, begun, if_true, List.filter_append, ← g6]
            cases ht : cfg.takes m <;> simp [ht]
    | fail =>
      simp only [SState.loopStep, hl] at hs
      split at hs
      · simp only [Option.some.injEq] at hs
        subst hs
        refine ⟨?_, g2, g3, g4, g5, ?_⟩
        · simpa [SState.setLoop] using g1
        · simpa [SState.setLoop] using g6
      · cases hs
  | go m =>
    rw [hl] at g1 g6
    simp only [] at g1 g6
    cases x with
    | fail => simp only [SState.loopStep, hl] at hs; cases hs
    | go =>
      simp only [SState.loopStep, hl, Option.some.injEq] at hs
      subst hs
      refine ⟨?_, ?_, ?_, ?_, ?_, ?_⟩
      · simpa [SState.log, SState.setLoop, SState.spawn, onCloses_cons] using g1
      · intro m'
        simp only [SState.log, SState.setLoop, SState.spawn]
        rw [atEachS_cons]
        exact ⟨by simp, g2 m'⟩
      · intro m' k
        simp only [SState.log, SState.setLoop, SState.spawn]
        rw [atEachS_cons]
        exact ⟨fun _ => g1, g3 m' k⟩
      · simpa [SState.log, SState.setLoop, SState.spawn, reads, arrivals] using g4
      · simpa [SState.log, SState.setLoop, SState.spawn, reads, arrivals] using g5
      · simpa [SState.log, SState.setLoop, SState.spawn, reads, begun] using g6
  | leaving =>
    rw [hl] at g1 g6
    simp only [List.append_nil] at g1 g6
    cases x with
    | fail => simp only [SState.loopStep, hl] at hs; cases hs
    | go =>
      simp only [SState.loopStep, hl] at hs
      cases hcb : cfg.onClose with
      | none =>
        rw [hcb] at hs
        simp only [Option.some.injEq] at hs
        subst hs
        refine ⟨?_, g2, g3, g4, g5, ?_⟩
        · simpa [SState.setLoop, SState.spawn, hcb] using g1
        · simpa [SState.setLoop, SState.spawn] using g6
      | some f =>
        rw [hcb] at hs
        simp only [Option.some.injEq] at hs
        subst hs
        refine ⟨?_, ?_, ?_, ?_, ?_, ?_⟩
        · simp [SState.log, SState.setLoop, SState.spawn, onCloses_cons, g1, hcb]
        · intro m'
          simp only [SState.log, SState.setLoop, SState.spawn]
          rw [atEachS_cons]
          exact ⟨by simp, g2 m'⟩
        · intro m' k
          simp only [SState.log, SState.setLoop, SState.spawn]
          rw [atEachS_cons]
          exact ⟨by simp, g3 m' k⟩
        · simpa [SState.log, SState.setLoop, SState.spawn, reads, arrivals] using g4
        · simpa [SState.log, SState.setLoop, SState.spawn, reads, arrivals] using g5
        · simpa [SState.log, SState.setLoop, SState.spawn, reads, begun] using g6
  | last k =>
    simp only [SState.loopStep, hl] at hs
    cases x <;> cases hs

theorem loopok_step {cfg : SCfg} {c : Nat} {s s' : SState} {l : SLabel} (hok : SOk s) (h : LoopOk cfg c s) (hs : s.step cfg l = some s') :
    LoopOk cfg c s' := by
  obtain ⟨g1, g2, g3, g4, g5, g6⟩ := h
  cases l with
  | base a =>
    rcases sstep_cases hs with ⟨a', t', ha, ht, e1, e2, -, ib, hu, ev, hl⟩ | ⟨j, hl, -⟩ | ⟨hl, -⟩
    · obtain ⟨q1, q2, q3, q4, -⟩ := quiet_w c (newEvents s.t.w t'.w) s.t.now s.ev
      have hloops : s'.loops c = s.loops c ∨ s.loops c = .off ∧ s'.loops c = .read := by
        rcases hl with ⟨-, hl, -⟩ | ⟨-, hl, -⟩
        · by_cases hc : c = s.t.w.n
          · right
            refine ⟨?_, by rw [hl]; simp [SState.setLoop, hc]⟩
            apply Classical.byContradiction
            intro h0
            have := (hok.conn c h0).1
            omega
          · left; rw [hl]; simp [SState.setLoop, hc]
        · left; rw [hl]
      refine ⟨?_, ?_, ?_, ?_, ?_, ?_⟩
      · rw [ev, q1, g1]
        rcases hloops with h0 | ⟨h0, h1⟩
        · rw [h0]
        · rw [h0, h1]
      · intro m; rw [ev, atEachS_w _ (by simp)]; exact g2 m
      · intro m k; rw [ev, atEachS_w _ (by simp)]; exact g3 m k
      · rw [ev, q2, q3, ib]; exact g4
      · rw [ev, q2, q3, ib, hu]; exact g5
      · rw [ev, q3, q4, ← g6]
        rcases hloops with h0 | ⟨h0, h1⟩
        · rw [h0]
        · rw [h0, h1]
    · exact absurd rfl (hl a)
    · exact absurd rfl (hl a)
  | arrive c' m =>
    lstep hs
    refine ⟨?_, ?_, ?_, ?_, ?_, ?_⟩
    · simpa [onCloses_cons] using g1
    · intro m; rw [atEachS_cons]; exact ⟨by simp, g2 m⟩
    · intro m k; rw [atEachS_cons]; exact ⟨by simp, g3 m k⟩
    · by_cases hc : c = c'
      · subst hc
        have := g5 (by simp_all)
        simp [reads, arrivals, ← this]
      · simpa [reads, arrivals, hc, Ne.symm hc] using g4
    · by_cases hc : c = c'
      · subst hc
        have := g5 (by simp_all)
        simp [reads, arrivals, ← this]
      · simpa [reads, arrivals, hc, Ne.symm hc] using g5
    · simpa [begun, reads] using g6
  | hangup c' =>
    lstep hs
    refine ⟨?_, ?_, ?_, ?_, ?_, ?_⟩
    · simpa [onCloses_cons] using g1
    · intro m; rw [atEachS_cons]; exact ⟨by simp, g2 m⟩
    · intro m k; rw [atEachS_cons]; exact ⟨by simp, g3 m k⟩
    · simpa [reads, arrivals] using g4
    · intro h0
      simp only [] at h0
      split at h0
      · cases h0
      · simpa [reads, arrivals] using g5 h0
    · simpa [begun, reads] using g6
  | reset c' =>
    lstep hs
    refine ⟨?_, ?_, ?_, ?_, ?_, ?_⟩
    · simpa [onCloses_cons] using g1
    · intro m; rw [atEachS_cons]; exact ⟨by simp, g2 m⟩
    · intro m k; rw [atEachS_cons]; exact ⟨by simp, g3 m k⟩
    · by_cases hc : c = c'
      · subst hc
        have := List.IsPrefix.trans (List.prefix_append _ _) g4
        simpa [reads, arrivals] using this
      · simpa [reads, arrivals, hc] using g4
    · intro h0
      simp only [] at h0
      split at h0
      · cases h0
      · rename_i hc; simpa [reads, arrivals, hc] using g5 h0
    · simpa [begun, reads] using g6
  | loop c' x =>
    by_cases hc : c = c'
    · subst hc
      exact loopok_own hok ⟨g1, g2, g3, g4, g5, g6⟩ hs
    · have hc' : c' ≠ c := Ne.symm hc
      lstep hs
      all_goals
        refine ⟨?_, ?_, ?_, ?_, ?_, ?_⟩
        · simpa [onCloses_cons, hc, hc'] using g1
        · intro m; first | (rw [atEachS_cons]; exact ⟨by simp [hc'], g2 m⟩) | exact g2 m
        · intro m k; first | (rw [atEachS_cons]; exact ⟨by simp [hc'], g3 m k⟩) | exact g3 m k
        · simpa [reads, arrivals, hc, hc'] using g4
        · simpa [reads, arrivals, hc, hc'] using g5
        · simpa [begun, reads, hc, hc'] using g6

theorem loopok_start (cfg : SCfg) (c : Nat) (life : Life) (jobs : Nat → List UCall) : LoopOk cfg c (.start life jobs) :=
  ⟨rfl, fun _ => atEachS_nil _ _, fun _ _ => atEachS_nil _ _, List.prefix_refl _, fun _ => rfl, rfl⟩

theorem loopok_run (cfg : SCfg) (c : Nat) (life : Life) (jobs : Nat → List UCall) (ls : List SLabel) : LoopOk cfg c (srun cfg life jobs ls) :=
  (SState.run_induct (P := fun s => SOk s ∧ LoopOk cfg c s) (sthroughout_true _ _ _) ⟨sok_start life jobs, loopok_start cfg c life jobs⟩
    fun _ _ _ h _ _ hs => ⟨sok_step h.1 hs, loopok_step h.1 h.2 hs⟩).2

end Tcpx
