import Verif.Lemmas.Punctual
import Verif.Lemmas.SessionRun
import Verif.Spec.Punctual
/-! # Lemmas: nobody in the server need be late (C143) -/
namespace Tcpx
open Spec

/-- What holds of the goroutines started. -/
structure JobOk (s : SState) : Prop where
  sok : SOk s
  un : UnstartedOk s
  own : ∃ owner, OwnOk owner s.t.w
  rest : ∀ i job, s.spawned[i]? = some job →
    s.t.w.threads (2 * i + 1) = ⟨.idle, job⟩ ∨ (s.t.w.threads (2 * i + 1)).rest.length < job.length
  tail : ∀ c k, s.loops c = .last k → ∃ i, k = 2 * i + 1 ∧ s.spawned[i]? = some [.close c]
  off : ∀ c, s.loops c = .off → s.inbox c = []

/-- What a step does to the calls a goroutine has still to make. -/
theorem rest_tstep {cfg : TCfg} {t t' : TState} {a : TLabel} (hs : t.step cfg a = some t') (i : Nat) :
    t'.w.threads i = t.w.threads i ∨ (t'.w.threads i).rest = (t.w.threads i).rest ∧ (t.w.threads i).pc ≠ .idle ∨
      (t'.w.threads i).rest.length < (t.w.threads i).rest.length := by
  by_cases ha : a = .act (.user i)
  · subst ha
    rcases tstep_cases hs with ⟨d, rfl⟩ | ⟨a, w', ha, -, hw, rfl⟩
    · exact .inl rfl
    · cases ha
      clear hs
      right
      show (w'.threads i).rest = _ ∧ _ ∨ (w'.threads i).rest.length < _
      wstep hw
      all_goals simp_all
  · exact .inl (threads_step hs i ha)

theorem ownok_setThread {w : WState} (h : ∃ owner, OwnOk owner w) (i : Nat) (job : List UCall) :
    ∃ owner, OwnOk owner (w.setThread i ⟨.idle, job⟩) := by
  obtain ⟨owner, h1, h2, h3, h4⟩ := h
  refine ⟨owner, h1, ?_, h3, h4⟩
  intro j c ch hj
  simp only [WState.setThread] at hj
  split at hj
  · cases hj
  · exact h2 j c ch hj

theorem getElem?_snoc {α : Type} {l : List α} {x y : α} {i : Nat} (h : (l ++ [x])[i]? = some y) :
    l[i]? = some y ∨ i = l.length ∧ y = x := by
  rcases Nat.lt_trichotomy i l.length with hi | hi | hi
  · rw [List.getElem?_append_left hi] at h; exact .inl h
  · subst hi
    simp at h
    exact .inr ⟨rfl, h.symm⟩
  · rw [List.getElem?_eq_none (by simp; omega)] at h; cases h

theorem getElem?_lt {α : Type} {l : List α} {y : α} {i : Nat} (h : l[i]? = some y) : i < l.length := by
  rcases Nat.lt_or_ge i l.length with hi | hi
  · exact hi
  · rw [List.getElem?_eq_none hi] at h; cases h

/-- The goroutines after one has been started. -/
theorem spawn_threads (s : SState) (job : List UCall) (i : Nat) :
    (s.spawn job).t.w.threads i = if i = s.next then ⟨.idle, job⟩ else s.t.w.threads i := rfl

theorem spawn_rest {s : SState} (h : ∀ i job, s.spawned[i]? = some job →
      s.t.w.threads (2 * i + 1) = ⟨.idle, job⟩ ∨ (s.t.w.threads (2 * i + 1)).rest.length < job.length) (j : List UCall) (i : Nat)
    (job : List UCall) (hi : (s.spawned ++ [j])[i]? = some job) :
    (s.spawn j).t.w.threads (2 * i + 1) = ⟨.idle, job⟩ ∨ ((s.spawn j).t.w.threads (2 * i + 1)).rest.length < job.length := by
  rw [spawn_threads]
  rcases getElem?_snoc hi with hi | ⟨rfl, rfl⟩
  · have := getElem?_lt hi
    rw [if_neg (by unfold SState.next; omega)]
    exact h i job hi
  · rw [if_pos (by unfold SState.next; rfl)]
    exact .inl rfl

theorem jobok_step {cfg : SCfg} (hcb : ∀ f, cfg.onClose = some f → ∀ c, f c = []) {s s' : SState} {l : SLabel} (h : JobOk s)
    (hs : s.step cfg l = some s') : JobOk s' := by
  refine ⟨sok_step h.sok hs, unstarted_step h.un hs, ?_, ?_, ?_, ?_⟩
  · rcases sstep_cases hs with ⟨a, t', -, ht, e1, -⟩ | ⟨j, -, e1, e2⟩ | ⟨-, e1, e2⟩
    · rw [e1]; exact ownok_tstep h.own ht
    · rw [e1]; exact ownok_setThread h.own _ _
    · rw [e1]; exact h.own
  · intro i job hi
    rcases sstep_cases hs with ⟨a, t', -, ht, e1, e2, -⟩ | ⟨j, -, e1, e2⟩ | ⟨-, e1, e2⟩
    · rw [e2] at hi
      rw [e1]
      have h0 := h.rest i job hi
      rcases rest_tstep ht (2 * i + 1) with h1 | ⟨h1, h2⟩ | h1
      · rw [h1]; exact h0
      · rcases h0 with h0 | h0
        · rw [h0] at h2; exact absurd rfl h2
        · rw [h1]; exact .inr h0
      · right
        rcases h0 with h0 | h0
        · rw [h0] at h1; exact h1
        · omega
    · rw [e2] at hi
      rw [e1]
      exact spawn_rest h.rest j i job hi
    · rw [e2] at hi
      rw [e1]; exact h.rest i job hi
  · intro c k hk
    cases l with
    | base a =>
      rcases sstep_cases hs with ⟨a', t', ha, ht, e1, e2, -, ib, hu, ev, hl⟩ | ⟨j, hl, -⟩ | ⟨hl, -⟩
      · rw [e2]
        refine h.tail c k ?_
        rcases hl with ⟨-, hl, -⟩ | ⟨-, hl, -⟩
        · rw [hl] at hk
          simp only [SState.setLoop] at hk
          split at hk
          · cases hk
          · exact hk
        · rw [hl] at hk; exact hk
      · exact absurd rfl (hl a)
      · exact absurd rfl (hl a)
    | arrive c' m => lstep hs; exact h.tail c k hk
    | hangup c' => lstep hs; exact h.tail c k hk
    | reset c' => lstep hs; exact h.tail c k hk
    | loop c' x =>
      have grow : ∀ (j : List UCall), (∃ i, k = 2 * i + 1 ∧ s.spawned[i]? = some [.close c]) →
          ∃ i, k = 2 * i + 1 ∧ (s.spawned ++ [j])[i]? = some [.close c] := by
        rintro j ⟨i, h1, h2⟩
        exact ⟨i, h1, by rw [List.getElem?_append_left (getElem?_lt h2)]; exact h2⟩
      have new : ∀ (j : List UCall), j = [.close c] → k = s.next → ∃ i, k = 2 * i + 1 ∧ (s.spawned ++ [j])[i]? = some [.close c] := by
        rintro _ rfl rfl
        exact ⟨s.spawned.length, rfl, by simp⟩
      lstep hs
      all_goals simp only at hk
      all_goals split at hk
      all_goals first
        | (cases hk; done)
        | exact h.tail c k hk
        | exact grow _ (h.tail c k hk)
        | skip
      · rename_i hc; subst hc; cases hk; exact new _ rfl rfl
      · rename_i f hf hc; subst hc; cases hk; exact new _ (by rw [hcb f hf]; rfl) rfl
  · intro c hc
    cases l with
    | base a =>
      rcases sstep_cases hs with ⟨a', t', ha, ht, e1, e2, -, ib, hu, ev, hl⟩ | ⟨j, hl, -⟩ | ⟨hl, -⟩
      · rw [ib]
        refine h.off c ?_
        rcases hl with ⟨-, hl, -⟩ | ⟨-, hl, -⟩
        · rw [hl] at hc
          simp only [SState.setLoop] at hc
          split at hc
          · cases hc
          · exact hc
        · rw [hl] at hc; exact hc
      · exact absurd rfl (hl a)
      · exact absurd rfl (hl a)
    | arrive c' m =>
      lstep hs
      have := h.off c hc
      by_cases e : c = c'
      · subst e; rename_i hn; exact absurd (.inl hc) hn
      · simpa [e] using this
    | hangup c' => lstep hs; exact h.off c hc
    | reset c' =>
      lstep hs
      have := h.off c hc
      simp [this]
    | loop c' x =>
      lstep hs
      all_goals simp only at hc ⊢
      all_goals split at hc
      all_goals first
        | (cases hc; done)
        | exact h.off c hc
        | (rename_i hne; rw [if_neg hne]; exact h.off c hc)
        | (split at hc <;> cases hc)

theorem jobok_start (life : Life) (jobs : Nat → List UCall) : JobOk (.start life jobs) :=
  ⟨sok_start life jobs, unstarted_start life jobs,
    ⟨fun _ => 0, by simp [SState.start, TState.start, WState.start], by simp [SState.start, TState.start, WState.start],
      by simp [SState.start, TState.start, WState.start], by simp [SState.start, TState.start, WState.start]⟩,
    fun i job h => (by cases h), fun c k h => (by cases h), fun _ _ => rfl⟩

theorem jobok_run (cfg : SCfg) (hcb : ∀ f, cfg.onClose = some f → ∀ c, f c = []) (life : Life) (jobs : Nat → List UCall) (ls : List SLabel) :
    JobOk (srun cfg life jobs ls) :=
  SState.run_induct (sthroughout_true _ _ _) (jobok_start life jobs) fun _ _ _ h _ _ hs => jobok_step hcb h hs

/-! ## Only time makes anybody late -/

theorem shutIn_cons {c t : Nat} {e : SEv} {ev : List (Nat × SEv)} (he : ∀ x, e ≠ .w x) : ShutIn c ((t, e) :: ev) ↔ ShutIn c ev := by
  refine ⟨fun ⟨t', w, h⟩ => ?_, fun ⟨t', w, h⟩ => ⟨t', w, List.mem_cons_of_mem _ h⟩⟩
  rcases List.mem_cons.1 h with h | h
  · cases h; exact absurd rfl (he _)
  · exact ⟨t', w, h⟩

theorem shutAt_cons {c t : Nat} {e : SEv} {ev : List (Nat × SEv)} (he : ∀ x, e ≠ .w x) : shutAt c ((t, e) :: ev) = shutAt c ev := by
  cases e with
  | w x => exact absurd rfl (he x)
  | _ => rfl

/-- What watchers and user code do leaves the goroutines of connections in time. -/
theorem promptLoop_w {d c : Nat} {s s' : SState} {es : List WatchEv} (hnow : s'.t.now = s.t.now)
    (hev : s'.ev = es.map (fun e => (s.t.now, .w e)) ++ s.ev) (hl : s'.loops c = s.loops c) (hlp : s'.lpAt c = s.lpAt c)
    (hib : s'.inbox c = s.inbox c) (h : PromptLoop d c s) : PromptLoop d c s' := by
  have hsh : ¬ ShutIn c s'.ev → ¬ ShutIn c s.ev := fun h1 h2 => h1 (by rw [hev]; exact shutIn_append _ h2)
  have hhu : hungAt c s'.ev = hungAt c s.ev := by rw [hev]; exact (quiet_w c es s.t.now s.ev).2.2.2.2
  have hat : ∀ t, shutAt c s'.ev = some t → shutAt c s.ev = some t ∨ t = s.t.now := by
    intro t ht
    rw [hev] at ht
    rcases (shutAt_w c es s.t.now s.ev).2 t ht with h | h
    · exact .inl h
    · exact .inr h.2
  unfold PromptLoop at *
  rw [hl, hlp, hib, hnow, hhu]
  revert h
  cases s.loops c with
  | off => exact id
  | last k => exact id
  | leaving => exact id
  | go m => exact fun h => ⟨h.1, fun h1 => h.2 (hsh h1)⟩
  | read =>
    rintro ⟨h1, h2, h3⟩
    refine ⟨fun t ht => ?_, h2, fun h4 => h3 (hsh h4)⟩
    rcases hat t ht with ht | ht
    · exact h1 t ht
    · omega

/-- Goroutines started stay in time when nothing but a step of another kind happens. -/
theorem promptStart_same {d c : Nat} {s s' : SState} (hj : JobOk s) (hnow : s'.t.now = s.t.now) (hsp : s'.spawned = s.spawned)
    (hat : s'.spAt = s.spAt) (hthr : ∀ i, s'.t.w.threads i = s.t.w.threads i ∨
      (s'.t.w.threads i).rest = (s.t.w.threads i).rest ∧ (s.t.w.threads i).pc ≠ .idle ∨
      (s'.t.w.threads i).rest.length < (s.t.w.threads i).rest.length) (h : PromptStart d c s) : PromptStart d c s' := by
  intro i rest hi ht
  rw [hsp] at hi
  rw [hnow, hat]
  rcases hthr (2 * i + 1) with h1 | ⟨h1, h2⟩ | h1
  · exact h i rest hi (h1 ▸ ht)
  · rcases hj.rest i _ hi with h3 | h3
    · rw [h3] at h2; exact absurd rfl h2
    · rw [← h1, ht] at h3; exact absurd h3 (Nat.lt_irrefl _)
  · rcases hj.rest i _ hi with h3 | h3
    · rw [h3, ht] at h1; exact absurd h1 (Nat.lt_irrefl _)
    · rw [ht] at h1; exact absurd h1 (Nat.not_lt.2 (Nat.le_of_lt h3))

/-- Where a call of `CloseConn` comes from. -/
theorem closing_tstep {cfg : TCfg} {t t' : TState} {a : TLabel} (hs : t.step cfg a = some t') (i c : Nat)
    (h : (t'.w.threads i).pc = .closing c) : (t.w.threads i).pc = .closing c ∧ t'.w.threads i = t.w.threads i ∨
      (t.w.threads i).pc = .idle ∧ (t.w.threads i).rest = .close c :: (t'.w.threads i).rest := by
  by_cases ha : a = .act (.user i)
  · subst ha
    rcases tstep_cases hs with ⟨d, rfl⟩ | ⟨a, w', ha, -, hw, rfl⟩
    · exact .inl ⟨h, rfl⟩
    · cases ha
      clear hs
      right
      change (w'.threads i).pc = _ at h
      show _ ∧ _ = .close c :: (w'.threads i).rest
      wstep hw
      all_goals try simp only [if_true] at h ⊢
      all_goals first | (split at h <;> cases h) | cases h | skip
      all_goals exact ⟨by assumption, by assumption⟩
  · rw [threads_step hs i ha] at h
    exact .inl ⟨h, threads_step hs i ha⟩

theorem promptTail_base {cfg : TCfg} {d c : Nat} {s s' : SState} {a : TLabel} {t' : TState} (hj : JobOk s) (ht : s.t.step cfg a = some t')
    (e1 : s'.t = t') (hnow : s'.t.now = s.t.now) (hl : ∀ k, s'.loops c = .last k → s.loops c = .last k ∧ s'.lpAt c = s.lpAt c)
    (h : PromptTail d c s) : PromptTail d c s' := by
  intro k hk
  obtain ⟨hk, hlp⟩ := hl k hk
  obtain ⟨p1, p2⟩ := h k hk
  obtain ⟨i, rfl, hi⟩ := hj.tail c k hk
  rw [hnow, hlp, e1]
  have h0 := hj.rest i _ hi
  refine ⟨fun h1 => ?_, fun h1 => ?_⟩
  · rcases rest_tstep ht (2 * i + 1) with h2 | ⟨h2, h3⟩ | h2
    · exact p1 (h2 ▸ h1)
    · rcases h0 with h0 | h0
      · rw [h0] at h3; exact absurd rfl h3
      · rw [← h2, h1] at h0; exact absurd h0 (Nat.lt_irrefl _)
    · rcases h0 with h0 | h0
      · exact p1 h0
      · rw [h1] at h2; exact absurd h2 (Nat.not_lt.2 (Nat.le_of_lt h0))
  · rcases closing_tstep ht (2 * i + 1) c h1 with ⟨h2, -⟩ | ⟨h2, h3⟩
    · exact p2 h2
    · rcases h0 with h0 | h0
      · have := p1 h0; omega
      · rw [h3] at h0; simp at h0

/-- A step of the watchers, of user code, or a new connection, makes nobody late. -/
theorem punctual_base {cfg : SCfg} {d : Nat} {s s' : SState} {a : WLabel} (hj : JobOk s) (h : Punctual cfg d s)
    (hs : s.step cfg (.base (.act a)) = some s') : Punctual cfg d s' := by
  rcases sstep_cases hs with ⟨a', t', ha, ht, e1, e2, sp, ib, hu, ev, hl⟩ | ⟨j, hl, -⟩ | ⟨hl, -⟩
  · cases ha
    have hb0 : s.t.w.buf s.t.w.nchan = false := by
      obtain ⟨owner, ho⟩ := hj.own
      cases hb : s.t.w.buf s.t.w.nchan with
      | false => rfl
      | true => exact absurd (ho.buf _ hb).1 (Nat.lt_irrefl _)
    obtain ⟨w', hst, h'⟩ : ∃ w', s.t.w.step cfg.t.w a = some w' ∧ t' = s.t.after w' a := by
      simp only [TState.step] at ht
      split at ht
      · obtain ⟨w', h1, h2⟩ := Option.map_eq_some_iff.1 ht
        exact ⟨w', h1, h2.symm⟩
      · cases ht
    have hnow : s'.t.now = s.t.now := by rw [e1, h']; rfl
    refine ⟨?_, ?_, ?_, ?_, ?_⟩
    · intro c
      obtain ⟨p1, p2, p3⟩ := h.watch c
      rw [e1, h']
      exact ⟨promptBeat_act hst hb0 p1, promptAuth_act hst p2, promptEnd_act hst p3⟩
    · intro c
      rw [e1, h']
      exact promptCalls_act hj.own hj.sok.w hst (h.calls c)
    · intro c
      rcases hl with ⟨-, hl, hlp⟩ | ⟨-, hl, hlp⟩
      · by_cases hc : c = s.t.w.n
        · subst hc
          have h1 : s'.loops s.t.w.n = .read := by rw [hl]; simp [SState.setLoop]
          have h2 : s'.lpAt s.t.w.n = s.t.now := by rw [hlp, ← e1, hnow]; simp [setAt]
          have h3 : s'.inbox s.t.w.n = [] := by
            rw [ib]
            refine hj.off _ (Classical.byContradiction fun hne => ?_)
            exact absurd (hj.sok.conn _ hne).1 (Nat.lt_irrefl _)
          unfold PromptLoop
          rw [h1, h2, h3, hnow]
          exact ⟨fun t _ => by omega, fun t _ _ => by omega, fun _ a m hm => by cases hm⟩
        · exact promptLoop_w hnow (e1 ▸ ev) (by rw [hl]; simp [SState.setLoop, hc]) (by rw [hlp]; simp [setAt, hc]) (by rw [ib]) (h.loop c)
      · exact promptLoop_w hnow ev (by rw [hl]) (by rw [hlp]) (by rw [ib]) (h.loop c)
    · exact fun c => promptStart_same hj hnow e2 sp (fun i => by rw [e1]; exact rest_tstep ht i) (h.begin c)
    · intro c
      refine promptTail_base hj ht e1 hnow ?_ (h.tail c)
      intro k hk
      rcases hl with ⟨-, hl, hlp⟩ | ⟨-, hl, hlp⟩
      · rw [hl] at hk
        simp only [SState.setLoop] at hk
        split at hk
        · cases hk
        · rename_i hne
          exact ⟨hk, by rw [hlp]; simp [setAt, hne]⟩
      · exact ⟨hl ▸ hk, by rw [hlp]⟩
  · exact absurd rfl (hl _)
  · exact absurd rfl (hl _)

/-- What clients do leaves watchers and goroutines alone. -/
theorem punctual_client {cfg : SCfg} {d : Nat} {s s' : SState} (h : Punctual cfg d s) (e1 : s'.t = s.t) (e2 : s'.spawned = s.spawned)
    (e3 : s'.spAt = s.spAt) (e4 : s'.loops = s.loops) (e5 : s'.lpAt = s.lpAt) (hl : ∀ c, PromptLoop d c s') : Punctual cfg d s' := by
  refine ⟨by rw [e1]; exact h.watch, by rw [e1]; exact h.calls, hl, ?_, ?_⟩
  · intro c i rest
    rw [e1, e2, e3]; exact h.begin c i rest
  · intro c k
    rw [e1, e4, e5]; exact h.tail c k

theorem punctual_arrive {cfg : SCfg} {d c m : Nat} {s s' : SState} (h : Punctual cfg d s) (hs : s.step cfg (.arrive c m) = some s') :
    Punctual cfg d s' := by
  lstep hs
  refine punctual_client h rfl rfl rfl rfl rfl fun c' => ?_
  have hp := h.loop c'
  unfold PromptLoop at *
  simp only [shutIn_cons (e := .arrived c m) (by simp), shutAt_cons (e := .arrived c m) (by simp), hungAt]
  revert hp
  cases s.loops c' with
  | go m' =>
    rintro ⟨h1, h2⟩
    refine ⟨h1, fun h3 a m' hm => ?_⟩
    split at hm
    · rename_i hc; subst hc
      rcases List.mem_append.1 hm with hm | hm
      · exact h2 h3 a m' hm
      · cases List.mem_singleton.1 hm; omega
    · exact h2 h3 a m' hm
  | read =>
    rintro ⟨h0, h1, h2⟩
    refine ⟨h0, fun t ht hi => ?_, fun h3 a m' hm => ?_⟩
    · split at hi
      · simp at hi
      · exact h1 t ht hi
    · split at hm
      · rename_i hc; subst hc
        rcases List.mem_append.1 hm with hm | hm
        · exact h2 h3 a m' hm
        · cases List.mem_singleton.1 hm; omega
      · exact h2 h3 a m' hm
  | _ => exact id

theorem hungAt_cons (c c' t : Nat) (ev : List (Nat × SEv)) (t' : Nat) (h : hungAt c ((t, .hungUp c') :: ev) = some t') :
    t' = t ∨ hungAt c ev = some t' := by
  simp only [hungAt] at h
  split at h
  · cases h; exact .inl rfl
  · exact .inr h

theorem punctual_hangup {cfg : SCfg} {d c : Nat} {s s' : SState} (h : Punctual cfg d s) (hs : s.step cfg (.hangup c) = some s') :
    Punctual cfg d s' := by
  lstep hs
  refine punctual_client h rfl rfl rfl rfl rfl fun c' => ?_
  have hp := h.loop c'
  unfold PromptLoop at *
  simp only [shutIn_cons (e := .hungUp c) (by simp), shutAt_cons (e := .hungUp c) (by simp)]
  revert hp
  cases s.loops c' with
  | read =>
    rintro ⟨h0, h1, h2⟩
    refine ⟨h0, fun t ht hi => ?_, h2⟩
    rcases hungAt_cons _ _ _ _ _ ht with ht | ht
    · omega
    · exact h1 t ht hi
  | _ => exact id

theorem punctual_reset {cfg : SCfg} {d c : Nat} {s s' : SState} (h : Punctual cfg d s) (hs : s.step cfg (.reset c) = some s') :
    Punctual cfg d s' := by
  lstep hs
  refine punctual_client h rfl rfl rfl rfl rfl fun c' => ?_
  have hp := h.loop c'
  unfold PromptLoop at *
  simp only [shutIn_cons (e := .hungUp c) (by simp), shutAt_cons (e := .hungUp c) (by simp)]
  revert hp
  cases s.loops c' with
  | go m' =>
    rintro ⟨h1, h2⟩
    refine ⟨h1, fun h3 a m' hm => ?_⟩
    split at hm
    · cases hm
    · exact h2 h3 a m' hm
  | read =>
    rintro ⟨h0, h1, h2⟩
    refine ⟨h0, fun t ht hi => ?_, fun h3 a m' hm => ?_⟩
    · by_cases hc : c = c'
      · simp only [hungAt, if_pos hc, Option.some.injEq] at ht; omega
      · simp only [hungAt, if_neg hc] at ht
        rw [if_neg (Ne.symm hc)] at hi
        exact h1 t ht hi
    · split at hm
      · cases hm
      · exact h2 h3 a m' hm
  | _ => exact id

theorem calls_spawn {d c : Nat} {s : SState} (h : PromptCalls d c s.t) (job : List UCall) : PromptCalls d c (s.spawn job).t := by
  intro i t ht
  rw [spawn_threads]
  by_cases hi : i = s.next
  · rw [if_pos hi]
    exact ⟨fun h => (by rcases h with h | h <;> cases h), fun ch hh h => (by cases h)⟩
  · rw [if_neg hi]; exact h i t ht

theorem start_spawn {d c : Nat} {s : SState} (h : PromptStart d c s) (job : List UCall) : PromptStart d c (s.spawn job) := by
  intro i rest hi ht
  show s.t.now ≤ setAt s.spAt s.next s.t.now (2 * i + 1) + d
  rcases getElem?_snoc hi with hi | ⟨rfl, -⟩
  · have := getElem?_lt hi
    have hne : 2 * i + 1 ≠ s.next := by unfold SState.next; omega
    rw [spawn_threads, if_neg hne] at ht
    rw [setAt, if_neg hne]
    exact h i rest hi ht
  · rw [setAt, if_pos (by unfold SState.next; rfl)]; omega

theorem tail_spawn {d c : Nat} {s : SState} (hj : JobOk s) (h : PromptTail d c s) (job : List UCall) : PromptTail d c (s.spawn job) := by
  intro k hk
  have hk : s.loops c = .last k := hk
  obtain ⟨i, rfl, hi⟩ := hj.tail c k hk
  have := getElem?_lt hi
  have hne : 2 * i + 1 ≠ s.next := by unfold SState.next; omega
  rw [spawn_threads, if_neg hne]
  exact h _ hk

/-- What the goroutine of `c` does where it is its turn. -/
theorem loop_cases {cfg : SCfg} (hcb : ∀ f, cfg.onClose = some f → ∀ c, f c = []) {c : Nat} {x : LSel} {s s' : SState}
    (hs : s.step cfg (.loop c x) = some s') :
    (∃ a m rest, s.loops c = .read ∧ s.inbox c = (a, m) :: rest ∧
      s' = ({ s with inbox := fun c' => if c' = c then rest else s.inbox c' }.setLoop c (if cfg.takes m then .go m else .leaving)).log (.read c m)) ∨
    (s.loops c = .read ∧ s' = s.setLoop c .leaving) ∨
    (∃ m, s.loops c = .go m ∧ s' = ((s.spawn (cfg.job c m)).setLoop c .read).log (.begun c m s.next)) ∨
    (s.loops c = .leaving ∧ (s' = (s.spawn [.close c]).setLoop c (.last s.next) ∨
      s' = ((s.spawn [.close c]).setLoop c (.last s.next)).log (.onClose c))) := by
  simp only [SState.step, SState.loopStep] at hs
  repeat' split at hs
  all_goals first
    | (cases hs; done)
    | (simp only [Option.some.injEq] at hs; subst hs)
  · exact .inl ⟨_, _, _, by assumption, by assumption, by simp [*]⟩
  · exact .inl ⟨_, _, _, by assumption, by assumption, by simp [*]⟩
  · exact .inr (.inl ⟨by assumption, rfl⟩)
  · exact .inr (.inr (.inl ⟨_, by assumption, rfl⟩))
  · exact .inr (.inr (.inr ⟨by assumption, .inl rfl⟩))
  · rename_i f hf
    refine .inr (.inr (.inr ⟨by assumption, .inr ?_⟩))
    rw [hcb f hf]; rfl

/-- A goroutine of a connection that goes on makes nobody late. -/
theorem punctual_loop {cfg : SCfg} (hcb : ∀ f, cfg.onClose = some f → ∀ c, f c = []) {d c : Nat} {x : LSel} {s s' : SState} (hj : JobOk s)
    (h : Punctual cfg d s) (hs : s.step cfg (.loop c x) = some s') : Punctual cfg d s' := by
  have others : ∀ (c' : Nat) (s'' : SState) (es : List (Nat × SEv)), c' ≠ c → s''.t.now = s.t.now → s''.loops c' = s.loops c' →
      s''.lpAt c' = s.lpAt c' → s''.inbox c' = s.inbox c' → (es = [] ∨ ∃ m, es = [(s.t.now, .read c m)] ∨ (∃ k, es = [(s.t.now, .begun c m k)]) ∨
        es = [(s.t.now, .onClose c)]) → s''.ev = es ++ s.ev → PromptLoop d c' s'' := by
    intro c' s'' es hc h1 h2 h3 h4 h5 h6
    have k1 : ShutIn c' s''.ev ↔ ShutIn c' s.ev := by
      rw [h6]
      rcases h5 with rfl | ⟨m, rfl | ⟨k, rfl⟩ | rfl⟩
      · exact Iff.rfl
      all_goals exact shutIn_cons (by simp)
    have k2 : shutAt c' s''.ev = shutAt c' s.ev := by
      rw [h6]
      rcases h5 with rfl | ⟨m, rfl | ⟨k, rfl⟩ | rfl⟩ <;> rfl
    have k3 : hungAt c' s''.ev = hungAt c' s.ev := by
      rw [h6]
      rcases h5 with rfl | ⟨m, rfl | ⟨k, rfl⟩ | rfl⟩ <;> rfl
    have := h.loop c'
    unfold PromptLoop at *
    rw [h1, h2, h3, h4, k2, k3, k1]
    exact this
  rcases loop_cases hcb hs with ⟨a, m, rest, hl, hb, rfl⟩ | ⟨hl, rfl⟩ | ⟨m, hl, rfl⟩ | ⟨hl, hs'⟩
  · refine ⟨h.watch, h.calls, fun c' => ?_, h.begin, fun c' k hk => ?_⟩
    · by_cases hc : c' = c
      · subst hc
        have hp := h.loop c'
        unfold PromptLoop at hp
        rw [hl, hb] at hp
        unfold PromptLoop
        simp only [SState.setLoop, SState.log, if_true, setAt, shutIn_cons (e := .read c' m) (by simp)]
        by_cases ht : cfg.takes m = true
        · simp only [ht, if_true]
          exact ⟨by omega, fun h1 a' m' hm => hp.2.2 h1 a' m' (List.mem_cons_of_mem _ hm)⟩
        · simp only [ht]
          show s.t.now ≤ s.t.now + d
          omega
      · exact others c' _ [(s.t.now, .read c m)] hc rfl (by simp [SState.setLoop, SState.log, hc]) (by simp [SState.setLoop, SState.log, hc, setAt])
          (by simp [SState.setLoop, SState.log, hc]) (.inr ⟨m, .inl rfl⟩) rfl
    · by_cases hc : c' = c
      · subst hc
        simp only [SState.setLoop, SState.log, if_true] at hk
        split at hk <;> cases hk
      · simp only [SState.setLoop, SState.log, hc, if_false, setAt] at hk ⊢
        exact h.tail c' k hk
  · refine ⟨h.watch, h.calls, fun c' => ?_, h.begin, fun c' k hk => ?_⟩
    · by_cases hc : c' = c
      · subst hc
        unfold PromptLoop
        simp only [SState.setLoop, if_true, setAt]
        omega
      · exact others c' _ [] hc rfl (by simp [SState.setLoop, hc]) (by simp [SState.setLoop, hc, setAt])
          (by simp [SState.setLoop]) (.inl rfl) rfl
    · by_cases hc : c' = c
      · subst hc
        simp only [SState.setLoop, if_true] at hk
        cases hk
      · simp only [SState.setLoop, hc, if_false, setAt] at hk ⊢
        exact h.tail c' k hk
  · refine ⟨h.watch, fun c => calls_spawn (h.calls c) _, fun c' => ?_, fun c => start_spawn (h.begin c) _, fun c' k hk => ?_⟩
    · by_cases hc : c' = c
      · subst hc
        have hp := h.loop c'
        unfold PromptLoop at hp
        rw [hl] at hp
        unfold PromptLoop
        simp only [SState.setLoop, SState.log, if_true, setAt]
        refine ⟨fun t _ => ?_, fun t _ _ => ?_, fun h1 a' m' hm => hp.2 (fun h2 => h1 ((shutIn_cons (by simp)).2 h2)) a' m' hm⟩
        · show s.t.now ≤ max s.t.now t + d
          omega
        · show s.t.now ≤ max s.t.now t + d
          omega
      · exact others c' _ [(s.t.now, .begun c m s.next)] hc rfl (by simp [SState.setLoop, SState.log, hc, SState.spawn])
          (by simp [SState.setLoop, SState.log, hc, setAt, SState.spawn])
          (by simp [SState.setLoop, SState.log, SState.spawn]) (.inr ⟨m, .inr (.inl ⟨_, rfl⟩)⟩) rfl
    · by_cases hc : c' = c
      · subst hc
        simp only [SState.setLoop, SState.log, if_true] at hk
        cases hk
      · have := tail_spawn hj (h.tail c') (cfg.job c m) k
        simp only [SState.setLoop, SState.log, hc, if_false, setAt] at hk ⊢
        exact this hk
  · have key : ∀ s'' es, s''.t = (s.spawn [.close c]).t → s''.spawned = s.spawned ++ [[.close c]] → s''.spAt = (s.spawn [.close c]).spAt →
        s''.loops = ((s.spawn [.close c]).setLoop c (.last s.next)).loops → s''.lpAt = setAt s.lpAt c s.t.now → s''.inbox = s.inbox →
        (es = [] ∨ es = [(s.t.now, .onClose c)]) → s''.ev = es ++ s.ev → Punctual cfg d s'' := by
      intro s'' es e1 e2 e3 e4 e5 e6 e7 e8
      refine ⟨by rw [e1]; exact h.watch, fun c => by rw [e1]; exact calls_spawn (h.calls c) _, fun c' => ?_, fun c' => ?_, fun c' k hk => ?_⟩
      · by_cases hc : c' = c
        · subst hc
          unfold PromptLoop
          rw [e4]
          simp only [SState.setLoop, if_true]
        · refine others c' s'' es hc (by rw [e1]; rfl) (by rw [e4]; simp [SState.setLoop, hc, SState.spawn]) (by rw [e5]; simp [setAt, hc]) (by rw [e6]) ?_ e8
          rcases e7 with rfl | rfl
          · exact .inl rfl
          · exact .inr ⟨0, .inr (.inr rfl)⟩
      · intro i rest
        rw [e1, e2, e3]
        exact start_spawn (h.begin c') [.close c] i rest
      · rw [e4] at hk
        by_cases hc : c' = c
        · subst hc
          simp only [SState.setLoop, if_true] at hk
          cases hk
          rw [e1, e5]
          show (_ → s.t.now ≤ setAt s.lpAt c' s.t.now c' + d) ∧ (_ → s.t.now ≤ setAt s.lpAt c' s.t.now c' + 2 * d)
          simp only [setAt, if_true]
          exact ⟨fun _ => by omega, fun _ => by omega⟩
        · have := tail_spawn hj (h.tail c') [.close c] k
          simp only [SState.setLoop, hc, if_false] at hk
          rw [e1, e5, setAt, if_neg hc]
          exact this hk
    rcases hs' with rfl | rfl
    · exact key _ [] rfl rfl rfl rfl rfl rfl (.inl rfl) rfl
    · exact key _ [(s.t.now, .onClose c)] rfl rfl rfl rfl rfl rfl (.inr rfl) rfl

/-- No step makes anybody late, except that time passes. -/
theorem punctual_step {cfg : SCfg} (hcb : ∀ f, cfg.onClose = some f → ∀ c, f c = []) {d : Nat} {s s' : SState} {l : SLabel} (hj : JobOk s)
    (h : Punctual cfg d s) (hl : ∀ n, l ≠ .base (.delay n)) (hs : s.step cfg l = some s') : Punctual cfg d s' := by
  cases l with
  | base a =>
    cases a with
    | delay n => exact absurd rfl (hl n)
    | act a => exact punctual_base hj h hs
  | arrive c m => exact punctual_arrive h hs
  | hangup c => exact punctual_hangup h hs
  | reset c => exact punctual_reset h hs
  | loop c x => exact punctual_loop hcb hj h hs

end Tcpx
