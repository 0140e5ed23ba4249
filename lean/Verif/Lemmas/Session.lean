import Verif.Spec.Session
import Verif.Lemmas.Timed
/-! # A run of connections as a whole is a run of the watchers, with the goroutines started given in advance -/
namespace Tcpx
open Spec

/-- The goroutines for which `f` does not hold replaced by ones that have not yet begun on `J`. -/
def WState.fill (f : Nat → Bool) (J : Nat → List UCall) (w : WState) : WState :=
  { w with threads := fun i => if f i then w.threads i else ⟨.idle, J i⟩ }

/-- The same with a clock. -/
def TState.fill (f : Nat → Bool) (J : Nat → List UCall) (t : TState) : TState := { t with w := t.w.fill f J }

theorem hbStep_fill (cfg : WCfg) (f : Nat → Bool) (J : Nat → List UCall) (w : WState) (c : Nat) (x : Sel) :
    hbStep cfg (w.fill f J) c x = (hbStep cfg w c x).map (WState.fill f J) := by
  have e : (w.fill f J).ctxs = w.ctxs := rfl
  cases h : (w.ctxs c).hb <;> cases x <;> simp only [hbStep, e, h, Option.map_none, Option.map_some] <;> try rfl
  all_goals
    repeat' split
    all_goals first
      | rfl
      | (simp_all [WState.fill]; done)

theorem bcStep_fill (f : Nat → Bool) (J : Nat → List UCall) (w : WState) (c : Nat) (x : Sel) :
    bcStep (w.fill f J) c x = (bcStep w c x).map (WState.fill f J) := by
  have e : (w.fill f J).ctxs = w.ctxs := rfl
  cases h : (w.ctxs c).bc <;> cases x <;> simp only [bcStep, e, h, Option.map_none, Option.map_some] <;> try rfl
  all_goals
    repeat' split
    all_goals first
      | rfl
      | (simp_all [WState.fill]; done)

theorem auStep_fill (f : Nat → Bool) (J : Nat → List UCall) (w : WState) (c : Nat) (x : Sel) :
    auStep (w.fill f J) c x = (auStep w c x).map (WState.fill f J) := by
  have e : (w.fill f J).ctxs = w.ctxs := rfl
  cases h : (w.ctxs c).au <;> cases x <;> simp only [auStep, e, h, Option.map_none, Option.map_some] <;> try rfl
  all_goals
    repeat' split
    all_goals first
      | rfl
      | (simp_all [WState.fill]; done)

theorem setThread_fill (f : Nat → Bool) (J : Nat → List UCall) (w : WState) (i : Nat) (t : UThread) (hi : f i = true) :
    (w.setThread i t).fill f J = (w.fill f J).setThread i t := by
  simp only [WState.setThread, WState.fill]
  congr 1
  funext j
  by_cases hj : j = i
  · subst hj; simp [hi]
  · simp [hj]

theorem userStep_fill (f : Nat → Bool) (J : Nat → List UCall) (w : WState) (i : Nat) (hi : f i = true) :
    userStep (w.fill f J) i = (userStep w i).map (WState.fill f J) := by
  have e : (w.fill f J).threads i = w.threads i := by simp [WState.fill, hi]
  have st : ∀ (w : WState) (t : UThread), (w.fill f J).setThread i t = (w.setThread i t).fill f J := fun w t => (setThread_fill f J w i t hi).symm
  cases h : (w.threads i).pc with
  | idle =>
    simp only [userStep, e, h]
    cases hr : (w.threads i).rest with
    | nil => rfl
    | cons u rest =>
      simp only [st]
      by_cases hu : u.ctx < w.n
      · have hu' : u.ctx < (w.fill f J).n := hu
        rw [if_pos hu, if_pos hu']; rfl
      · have hu' : ¬ u.ctx < (w.fill f J).n := hu
        rw [if_neg hu, if_neg hu']; rfl
  | beatLoad c => simp only [userStep, e, h, st]; rfl
  | beatCreate c =>
    simp only [userStep, e, h, Option.map_some]
    have : ((w.fill f J).setCtx c { (w.fill f J).ctxs c with chan := some (w.fill f J).nchan }) =
      (w.setCtx c { w.ctxs c with chan := some w.nchan }).fill f J := rfl
    rw [this, st]; rfl
  | beatSend c ch =>
    simp only [userStep, e, h]
    by_cases hb : w.buf ch = true
    · have hb' : (w.fill f J).buf ch = true := hb
      rw [if_pos hb, if_pos hb']; rfl
    · have hb' : ¬ (w.fill f J).buf ch = true := hb
      rw [if_neg hb, if_neg hb']
      have : (w.fill f J).setBuf ch true = (w.setBuf ch true).fill f J := rfl
      rw [this, st]; rfl
  | authSend c v =>
    simp only [userStep, e, h]
    have e1 : (w.fill f J).ctxs c = w.ctxs c := rfl
    rw [e1]
    cases (w.ctxs c).auth with
    | some _ => rfl
    | none =>
      simp only [Option.map_some]
      have : ∀ x, (w.fill f J).setCtx c x = (w.setCtx c x).fill f J := fun _ => rfl
      rw [this, st]; rfl
  | closing c => simp only [userStep, e, h, st]; rfl

theorem wstep_fill (cfg : WCfg) (f : Nat → Bool) (J : Nat → List UCall) (w : WState) (l : WLabel) (hl : ∀ i, l = .user i → f i = true) :
    (w.fill f J).step cfg l = (w.step cfg l).map (WState.fill f J) := by
  cases l with
  | hb c x => exact hbStep_fill cfg f J w c x
  | bc c x => exact bcStep_fill f J w c x
  | au c x => exact auStep_fill f J w c x
  | user i => exact userStep_fill f J w i (hl i rfl)
  | accept o => rfl
  | stop b => rfl
  | listen n p l => rfl

theorem tstep_fill (cfg : TCfg) (f : Nat → Bool) (J : Nat → List UCall) (t : TState) (l : TLabel)
    (hl : ∀ i, l = .act (.user i) → f i = true) : (t.fill f J).step cfg l = (t.step cfg l).map (TState.fill f J) := by
  cases l with
  | delay d => rfl
  | act a =>
    have hd : (t.fill f J).due cfg a = t.due cfg a := by
      cases a <;> first | rfl | (rename_i x; cases x <;> rfl)
    simp only [TState.step, hd]
    cases t.due cfg a with
    | false => rfl
    | true =>
      simp only [if_true]
      have := wstep_fill cfg.w f J t.w a (fun i hi => hl i (by rw [hi]))
      show ((t.w.fill f J).step cfg.w a).map _ = _
      rw [this]
      cases t.w.step cfg.w a with
      | none => rfl
      | some w' =>
        simp only [Option.map_some, Option.some.injEq]
        cases a with
        | user i =>
          have e : (t.w.fill f J).threads i = t.w.threads i := by simp [WState.fill, hl i rfl]
          simp only [TState.after, TState.fill, e]
          rfl
        | _ => rfl

/-- Whether goroutine `i` was given in advance or has been started. -/
def started (n i : Nat) : Bool := decide (i % 2 = 0) || decide (i / 2 < n)

/-- No goroutine that has not been started has anything to do. -/
def UnstartedOk (s : SState) : Prop := ∀ i, started s.spawned.length i = false → s.t.w.threads i = ⟨.idle, []⟩

theorem SState.run_append (cfg : SCfg) (s : SState) (l1 l2 : List SLabel) : s.run cfg (l1 ++ l2) = (s.run cfg l1).run cfg l2 := by
  induction l1 generalizing s with
  | nil => rfl
  | cons l ls ih => exact ih _

/-- Induction over a run, with something known of every state passed through. -/
theorem SState.run_induct {cfg : SCfg} {H P : SState → Prop} {s : SState} {ls : List SLabel} (hH : SThroughout cfg s ls H) (h0 : P s)
    (hs : ∀ s l s', P s → H s → H s' → s.step cfg l = some s' → P s') : P (s.run cfg ls) := by
  induction ls generalizing s with
  | nil => exact h0
  | cons l ls ih =>
    have ht : SThroughout cfg ((s.step cfg l).getD s) ls H := fun k => hH (k + 1)
    refine ih ht ?_
    cases h : s.step cfg l with
    | none => exact h0
    | some s' =>
      have h1 := ht 0
      rw [h] at h1
      exact hs s l s' h0 (hH 0) h1 h

theorem sthroughout_true (cfg : SCfg) (s : SState) (ls : List SLabel) : SThroughout cfg s ls (fun _ => True) := fun _ => trivial

/-- What a step does: the watchers, goroutines or the clock; a goroutine is started; or neither. -/
theorem sstep_cases {cfg : SCfg} {s s' : SState} {l : SLabel} (hs : s.step cfg l = some s') :
    (∃ a t', l = .base a ∧ s.t.step cfg.t a = some t' ∧ s'.t = t' ∧ s'.spawned = s.spawned ∧ s'.spAt = s.spAt ∧ s'.inbox = s.inbox ∧
      s'.hung = s.hung ∧ s'.ev = (newEvents s.t.w t'.w).map (fun e => (s.t.now, .w e)) ++ s.ev ∧
      (a = .act (.accept .tcp) ∧ s'.loops = (s.setLoop s.t.w.n .read).loops ∧ s'.lpAt = setAt s.lpAt s.t.w.n t'.now ∨
        a ≠ .act (.accept .tcp) ∧ s'.loops = s.loops ∧ s'.lpAt = s.lpAt)) ∨
    (∃ j, (∀ a, l ≠ .base a) ∧ s'.t = (s.spawn j).t ∧ s'.spawned = s.spawned ++ [j]) ∨
    ((∀ a, l ≠ .base a) ∧ s'.t = s.t ∧ s'.spawned = s.spawned) := by
  cases l with
  | base a =>
    left
    simp only [SState.step] at hs
    cases h : s.t.step cfg.t a with
    | none => rw [h] at hs; cases hs
    | some t' =>
      rw [h] at hs
      simp only [Option.map_some, Option.some.injEq] at hs
      refine ⟨a, t', rfl, h, ?_⟩
      subst hs
      split
      · exact ⟨rfl, rfl, rfl, rfl, rfl, rfl, .inl ⟨rfl, rfl, rfl⟩⟩
      · exact ⟨rfl, rfl, rfl, rfl, rfl, rfl, .inr ⟨by assumption, rfl, rfl⟩⟩
  | arrive c m =>
    right; right
    simp only [SState.step] at hs
    split at hs
    · cases hs
    · simp only [Option.some.injEq] at hs; subst hs; exact ⟨by simp, rfl, rfl⟩
  | hangup c =>
    right; right
    simp only [SState.step] at hs
    split at hs
    · cases hs
    · simp only [Option.some.injEq] at hs; subst hs; exact ⟨by simp, rfl, rfl⟩
  | reset c =>
    right; right
    simp only [SState.step] at hs
    split at hs
    · cases hs
    · simp only [Option.some.injEq] at hs; subst hs; exact ⟨by simp, rfl, rfl⟩
  | loop c x =>
    right
    simp only [SState.step, SState.loopStep] at hs
    repeat' split at hs
    all_goals first
      | (cases hs; done)
      | (simp only [Option.some.injEq] at hs; subst hs)
    all_goals first
      | exact .inr ⟨by simp, rfl, rfl⟩
      | exact .inl ⟨_, by simp, rfl, rfl⟩

/-- A watcher or control step leaves goroutines of user code alone, and a step of one the others. -/
theorem threads_step {cfg : TCfg} {t t' : TState} {a : TLabel} (hs : t.step cfg a = some t') (i : Nat) (hi : a ≠ .act (.user i)) :
    t'.w.threads i = t.w.threads i := by
  rcases tstep_cases hs with ⟨d, rfl⟩ | ⟨a, w', rfl, -, hw, rfl⟩
  · rfl
  · clear hs
    have hi' : a ≠ .user i := fun h => hi (by rw [h])
    clear hi
    show w'.threads i = t.w.threads i
    cases a <;> wstep hw
    all_goals try rfl
    all_goals
      simp_all
      try (intro h; exact absurd h.symm hi')

theorem userStep_nothing (s : WState) (i : Nat) (h : s.threads i = ⟨.idle, []⟩) : userStep s i = none := by
  simp [userStep, h]

theorem unstarted_step {cfg : SCfg} {s s' : SState} {l : SLabel} (h : UnstartedOk s) (hs : s.step cfg l = some s') : UnstartedOk s' := by
  intro i hi
  rcases sstep_cases hs with ⟨a, t', rfl, ht, e1, e2, -⟩ | ⟨j, -, e1, e2⟩ | ⟨-, e1, e2⟩
  · rw [e2] at hi
    have h0 := h i hi
    rw [e1]
    by_cases ha : a = .act (.user i)
    · subst ha
      exfalso
      simp only [TState.step, WState.step, userStep_nothing s.t.w i h0] at ht
      split at ht <;> cases ht
    · rw [threads_step ht i ha]; exact h0
  · rw [e2] at hi
    simp only [started, List.length_append, List.length_cons, List.length_nil, Bool.or_eq_false_iff, decide_eq_false_iff_not] at hi
    have h0 := h i (by simp only [started, Bool.or_eq_false_iff, decide_eq_false_iff_not]; omega)
    rw [e1]
    have hne : i ≠ s.next := by unfold SState.next; omega
    simp only [SState.spawn, WState.setThread]
    rw [if_neg hne]; exact h0
  · rw [e2] at hi
    rw [e1]; exact h i hi

theorem unstarted_start (life : Life) (jobs : Nat → List UCall) : UnstartedOk (.start life jobs) := by
  intro i hi
  simp only [started, Bool.or_eq_false_iff, decide_eq_false_iff_not] at hi
  simp [SState.start, TState.start, WState.start, hi.1]

theorem unstarted_run (cfg : SCfg) (life : Life) (jobs : Nat → List UCall) (ls : List SLabel) : UnstartedOk (srun cfg life jobs ls) :=
  SState.run_induct (sthroughout_true _ _ _) (unstarted_start life jobs) fun _ _ _ h _ _ hs => unstarted_step h hs

/-! ## The simulation -/

/-- The steps of the watchers, of user code and of the clock that are taken in a run. -/
def proj (cfg : SCfg) (s : SState) : List SLabel → List TLabel
  | [] => []
  | l :: ls =>
    (match l with
      | .base a => if (s.t.step cfg.t a).isSome then [a] else []
      | _ => []) ++ proj cfg ((s.step cfg l).getD s) ls

theorem spawned_prefix (cfg : SCfg) (s : SState) (ls : List SLabel) : s.spawned <+: (s.run cfg ls).spawned := by
  induction ls generalizing s with
  | nil => exact List.prefix_refl _
  | cons l ls ih =>
    refine List.IsPrefix.trans ?_ (ih _)
    cases hs : s.step cfg l with
    | none => exact List.prefix_refl _
    | some s' =>
      show s.spawned <+: s'.spawned
      rcases sstep_cases hs with ⟨a, t', -, -, -, e, -⟩ | ⟨j, -, -, e⟩ | ⟨-, -, e⟩
      · rw [e]; exact List.prefix_refl _
      · rw [e]; exact List.prefix_append _ _
      · rw [e]; exact List.prefix_refl _

/-- `J` gives the goroutines started what they have to do. -/
def Gives (J : Nat → List UCall) (spawned : List (List UCall)) : Prop := ∀ k j, spawned[k]? = some j → J (2 * k + 1) = j

theorem gives_prefix {J : Nat → List UCall} {l1 l2 : List (List UCall)} (h : Gives J l2) (hp : l1 <+: l2) : Gives J l1 := by
  intro k j hk
  refine h k j ?_
  obtain ⟨r, rfl⟩ := hp
  rw [List.getElem?_append_left (by
    rcases Nat.lt_or_ge k l1.length with h | h
    · exact h
    · rw [List.getElem?_eq_none h] at hk; cases hk)]
  exact hk

/-- The state with what is still to be started filled in. -/
def SState.filled (J : Nat → List UCall) (s : SState) : TState := s.t.fill (started s.spawned.length) J

theorem sim_step {cfg : SCfg} {s s' : SState} {l : SLabel} {J : Nat → List UCall} (hi : UnstartedOk s) (hJ : Gives J s'.spawned)
    (hs : s.step cfg l = some s') :
    (∃ a, l = .base a ∧ (s.t.step cfg.t a).isSome = true ∧ (s.filled J).step cfg.t a = some (s'.filled J)) ∨
    (∀ a, l ≠ .base a) ∧ s'.filled J = s.filled J := by
  rcases sstep_cases hs with ⟨a, t', rfl, ht, e1, e2, -⟩ | ⟨j, hl, e1, e2⟩ | ⟨hl, e1, e2⟩
  · left
    refine ⟨a, rfl, by rw [ht]; rfl, ?_⟩
    rw [SState.filled, tstep_fill, ht, SState.filled, e1, e2]
    · rfl
    · intro i ha
      subst ha
      apply Classical.byContradiction
      intro hf
      simp only [Bool.not_eq_true] at hf
      simp only [TState.step, WState.step, userStep_nothing s.t.w i (hi i hf)] at ht
      split at ht <;> cases ht
  · right
    refine ⟨hl, ?_⟩
    have hj : J (2 * s.spawned.length + 1) = j := hJ _ j (by rw [e2]; simp)
    simp only [SState.filled, e1, e2, TState.fill, SState.spawn, WState.fill, WState.setThread, SState.next]
    congr 2
    funext i
    by_cases h1 : i = 2 * s.spawned.length + 1
    · subst h1
      have : started s.spawned.length (2 * s.spawned.length + 1) = false := by
        simp only [started, Bool.or_eq_false_iff, decide_eq_false_iff_not]; omega
      have : started (s.spawned ++ [j]).length (2 * s.spawned.length + 1) = true := by
        simp only [started, List.length_append, List.length_cons, List.length_nil, Bool.or_eq_true, decide_eq_true_eq]; omega
      simp_all
    · have : started (s.spawned.length + 1) i = started s.spawned.length i := by
        rw [Bool.eq_iff_iff]
        simp only [started, Bool.or_eq_true, decide_eq_true_eq]
        omega
      simp only [List.length_append, List.length_cons, List.length_nil, Nat.zero_add, this]
      simp [h1]
  · right
    exact ⟨hl, by rw [SState.filled, SState.filled, e1, e2]⟩

theorem sim_run {cfg : SCfg} {s : SState} {J : Nat → List UCall} (ls : List SLabel) (hi : UnstartedOk s) (hJ : Gives J (s.run cfg ls).spawned) :
    (s.filled J).run cfg.t (proj cfg s ls) = (s.run cfg ls).filled J := by
  induction ls generalizing s with
  | nil => rfl
  | cons l ls ih =>
    cases hs : s.step cfg l with
    | none =>
      have h1 : s.run cfg (l :: ls) = s.run cfg ls := by simp [SState.run, hs]
      have h2 : proj cfg s (l :: ls) = proj cfg s ls := by
        simp only [proj, hs, Option.getD_none]
        cases l with
        | base a =>
          simp only [SState.step, Option.map_eq_none_iff] at hs
          simp [hs]
        | _ => rfl
      rw [h1] at hJ ⊢
      rw [h2]
      exact ih hi hJ
    | some s' =>
      have h1 : s.run cfg (l :: ls) = s'.run cfg ls := by simp [SState.run, hs]
      rw [h1] at hJ ⊢
      have hJ' : Gives J s'.spawned := gives_prefix hJ (spawned_prefix cfg s' ls)
      rcases sim_step hi hJ' hs with ⟨a, rfl, hso, hst⟩ | ⟨hl, he⟩
      · have h2 : proj cfg s (.base a :: ls) = a :: proj cfg s' ls := by simp [proj, hs, hso]
        rw [h2]
        show ((s.filled J).step cfg.t a |>.getD _).run cfg.t _ = _
        rw [hst]
        exact ih (unstarted_step hi hs) hJ
      · have h2 : proj cfg s (l :: ls) = proj cfg s' ls := by
          simp only [proj, hs, Option.getD_some]
          cases l with
          | base a => exact absurd rfl (hl a)
          | _ => rfl
        rw [h2, ← he]
        exact ih (unstarted_step hi hs) hJ

/-- The calls of user code as if they had all been given in advance. -/
def allJobs (jobs : Nat → List UCall) (spawned : List (List UCall)) (i : Nat) : List UCall :=
  if i % 2 = 0 then jobs (i / 2) else (spawned[i / 2]?).getD []

theorem allJobs_gives (jobs : Nat → List UCall) (spawned : List (List UCall)) : Gives (allJobs jobs spawned) spawned := by
  intro k j hk
  have h1 : (2 * k + 1) % 2 ≠ 0 := by omega
  have h2 : (2 * k + 1) / 2 = k := by omega
  simp only [allJobs, if_neg h1, h2, hk, Option.getD_some]

/-- A run of connections as a whole, seen as a run of the watchers. -/
theorem session_sim (cfg : SCfg) (life : Life) (jobs : Nat → List UCall) (ls : List SLabel) (k : Nat) :
    (TState.start life (allJobs jobs (srun cfg life jobs ls).spawned)).run cfg.t (proj cfg (.start life jobs) (ls.take k)) =
      (srun cfg life jobs (ls.take k)).filled (allJobs jobs (srun cfg life jobs ls).spawned) := by
  rw [srun, ← sim_run (ls.take k) (unstarted_start life jobs)]
  · congr 1
    simp only [SState.filled, SState.start, TState.start, TState.fill, WState.start, WState.fill, started]
    congr 2
    funext i
    by_cases hi : i % 2 = 0
    · simp [hi, allJobs]
    · simp [hi]
  · refine gives_prefix (allJobs_gives _ _) ?_
    have := spawned_prefix cfg ((SState.start life jobs).run cfg (ls.take k)) (ls.drop k)
    rwa [← SState.run_append, List.take_append_drop] at this

theorem proj_take (cfg : SCfg) (s : SState) (ls : List SLabel) (j : Nat) : ∃ k, (proj cfg s ls).take j = proj cfg s (ls.take k) := by
  induction ls generalizing s j with
  | nil => exact ⟨0, by simp [proj]⟩
  | cons l ls ih =>
    by_cases hb : ∃ a, l = .base a ∧ (s.t.step cfg.t a).isSome = true
    · obtain ⟨a, rfl, ha⟩ := hb
      have h2 : ∀ ls, proj cfg s (.base a :: ls) = a :: proj cfg ((s.step cfg (.base a)).getD s) ls := by simp [proj, ha]
      cases j with
      | zero => exact ⟨0, by simp [proj]⟩
      | succ j =>
        obtain ⟨k, hk⟩ := ih ((s.step cfg (.base a)).getD s) j
        refine ⟨k + 1, ?_⟩
        rw [h2, List.take_succ_cons, List.take_succ_cons, h2, hk]
    · have h2 : ∀ ls, proj cfg s (l :: ls) = proj cfg ((s.step cfg l).getD s) ls := by
        intro ls
        simp only [proj]
        cases l with
        | base a =>
          have : ¬ (s.t.step cfg.t a).isSome = true := fun h => hb ⟨a, rfl, h⟩
          simp [this]
        | _ => rfl
      obtain ⟨k, hk⟩ := ih ((s.step cfg l).getD s) j
      exact ⟨k + 1, by rw [h2, hk, List.take_succ_cons, h2]⟩

theorem proj_append (cfg : SCfg) (s : SState) (l1 l2 : List SLabel) : proj cfg s (l1 ++ l2) = proj cfg s l1 ++ proj cfg (s.run cfg l1) l2 := by
  induction l1 generalizing s with
  | nil => rfl
  | cons l l1 ih => simp only [List.cons_append, proj, SState.run, ih, List.append_assoc]

/-- What holds throughout the one run holds throughout the other, if it does not depend on goroutines still to be started. -/
theorem throughout_sim {cfg : SCfg} {life : Life} {jobs : Nat → List UCall} {ls : List SLabel} {P : TState → Prop}
    (h : ∀ k, P ((srun cfg life jobs (ls.take k)).filled (allJobs jobs (srun cfg life jobs ls).spawned))) :
    Throughout cfg.t (.start life (allJobs jobs (srun cfg life jobs ls).spawned)) (proj cfg (.start life jobs) ls) P := by
  intro j
  obtain ⟨k, hk⟩ := proj_take cfg (.start life jobs) ls j
  rw [hk]
  have := session_sim cfg life jobs ls k
  rw [this]
  exact h k

end Tcpx
