import Verif.Lemmas.WatchLive
import Verif.Lemmas.WatchBeats
import Verif.Spec.Timed
/-! # Lemmas about the watchers with a clock -/
namespace Tcpx
open Spec

theorem TState.run_append (cfg : TCfg) (s : TState) (l1 l2 : List TLabel) : s.run cfg (l1 ++ l2) = (s.run cfg l1).run cfg l2 := by
  induction l1 generalizing s with
  | nil => rfl
  | cons l ls ih => exact ih _

/-- Induction over a run, with something known of every state passed through. -/
theorem TState.run_induct {cfg : TCfg} {H P : TState → Prop} {s : TState} {ls : List TLabel} (hH : Throughout cfg s ls H) (h0 : P s)
    (hs : ∀ s l s', P s → H s → H s' → s.step cfg l = some s' → P s') : P (s.run cfg ls) := by
  induction ls generalizing s with
  | nil => exact h0
  | cons l ls ih =>
    have ht : Throughout cfg ((s.step cfg l).getD s) ls H := fun k => hH (k + 1)
    refine ih ht ?_
    cases h : s.step cfg l with
    | none => exact h0
    | some s' =>
      have h1 := ht 0
      rw [h] at h1
      exact hs s l s' h0 (hH 0) h1 h

/-- The schedule without delays, and without the steps the clock forbids. -/
def untime (cfg : TCfg) (s : TState) : List TLabel → List WLabel
  | [] => []
  | .delay d :: ls => untime cfg ((s.step cfg (.delay d)).getD s) ls
  | .act l :: ls => if s.due cfg l then l :: untime cfg ((s.step cfg (.act l)).getD s) ls else untime cfg s ls

theorem untime_run (cfg : TCfg) (s : TState) (ls : List TLabel) : (s.run cfg ls).w = s.w.run cfg.w (untime cfg s ls) := by
  induction ls generalizing s with
  | nil => rfl
  | cons l ls ih =>
    cases l with
    | delay d => exact ih _
    | act l =>
      simp only [TState.run, untime]
      cases hd : s.due cfg l with
      | false => simp [TState.step, hd, ih]
      | true =>
        simp only [if_true, WState.run]
        rw [ih]
        congr 1
        simp only [TState.step, hd, if_true]
        cases s.w.step cfg.w l <;> rfl

theorem newEvents_append (s s' : WState) (es : List WatchEv) (h : s'.trace = es ++ s.trace) : newEvents s s' = es := by
  simp [newEvents, h]

theorem log_trace (cfg : TCfg) (life : Life) (jobs : Nat → List UCall) (ls : List TLabel) :
    ((TState.start life jobs).run cfg ls).log.map Prod.snd = ((TState.start life jobs).run cfg ls).w.trace := by
  refine TState.run_induct (H := fun _ => True) (P := fun s => s.log.map Prod.snd = s.w.trace) (fun _ => trivial) rfl ?_
  intro s l s' h _ _ hs
  cases l with
  | delay d =>
    simp only [TState.step, Option.some.injEq] at hs
    subst hs; exact h
  | act l =>
    simp only [TState.step] at hs
    split at hs
    · cases hw : s.w.step cfg.w l with
      | none => rw [hw] at hs; cases hs
      | some w' =>
        rw [hw] at hs
        simp only [Option.map_some, Option.some.injEq] at hs
        subst hs
        obtain ⟨es, he⟩ := trace_step hw
        simp [TState.after, newEvents_append _ _ _ he, he, h, Function.comp_def]
    · cases hs

theorem closedIn_iff (c : Nat) (log : List (Nat × WatchEv)) : ClosedIn c log ↔ IsClosed c (log.map Prod.snd) := by
  simp only [ClosedIn, IsClosed, List.mem_map, Prod.exists, exists_eq_right]
  grind

theorem atEachT_nil (e : WatchEv) (P : Nat → List (Nat × WatchEv) → Prop) : AtEachT e P [] := by
  intro post pre t h
  cases post <;> cases h

theorem atEachT_cons (e e' : WatchEv) (t : Nat) (P : Nat → List (Nat × WatchEv) → Prop) (tr : List (Nat × WatchEv)) :
    AtEachT e P ((t, e') :: tr) ↔ (e' = e → P t tr) ∧ AtEachT e P tr := by
  constructor
  · intro h
    exact ⟨fun he => h [] tr t (by rw [he]; rfl), fun post pre u hp => h ((t, e') :: post) pre u (by rw [hp]; rfl)⟩
  · rintro ⟨h1, h2⟩ post pre u hp
    cases post with
    | nil =>
      simp only [List.nil_append, List.cons.injEq, Prod.mk.injEq] at hp
      rw [← hp.2, ← hp.1.1]; exact h1 hp.1.2
    | cons a post =>
      simp only [List.cons_append, List.cons.injEq] at hp
      exact h2 post pre u hp.2

theorem newEvents_one (s s' : WState) (e : WatchEv) (h : s'.trace = e :: s.trace) : newEvents s s' = [e] :=
  newEvents_append s s' [e] h

/-- A timed step: a delay, or an untimed step with its clocks. -/
theorem tstep_cases {cfg : TCfg} {s s' : TState} {l : TLabel} (hs : s.step cfg l = some s') :
    (∃ d, s' = { s with now := s.now + d }) ∨
    ∃ a w', l = .act a ∧ s.due cfg a = true ∧ s.w.step cfg.w a = some w' ∧ s' = s.after w' a := by
  cases l with
  | delay d =>
    simp only [TState.step, Option.some.injEq] at hs
    exact .inl ⟨d, hs.symm⟩
  | act a =>
    simp only [TState.step] at hs
    split at hs
    · cases hw : s.w.step cfg.w a with
      | none => rw [hw] at hs; cases hs
      | some w' =>
        rw [hw] at hs
        simp only [Option.map_some, Option.some.injEq] at hs
        exact .inr ⟨a, w', rfl, by assumption, hw, hs.symm⟩
    · cases hs

theorem take_same (tr : List WatchEv) : tr.take (tr.length - tr.length) = [] := by simp

theorem take_one (e : WatchEv) (tr : List WatchEv) : (e :: tr).take ((e :: tr).length - tr.length) = [e] := by simp

theorem take_two (e e' : WatchEv) (tr : List WatchEv) : (e :: e' :: tr).take ((e :: e' :: tr).length - tr.length) = [e, e'] := by
  have : (e :: e' :: tr).length - tr.length = 2 := by simp only [List.length_cons]; omega
  rw [this]; rfl

/-- Unfold a timed step into its cases. -/
macro "tstep" h:ident : tactic => `(tactic| (
  wstep $h:ident
  all_goals simp only [TState.after, newEvents, take_same, take_one, take_two, List.map_cons, List.map_nil, List.nil_append, List.cons_append]))

/-! ## No loss before three intervals have passed -/

/-- How late a heartbeat watcher came to where it stands, if heartbeat was last heard at `h`. -/
def LowPc (I h a : Nat) : HbPc → Prop
  | .off => True
  | .top k => h + k * I ≤ a
  | .load k => h + k * I ≤ a
  | .create k => h + k * I ≤ a
  | .select k _ => h + k * I ≤ a
  | .lost => h + 3 * I ≤ a
  | .closing w => w = .loss → h + 3 * I ≤ a
  | .ended => True

structure LowOk (cfg : TCfg) (c : Nat) (s : TState) : Prop where
  now : s.hbAt c ≤ s.now
  known : c < s.w.n → (lastHeard c s.log).isSome = true
  heard : ∀ h, lastHeard c s.log = some h → h ≤ s.now ∧ LowPc cfg.interval h (s.hbAt c) (s.w.ctxs c).hb
  loss : AtEachT (.closed c .loss) (fun t pre => ∃ h, lastHeard c pre = some h ∧ h + 3 * cfg.interval ≤ t) s.log

theorem lowok_step {cfg : TCfg} {c : Nat} {s s' : TState} {l : TLabel} (hw : WInv s.w) (h : LowOk cfg c s)
    (hs : s.step cfg l = some s') : LowOk cfg c s' := by
  obtain ⟨h1, h0, h2, h3⟩ := h
  rcases tstep_cases hs with ⟨d, rfl⟩ | ⟨a, w', rfl, hdue, hst, rfl⟩
  · refine ⟨by simp only; omega, h0, fun h e => ?_, h3⟩
    obtain ⟨e2, e3⟩ := h2 h e
    exact ⟨by simp only; omega, e3⟩
  · clear hs
    have hf := hw.fresh c
    have hb := hw.hb
    have hau := hw.au
    have ht := hw.thr
    clear hw
    refine ⟨?_, ?_, ?_, ?_⟩
    · simp only [TState.after]
      cases a <;> simp only [setAt] <;> grind
    · clear h3 h2 hdue
      cases a <;> tstep hst
      all_goals try simp only [lastHeard]
      all_goals grind
    · clear h3
      cases a with
      | hb c' x =>
        by_cases hcc : c' = c
        · subst hcc
          simp only [TState.due] at hdue
          tstep hst
          all_goals try simp only [lastHeard, setAt]
          all_goals grind [LowPc]
        · tstep hst
          all_goals try simp only [lastHeard, setAt]
          all_goals grind
      | accept o =>
        clear hdue
        by_cases hcc : s.w.n = c
        · tstep hst
          all_goals simp only [lastHeard, setAt, hcc, if_true, LowPc, Option.some.injEq]
          all_goals grind
        · tstep hst
          all_goals simp only [lastHeard, setAt, hcc, if_false]
          all_goals grind
      | _ =>
        tstep hst
        all_goals try simp only [lastHeard]
        all_goals grind [LowPc]
    · clear hdue
      have k : (s.w.ctxs c).hb = .closing .loss → ∃ h, lastHeard c s.log = some h ∧ h + 3 * cfg.interval ≤ s.now := by
        intro hp
        have hc : c < s.w.n := Nat.lt_of_not_le fun hn => by rw [hf hn] at hp; cases hp
        obtain ⟨h, e⟩ := Option.isSome_iff_exists.1 (h0 hc)
        have := (h2 h e).2
        rw [hp] at this
        exact ⟨h, e, Nat.le_trans (this rfl) h1⟩
      clear h0 h2 h1
      cases a <;> tstep hst
      all_goals try simp only [atEachT_cons]
      all_goals grind

theorem throughout_true (cfg : TCfg) (s : TState) (ls : List TLabel) : Throughout cfg s ls (fun _ => True) := fun _ => trivial

theorem winv_timed (cfg : TCfg) (life : Life) (jobs : Nat → List UCall) (ls : List TLabel) :
    WInv ((TState.start life jobs).run cfg ls).w := by
  rw [untime_run]; exact winv_run _ _ _ _

theorem winv_tstep {cfg : TCfg} {s s' : TState} {l : TLabel} (hw : WInv s.w) (hs : s.step cfg l = some s') : WInv s'.w := by
  rcases tstep_cases hs with ⟨d, rfl⟩ | ⟨a, w', rfl, hdue, hst, rfl⟩
  · exact hw
  · exact winv_step hw hst

theorem lowok_run (cfg : TCfg) (life : Life) (jobs : Nat → List UCall) (c : Nat) (ls : List TLabel) :
    LowOk cfg c ((TState.start life jobs).run cfg ls) := by
  refine (TState.run_induct (P := fun s => WInv s.w ∧ LowOk cfg c s) (throughout_true _ _ _) ⟨winv_start life jobs, ?_⟩ ?_).2
  · exact ⟨Nat.le_refl _, fun h => absurd h (Nat.not_lt_zero _), fun h e => (by cases e), atEachT_nil _ _⟩
  · exact fun s l s' h _ _ hs => ⟨winv_tstep h.1 hs, lowok_step h.1 h.2 hs⟩

/-! ## A silent connection is closed in time -/

/-- The latest moment a prompt watcher came to where it stands; `X` is the most a silent round takes. -/
def UpPc (X d h a : Nat) : HbPc → Prop
  | .off => True
  | .top k => k < 3 ∧ a ≤ h + k * X
  | .load k => k < 3 ∧ a ≤ h + k * X + d
  | .create k => k < 3 ∧ a ≤ h + k * X + 2 * d
  | .select k _ => k < 3 ∧ a ≤ h + k * X + 3 * d
  | .lost => a ≤ h + 3 * X
  | .closing _ => a ≤ h + 3 * X + d
  | .ended => True

/-- The latest moment a prompt watcher leaves where it stands. -/
def LeavePc (X d h t : Nat) : HbPc → Prop
  | .off => True
  | .top k => k < 3 ∧ t ≤ h + k * X + d
  | .load k => k < 3 ∧ t ≤ h + k * X + 2 * d
  | .create k => k < 3 ∧ t ≤ h + k * X + 3 * d
  | .select k _ => k < 3 ∧ t ≤ h + k * X + X
  | .lost => t ≤ h + 3 * X + d
  | .closing _ => t ≤ h + 3 * X + 2 * d
  | .ended => True

theorem upPc_leave {cfg : TCfg} {d c h : Nat} {s : TState} (hp : PromptBeat cfg d c s)
    (hu : UpPc (cfg.interval + 4 * d) d h (s.hbAt c) (s.w.ctxs c).hb) : LeavePc (cfg.interval + 4 * d) d h s.now (s.w.ctxs c).hb := by
  unfold PromptBeat at hp
  generalize hX : cfg.interval + 4 * d = X at *
  cases hpc : (s.w.ctxs c).hb <;> rw [hpc] at hp hu <;> simp only [UpPc, LeavePc] at * <;> omega

theorem leavePc_le {X d h t : Nat} {pc : HbPc} (hd : d ≤ X) (hl : LeavePc X d h t pc) : pc = .off ∨ pc = .ended ∨ t ≤ h + 3 * X + 2 * d := by
  have m : ∀ k, k < 3 → k * X ≤ 2 * X := fun k hk => Nat.mul_le_mul_right _ (by omega)
  cases pc with
  | off => simp
  | ended => simp
  | lost => simp only [LeavePc] at hl; omega
  | closing w => simp only [LeavePc] at hl; omega
  | _ => have := m _ hl.1; simp only [LeavePc] at hl; omega

def UpOk (cfg : TCfg) (d c : Nat) (s : TState) : Prop :=
  ∀ h, lastHeard c s.log = some h → UpPc (cfg.interval + 4 * d) d h (s.hbAt c) (s.w.ctxs c).hb

theorem upok_step {cfg : TCfg} {d c : Nat} {s s' : TState} {l : TLabel} (hw : WInv s.w) (h : UpOk cfg d c s) (hp : PromptBeat cfg d c s)
    (hs : s.step cfg l = some s') : UpOk cfg d c s' := by
  rcases tstep_cases hs with ⟨d, rfl⟩ | ⟨a, w', rfl, hdue, hst, rfl⟩
  · exact h
  · clear hs hdue
    have hf := hw.fresh c
    have ht := hw.thr
    clear hw
    have k : ∀ h, lastHeard c s.log = some h → LeavePc (cfg.interval + 4 * d) d h s.now (s.w.ctxs c).hb := fun h' e => upPc_leave hp (h h' e)
    have m : ∀ k, k < 3 → k * (cfg.interval + 4 * d) ≤ 2 * (cfg.interval + 4 * d) := fun k hk => Nat.mul_le_mul_right _ (by omega)
    unfold UpOk at h ⊢
    clear hp
    cases a with
    | hb c' x =>
      by_cases hcc : c' = c
      · subst hcc
        clear h
        have hX : d ≤ cfg.interval + 4 * d := by omega
        generalize cfg.interval + 4 * d = X at *
        tstep hst
        all_goals try simp only [lastHeard, setAt]
        all_goals grind [UpPc, LeavePc]
      · clear k m
        tstep hst
        all_goals try simp only [lastHeard, setAt]
        all_goals grind
    | accept o =>
      clear k m
      by_cases hcc : s.w.n = c
      · tstep hst
        all_goals simp only [lastHeard, setAt, hcc, if_true, Option.some.injEq]
        all_goals grind [UpPc]
      · tstep hst
        all_goals simp only [lastHeard, setAt, hcc, if_false]
        all_goals grind
    | _ =>
      clear k m
      tstep hst
      all_goals try simp only [lastHeard]
      all_goals grind

/-! ## What ends a heartbeat watcher -/

structure EndOk (cfg : WCfg) (c : Nat) (s : WState) : Prop where
  closed : (s.ctxs c).endClosed = true → IsClosed c s.trace
  on : cfg.heartBeatOn = true → c < s.n → (s.ctxs c).hb ≠ .off
  ended : (s.ctxs c).hb = .ended → IsClosed c s.trace ∨ .lossCallback c true ∈ s.trace

theorem endok_step {cfg : WCfg} {c : Nat} {s s' : WState} {l : WLabel} (h : EndOk cfg c s) (hs : s.step cfg l = some s') :
    EndOk cfg c s' := by
  obtain ⟨h1, h2, h3⟩ := h
  refine ⟨?_, ?_, ?_⟩
  · clear h2 h3
    cases l <;> wstep hs
    all_goals simp only [isClosed_cons]
    all_goals grind
  · clear h1 h3
    cases l <;> wstep hs
    all_goals grind
  · clear h2
    cases l <;> wstep hs
    all_goals simp only [isClosed_cons, List.mem_cons]
    all_goals grind

theorem endok_run (cfg : WCfg) (life : Life) (jobs : Nat → List UCall) (c : Nat) (ls : List WLabel) :
    EndOk cfg c ((WState.start life jobs).run cfg ls) :=
  WState.run_induct ⟨fun h => (by cases h), fun _ h => absurd h (Nat.not_lt_zero _), fun h => (by cases h)⟩ (fun _ _ _ => endok_step) ls

/-! ## Heartbeats in time keep a connection -/

theorem closedIn_cons (c t : Nat) (e : WatchEv) (tr : List (Nat × WatchEv)) :
    ClosedIn c ((t, e) :: tr) ↔ (match e with | .closed c' _ => c' = c | _ => False) ∨ ClosedIn c tr := by
  rw [closedIn_iff, closedIn_iff, List.map_cons, isClosed_cons]
  exact Iff.rfl

end Tcpx
