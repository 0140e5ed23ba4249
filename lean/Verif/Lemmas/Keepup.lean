import Verif.Lemmas.Beat
import Verif.Lemmas.Timed
import Verif.Lemmas.WatchClose
import Verif.Spec.Keepup
/-! # Watchers can keep up (C118) -/
namespace Tcpx
open Spec

theorem closedAt_isSome {c : Nat} {log : List (Nat × WatchEv)} {t : Nat} (h : closedAt c log = some t) : IsClosed c (log.map Prod.snd) := by
  induction log with
  | nil => cases h
  | cons e tr ih =>
    obtain ⟨t', e⟩ := e
    rw [List.map_cons, isClosed_cons]
    cases e with
    | closed c' w =>
      simp only [closedAt] at h
      by_cases hc : c' = c
      · exact .inl hc
      · simp only [if_neg hc, Option.or_none] at h
        exact .inr (ih h)
    | _ => exact .inr (ih h)

theorem ended_run (cfg : WCfg) (life : Life) (jobs : Nat → List UCall) (c : Nat) (ls : List WLabel) :
    IsClosed c ((WState.start life jobs).run cfg ls).trace → (((WState.start life jobs).run cfg ls).ctxs c).endClosed = true ∧
      c < ((WState.start life jobs).run cfg ls).n := by
  have : WInv ((WState.start life jobs).run cfg ls) ∧ (IsClosed c ((WState.start life jobs).run cfg ls).trace →
      (((WState.start life jobs).run cfg ls).ctxs c).endClosed = true ∧ c < ((WState.start life jobs).run cfg ls).n) := by
    refine WState.run_induct (P := fun s => WInv s ∧ (IsClosed c s.trace → (s.ctxs c).endClosed = true ∧ c < s.n))
      ⟨winv_start life jobs, fun ⟨w, h⟩ => (by cases h)⟩ ?_ ls
    rintro s l s' ⟨hw, h⟩ hs
    refine ⟨winv_step hw hs, ?_⟩
    obtain ⟨h1, h2, h3, h4⟩ := hw
    have k3 : ∀ i c, (s.threads i).pc = .closing c → c < s.n := fun i c h => h4 i c (by rw [h]; rfl)
    clear h2 h3 h4
    cases l <;> wstep hs
    all_goals try simp only [isClosed_cons]
    all_goals grind
  exact this.2

/-- No watcher of `c` has anything to do now. -/
def Settled (cfg : TCfg) (c : Nat) (s : TState) : Prop :=
  (match (s.w.ctxs c).hb with
    | .off => True
    | .ended => True
    | .select _ ch => s.w.buf ch = false ∧ (s.w.ctxs c).endClosed = false ∧ s.now < s.hbAt c + cfg.interval
    | _ => False) ∧
  (match (s.w.ctxs c).au with
    | .off => True
    | .ended => True
    | .select => (s.w.ctxs c).auth = none ∧ (s.w.ctxs c).endClosed = false ∧ s.now < s.auAt c + cfg.authDeadline
    | .closing _ => False) ∧
  (match (s.w.ctxs c).bc with
    | .off => True
    | .ended => True
    | .select => (s.w.ctxs c).endClosed = false
    | .closing => False)

/-- How much the watchers of `c` have still to do now. -/
def hbRank : HbPc → Nat
  | .off => 0
  | .ended => 0
  | .closing _ => 1
  | .lost => 2
  | .select k _ => 11 - 4 * k
  | .create k => 12 - 4 * k
  | .load k => 13 - 4 * k
  | .top k => 14 - 4 * k
def auRank : AuPc → Nat
  | .off => 0
  | .ended => 0
  | .closing _ => 1
  | .select => 2
def bcRank : BcPc → Nat
  | .off => 0
  | .ended => 0
  | .closing => 1
  | .select => 2
def todo (c : Nat) (s : TState) : Nat :=
  20 * (beatReturns c s.w.trace - takenBeats c s.w.trace) + hbRank (s.w.ctxs c).hb + auRank (s.w.ctxs c).au + bcRank (s.w.ctxs c).bc

/-- Settled contexts can wait. -/
theorem settled_delay {cfg : TCfg} {d : Nat} {s : TState} (h : ∀ c, Settled cfg c s)
    (hcl : ∀ c t, closedAt c s.log = some t → (s.w.ctxs c).endClosed = true) : PromptAll cfg d { s with now := s.now + 1 } := by
  intro c
  obtain ⟨h1, h2, h3⟩ := h c
  refine ⟨?_, ?_, ?_, ?_⟩
  · unfold PromptBeat
    revert h1
    cases (s.w.ctxs c).hb <;> simp +contextual
    omega
  · unfold PromptAuth
    revert h2
    cases (s.w.ctxs c).au <;> simp +contextual
    omega
  · intro t ht
    have he := hcl c t ht
    refine ⟨fun k ch hk => ?_, fun hk => ?_, fun hk => ?_⟩
    · have hk : (s.w.ctxs c).hb = .select k ch := hk
      rw [hk] at h1; simp [he] at h1
    · have hk : (s.w.ctxs c).au = .select := hk
      rw [hk] at h2; simp [he] at h2
    · have hk : (s.w.ctxs c).bc = .select := hk
      rw [hk] at h3; simp [he] at h3
  · intro hk
    have hk : (s.w.ctxs c).bc = .closing := hk
    rw [hk] at h3; cases h3

/-- Which context a watcher label is about. -/
def WLabel.watches : WLabel → Nat → Prop
  | .hb c _, c' => c = c'
  | .bc c _, c' => c = c'
  | .au c _, c' => c = c'
  | _, _ => False

/-- What a step of a watcher of `c` does. -/
structure Watched (c : Nat) (s s' : TState) : Prop where
  now : s'.now = s.now
  others : ∀ c', c' ≠ c → s'.w.ctxs c' = s.w.ctxs c' ∧ s'.hbAt c' = s.hbAt c' ∧ s'.auAt c' = s.auAt c' ∧ s'.bcAt c' = s.bcAt c' ∧
    closedAt c' s'.log = closedAt c' s.log
  buf : ∀ ch, s'.w.buf ch = true → s.w.buf ch = true
  chAt : s'.chAt = s.chAt
  sgAt : s'.sgAt = s.sgAt
  hb : s'.hbAt c = s.now ∨ s'.hbAt c = s.hbAt c ∧ (s'.w.ctxs c).hb = (s.w.ctxs c).hb
  au : s'.auAt c = s.now ∨ s'.auAt c = s.auAt c ∧ (s'.w.ctxs c).au = (s.w.ctxs c).au ∧ (s'.w.ctxs c).auth = (s.w.ctxs c).auth
  bc : s'.bcAt c = s.now ∨ s'.bcAt c = s.bcAt c ∧ (s'.w.ctxs c).bc = (s.w.ctxs c).bc
  closed : closedAt c s'.log = closedAt c s.log ∨ closedAt c s'.log = some s.now

theorem watched_of {cfg : TCfg} {c : Nat} {s : TState} {w' : WState} {a : WLabel} (ha : a.watches c) (hst : s.w.step cfg.w a = some w') :
    Watched c s (s.after w' a) := by
  cases a with
  | hb k x =>
    cases ha
    tstep hst
    all_goals refine ⟨rfl, ?_, ?_, rfl, rfl, .inl (by simp [setAt]), .inr (by grind), .inr (by grind), ?_⟩
    all_goals try simp only [closedAt, setAt]
    all_goals first | grind | (cases closedAt c s.log <;> simp)
  | bc k x =>
    cases ha
    tstep hst
    all_goals refine ⟨rfl, ?_, ?_, rfl, rfl, .inr (by grind), .inr (by grind), .inl (by simp [setAt]), ?_⟩
    all_goals try simp only [closedAt, setAt]
    all_goals first | grind | (cases closedAt c s.log <;> simp)
  | au k x =>
    cases ha
    tstep hst
    all_goals refine ⟨rfl, ?_, ?_, rfl, rfl, .inr (by grind), .inl (by simp [setAt]), .inr (by grind), ?_⟩
    all_goals try simp only [closedAt, setAt]
    all_goals first | grind | (cases closedAt c s.log <;> simp)
  | _ => cases ha

/-- A step of a watcher makes nobody late. -/
theorem prompt_watch {cfg : TCfg} {d c : Nat} {s s' : TState} (hw : Watched c s s') (h : PromptAll cfg d s) : PromptAll cfg d s' := by
  intro c'
  obtain ⟨p1, p2, p3, p4⟩ := h c'
  obtain ⟨e1, e2, e3, e4, e5, e6, e7, e8, e9⟩ := hw
  by_cases hc : c' = c
  · subst hc
    refine ⟨?_, ?_, ?_, ?_⟩
    · unfold PromptBeat at *
      rw [e1, e4]
      rcases e6 with h | ⟨h, h'⟩
      · rw [h]
        split <;> first | trivial | omega
      · rw [h, h']
        revert p1
        split <;> first | exact id | exact fun h => ⟨h.1, fun hb => h.2 (e3 _ hb)⟩
    · unfold PromptAuth at *
      rw [e1, e5]
      rcases e7 with h | ⟨h, h', h''⟩
      · rw [h]
        split <;> first | trivial | omega
      · rw [h, h', h'']; exact p2
    · intro t ht
      rw [e1]
      have key : (closedAt c' s.log = some t) ∨ t = s.now := by
        rcases e9 with h | h
        · exact .inl (h ▸ ht)
        · rw [h] at ht; cases ht; exact .inr rfl
      rcases key with hk | rfl
      · obtain ⟨q1, q2, q3⟩ := p3 t hk
        refine ⟨?_, ?_, ?_⟩
        · intro k ch hh
          rcases e6 with h | ⟨h, h'⟩
          · omega
          · rw [h]; exact q1 k ch (h' ▸ hh)
        · intro hh
          rcases e7 with h | ⟨h, h', h''⟩
          · omega
          · rw [h]; exact q2 (h' ▸ hh)
        · intro hh
          rcases e8 with h | ⟨h, h'⟩
          · omega
          · rw [h]; exact q3 (h' ▸ hh)
      · exact ⟨fun _ _ _ => by omega, fun _ => by omega, fun _ => by omega⟩
    · intro hh
      rw [e1]
      rcases e8 with h | ⟨h, h'⟩
      · omega
      · rw [h]; exact p4 (h' ▸ hh)
  · obtain ⟨f1, f2, f3, f4, f5⟩ := e2 c' hc
    refine ⟨?_, ?_, ?_, ?_⟩
    · unfold PromptBeat at *
      rw [e1, e4, f1, f2]
      revert p1
      split <;> first | exact id | exact fun h => ⟨h.1, fun hb => h.2 (e3 _ hb)⟩
    · unfold PromptAuth at *
      rw [e1, e5, f1, f3]; exact p2
    · rw [e1, f1, f2, f3, f4, f5]; exact p3
    · rw [e1, f1, f4]; exact p4

/-- Another context stays settled. -/
theorem settled_watch {cfg : TCfg} {c c' : Nat} {s s' : TState} (hw : Watched c s s') (hne : c' ≠ c) (h : Settled cfg c' s) :
    Settled cfg c' s' := by
  obtain ⟨e1, e2, e3, -⟩ := hw
  obtain ⟨f1, f2, f3, -⟩ := e2 c' hne
  obtain ⟨h1, h2, h3⟩ := h
  unfold Settled
  rw [e1, f1, f2, f3]
  refine ⟨?_, h2, h3⟩
  revert h1
  split <;> first | exact id | skip
  rintro ⟨a, b, c⟩
  refine ⟨?_, b, c⟩
  cases hb : s'.w.buf _ with
  | false => rfl
  | true => rw [e3 _ hb] at a; cases a

/-- A watcher of a context that is not settled can do something. -/
theorem watch_progress {cfg : TCfg} {c : Nat} {s : TState} (hhb : HbInv cfg.w c s.w) (hns : ¬ Settled cfg c s)
    (hb : ∀ w', s.w.step cfg.w (.hb c .recv) = some w' → takenBeats c w'.trace ≤ beatReturns c w'.trace) :
    ∃ a w', a.watches c ∧ s.due cfg a = true ∧ s.w.step cfg.w a = some w' ∧ todo c (s.after w' a) < todo c s := by
  obtain ⟨hok, -, -⟩ := hhb
  by_cases h1 : (match (s.w.ctxs c).hb with
    | .off => True
    | .ended => True
    | .select _ ch => s.w.buf ch = false ∧ (s.w.ctxs c).endClosed = false ∧ s.now < s.hbAt c + cfg.interval
    | _ => False)
  · by_cases h2 : (match (s.w.ctxs c).au with
      | .off => True
      | .ended => True
      | .select => (s.w.ctxs c).auth = none ∧ (s.w.ctxs c).endClosed = false ∧ s.now < s.auAt c + cfg.authDeadline
      | .closing _ => False)
    · have h3 : ¬ (match (s.w.ctxs c).bc with
          | .off => True
          | .ended => True
          | .select => (s.w.ctxs c).endClosed = false
          | .closing => False) := fun h3 => hns ⟨h1, h2, h3⟩
      cases hbc : (s.w.ctxs c).bc with
      | off => simp [hbc] at h3
      | ended => simp [hbc] at h3
      | select =>
        simp [hbc] at h3
        exact ⟨.bc c .fin, _, rfl, rfl, (by simp only [WState.step, bcStep, hbc, h3, if_true]; rfl), by
          simp [todo, TState.after, WState.setCtx, hbc, bcRank]⟩
      | closing =>
        exact ⟨.bc c .go, _, rfl, rfl, (by simp only [WState.step, bcStep, hbc]; rfl), by
          simp [todo, TState.after, WState.closeConn, WState.log, WState.setCtx, hbc, bcRank, beatReturns, takenBeats]⟩
    · cases hau : (s.w.ctxs c).au with
      | off => simp [hau] at h2
      | ended => simp [hau] at h2
      | closing w =>
        exact ⟨.au c .go, _, rfl, rfl, (by simp only [WState.step, auStep, hau]; rfl), by
          simp [todo, TState.after, WState.closeConn, WState.log, WState.setCtx, hau, auRank, beatReturns, takenBeats]⟩
      | select =>
        simp only [hau] at h2
        cases hv : (s.w.ctxs c).auth with
        | some v =>
          refine ⟨.au c .recv, _, rfl, rfl, (by simp only [WState.step, auStep, hau, hv]; rfl), ?_⟩
          by_cases hz : v ≥ 0 <;>
          simp [todo, TState.after, WState.log, WState.setCtx, hau, auRank, beatReturns, takenBeats, hz]
        | none =>
          cases he : (s.w.ctxs c).endClosed with
          | true => 
            exact ⟨.au c .fin, _, rfl, rfl, (by simp only [WState.step, auStep, hau, he, if_true]; rfl), by
              simp [todo, TState.after, WState.setCtx, hau, auRank]⟩
          | false =>
            have hd : s.auAt c + cfg.authDeadline ≤ s.now := by
              simp [hv, he] at h2; exact h2
            exact ⟨.au c .timer, _, rfl, (by simpa [TState.due] using hd), (by simp only [WState.step, auStep, hau]; rfl), by
              simp [todo, TState.after, WState.log, WState.setCtx, hau, auRank, beatReturns, takenBeats]⟩
  · cases hpc : (s.w.ctxs c).hb with
    | off => simp [hpc] at h1
    | ended => simp [hpc] at h1
    | top k =>
      rw [hpc] at hok
      simp only [HbOk] at hok
      refine ⟨.hb c .go, _, rfl, rfl, (by simp only [WState.step, hbStep, hpc]; rfl), ?_⟩
      by_cases hst : s.w.life.state = .stopped <;> simp [todo, TState.after, WState.setCtx, hpc, hst, hbRank] <;> omega
    | load k =>
      rw [hpc] at hok
      simp only [HbOk] at hok
      refine ⟨.hb c .go, _, rfl, rfl, (by simp only [WState.step, hbStep, hpc]; rfl), ?_⟩
      cases hst : (s.w.ctxs c).chan <;> simp [todo, TState.after, WState.setCtx, hpc, hbRank] <;> omega
    | create k =>
      rw [hpc] at hok
      simp only [HbOk] at hok
      refine ⟨.hb c .go, _, rfl, rfl, (by simp only [WState.step, hbStep, hpc]; rfl), ?_⟩
      simp [todo, TState.after, WState.setCtx, hpc, hbRank] <;> omega
    | lost =>
      refine ⟨.hb c .go, _, rfl, rfl, (by simp only [WState.step, hbStep, hpc]; rfl), ?_⟩
      by_cases hc : cfg.w.hasOnLoss = true <;>
        simp [todo, TState.after, WState.setCtx, WState.log, hpc, hbRank, hc, beatReturns, takenBeats]
    | closing w =>
      refine ⟨.hb c .go, _, rfl, rfl, (by simp only [WState.step, hbStep, hpc]; rfl), ?_⟩
      simp [todo, TState.after, WState.closeConn, WState.setCtx, WState.log, hpc, hbRank, beatReturns, takenBeats]
    | select k ch =>
      rw [hpc] at hok
      simp only [HbOk] at hok
      simp only [hpc] at h1
      cases hbuf : s.w.buf ch with
      | true =>
        have hst : s.w.step cfg.w (.hb c .recv) =
          some (((s.w.setBuf ch false).setCtx c { s.w.ctxs c with hb := .top 0 }).log (.beatTaken c)) := by
            simp only [WState.step, hbStep, hpc, hbuf, if_true]
        refine ⟨.hb c .recv, _, rfl, rfl, hst, ?_⟩
        have := hb _ hst
        simp [WState.setBuf, WState.setCtx, WState.log, beatReturns, takenBeats] at this
        simp [todo, TState.after, WState.setBuf, WState.setCtx, WState.log, hpc, hbRank, beatReturns, takenBeats]
        omega
      | false =>
        cases he : (s.w.ctxs c).endClosed with
        | true =>
          refine ⟨.hb c .fin, _, rfl, rfl, (by simp only [WState.step, hbStep, hpc, he, if_true]; rfl), ?_⟩
          simp [todo, TState.after, WState.setCtx, hpc, hbRank]; omega
        | false =>
          have hd : s.hbAt c + cfg.interval ≤ s.now := by
            simp [hbuf, he] at h1; exact h1
          refine ⟨.hb c .timer, _, rfl, (by simpa [TState.due] using hd), (by simp only [WState.step, hbStep, hpc]; rfl), ?_⟩
          by_cases h3 : k + 1 = 3
          · simp [todo, TState.after, WState.log, WState.setCtx, hpc, hbRank, h3, beatReturns, takenBeats]; omega
          · simp [todo, TState.after, WState.log, WState.setCtx, hpc, hbRank, h3, beatReturns, takenBeats]; omega

end Tcpx
