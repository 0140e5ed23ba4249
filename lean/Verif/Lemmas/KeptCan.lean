import Verif.Lemmas.Kept
import Verif.Lemmas.Keepup
import Verif.Lemmas.TimedAuth
import Verif.Lemmas.TimedEnd
import Verif.Lemmas.KeptRun
/-! # Lemmas: calls of `RecvHeartBeat` can keep up (C128) -/
namespace Tcpx
open Spec

/-- What is left to do of a call of `RecvHeartBeat`. -/
def callRank : UPc → Nat
  | .beatLoad _ => 3
  | .beatCreate _ => 2
  | .beatSend _ _ => 1
  | _ => 0

/-- Every call of `RecvHeartBeat` waits for room. -/
def CallsSettled (s : TState) : Prop := ∀ i, 0 < callRank (s.w.threads i).pc → ∃ c ch, (s.w.threads i).pc = .beatSend c ch ∧ s.w.buf ch = true

/-- What a step of a call of `RecvHeartBeat` does to others. -/
structure CallStep (i : Nat) (s s' : TState) : Prop where
  now : s'.now = s.now
  hbAt : s'.hbAt = s.hbAt
  auAt : s'.auAt = s.auAt
  bcAt : s'.bcAt = s.bcAt
  sgAt : s'.sgAt = s.sgAt
  ctxs : ∀ c, (s'.w.ctxs c).hb = (s.w.ctxs c).hb ∧ (s'.w.ctxs c).au = (s.w.ctxs c).au ∧ (s'.w.ctxs c).bc = (s.w.ctxs c).bc ∧
    (s'.w.ctxs c).auth = (s.w.ctxs c).auth
  buf : ∀ ch, s'.w.buf ch = true → s'.chAt ch = s.now ∨ s.w.buf ch = true ∧ s'.chAt ch = s.chAt ch
  closed : ∀ c, closedAt c s'.log = closedAt c s.log
  log : ∀ t j u, (t, .invoke j u) ∈ s'.log → (t, .invoke j u) ∈ s.log
  threads : ∀ j, j ≠ i → s'.w.threads j = s.w.threads j
  rank : callRank (s'.w.threads i).pc < callRank (s.w.threads i).pc
  calls : ∀ d, (∀ c, PromptCalls d c s) → ∀ c, PromptCalls d c s'

set_option maxHeartbeats 1000000 in
theorem callStep_of {cfg : TCfg} {i : Nat} {s : TState} {w' : WState} (hb0 : s.w.buf s.w.nchan = false)
    (hi : 0 < callRank (s.w.threads i).pc) (hst : s.w.step cfg.w (.user i) = some w') : CallStep i s (s.after w' (.user i)) := by
  refine ⟨rfl, rfl, rfl, rfl, ?_, ?_, ?_, ?_, ?_, ?_, ?_, ?_⟩
  · tstep hst
    all_goals grind [callRank]
  · tstep hst
    all_goals grind [callRank]
  · tstep hst
    all_goals grind [callRank]
  · intro c
    tstep hst
    all_goals try simp only [closedAt]
    all_goals grind [callRank]
  · tstep hst
    all_goals grind [callRank]
  · tstep hst
    all_goals grind [callRank]
  · tstep hst
    all_goals grind [callRank]
  · intro d h c
    replace h := h c
    unfold PromptCalls at *
    tstep hst
    all_goals try simp only [calledAt, lastHeard]
    all_goals grind [callRank]

theorem call_progress {cfg : TCfg} {s : TState} (hb0 : s.w.buf s.w.nchan = false) (hn : ¬ CallsSettled s) :
    ∃ i s', s.step cfg (.act (.user i)) = some s' ∧ 0 < callRank (s.w.threads i).pc ∧ CallStep i s s' := by
  obtain ⟨i, hn⟩ := Classical.not_forall.1 hn
  obtain ⟨hi, hn⟩ := Classical.not_imp.1 hn
  have : ∃ w', s.w.step cfg.w (.user i) = some w' := by
    simp only [WState.step, userStep]
    cases hpc : (s.w.threads i).pc with
    | beatSend c ch =>
      cases hb : s.w.buf ch with
      | true => exact absurd ⟨c, ch, hpc, hb⟩ hn
      | false => simp [hb]
    | idle => rw [hpc] at hi; cases hi
    | authSend c v => rw [hpc] at hi; cases hi
    | _ => simp
  obtain ⟨w', hst⟩ := this
  exact ⟨i, s.after w' (.user i), by simp [TState.step, TState.due, hst], hi, callStep_of hb0 hi hst⟩

/-- It makes nobody late. -/
theorem prompt_call {cfg : TCfg} {d i : Nat} {s s' : TState} (h : CallStep i s s') (hp : PromptAll cfg d s) : PromptAll cfg d s' := by
  intro c
  obtain ⟨p1, p2, p3, p4⟩ := hp c
  obtain ⟨f1, f2, f3, f4⟩ := h.ctxs c
  refine ⟨?_, ?_, ?_, ?_⟩
  · unfold PromptBeat at *
    rw [h.now, h.hbAt, f1]
    revert p1
    split <;> first | exact id | skip
    rintro ⟨p1, p1'⟩
    refine ⟨p1, fun hb => ?_⟩
    rcases h.buf _ hb with h1 | ⟨h1, h2⟩
    · omega
    · rw [h2]; exact p1' h1
  · unfold PromptAuth at *
    rw [h.now, h.auAt, h.sgAt, f2, f4]; exact p2
  · rw [h.now, h.hbAt, h.auAt, h.bcAt, h.closed, f1, f2, f3]; exact p3
  · rw [h.now, h.bcAt, f3]; exact p4

set_option maxHeartbeats 1000000 in
/-- A step of a watcher does not make a call late. -/
theorem calls_watch {cfg : TCfg} {d : Nat} {s : TState} {w' : WState} {a : WLabel} (ho : ∃ owner, OwnOk owner s.w) (ha : ByWatchers (.act a))
    (hst : s.w.step cfg.w a = some w') (h : ∀ c, PromptCalls d c s) :
    (∀ c, PromptCalls d c (s.after w' a)) ∧ (∀ j, (s.after w' a).w.threads j = s.w.threads j) ∧
      ∀ t j u, (t, .invoke j u) ∈ (s.after w' a).log → (t, .invoke j u) ∈ s.log := by
  obtain ⟨owner, o1, o2, o3, o4⟩ := ho
  clear o1 o3
  refine ⟨?_, ?_, ?_⟩
  · intro c
    replace h := h c
    unfold PromptCalls at *
    cases a <;> simp only [ByWatchers] at ha <;> tstep hst
    all_goals try simp only [calledAt, lastHeard]
    all_goals grind
  · cases a <;> simp only [ByWatchers] at ha <;> tstep hst
    all_goals grind
  · cases a <;> simp only [ByWatchers] at ha <;> tstep hst
    all_goals grind

/-- Only so many goroutines are in a call. -/
theorem finite_calls (cfg : TCfg) (life : Life) (jobs : Nat → List UCall) (ls : List TLabel) :
    ∃ N, ∀ i, N ≤ i → callRank (((TState.start life jobs).run cfg ls).w.threads i).pc = 0 := by
  refine TState.run_induct (P := fun s => ∃ N, ∀ i, N ≤ i → callRank (s.w.threads i).pc = 0) (H := fun _ => True) (fun _ => trivial)
    ⟨0, fun i _ => rfl⟩ ?_
  rintro s l s' ⟨N, hN⟩ _ _ hs
  rcases tstep_cases hs with ⟨d, rfl⟩ | ⟨b, w', rfl, hdue, hst, rfl⟩
  · exact ⟨N, hN⟩
  · clear hs hdue
    have key : ∃ k, ∀ j, k ≤ j → w'.threads j = s.w.threads j := by
      cases b with
      | user i =>
        refine ⟨i + 1, fun j hj => ?_⟩
        have hne : j ≠ i := by omega
        wstep hst
        all_goals grind
      | _ =>
        refine ⟨0, fun j _ => ?_⟩
        wstep hst
        all_goals grind
    obtain ⟨k, hk⟩ := key
    exact ⟨max N k, fun i hi => by
      rw [show (s.after w' b).w.threads i = s.w.threads i from hk i (by omega)]
      exact hN i (by omega)⟩

def totalRank (f : Nat → Nat) : Nat → Nat
  | 0 => 0
  | n + 1 => totalRank f n + f n

theorem totalRank_le {f g : Nat → Nat} (n : Nat) (h : ∀ i, i < n → f i ≤ g i) : totalRank f n ≤ totalRank g n := by
  induction n with
  | zero => exact Nat.le_refl _
  | succ n ih => exact Nat.add_le_add (ih fun i hi => h i (by omega)) (h n (by omega))

theorem totalRank_lt {f g : Nat → Nat} (n i : Nat) (hi : i < n) (hlt : f i < g i) (h : ∀ j, j ≠ i → f j = g j) :
    totalRank f n < totalRank g n := by
  induction n with
  | zero => omega
  | succ n ih =>
    simp only [totalRank]
    by_cases hn : i = n
    · subst hn
      have := totalRank_le (f := f) (g := g) i fun j hj => Nat.le_of_eq (h j (by omega))
      omega
    · have := ih (by omega)
      have := h n (Ne.symm hn)
      omega

end Tcpx
