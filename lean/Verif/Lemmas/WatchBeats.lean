import Verif.Lemmas.Watch
/-! # Lemmas about heartbeat signals (C54) -/
namespace Tcpx
open Spec

/-! ## The first signal finds room -/

/-- Every heartbeat channel belongs to one context; a signal in it was sent for that context. -/
structure OwnOk (owner : Nat → Nat) (s : WState) : Prop where
  chan : ∀ c ch, (s.ctxs c).chan = some ch → owner ch = c ∧ ch < s.nchan
  send : ∀ i c ch, (s.threads i).pc = .beatSend c ch → owner ch = c ∧ ch < s.nchan
  buf : ∀ ch, s.buf ch = true → ch < s.nchan ∧ 0 < beatReturns (owner ch) s.trace
  sel : ∀ c k ch, (s.ctxs c).hb = .select k ch → owner ch = c ∧ ch < s.nchan

theorem ownok_step {cfg : WCfg} {s s' : WState} {l : WLabel} {owner : Nat → Nat} (h : OwnOk owner s)
    (hs : s.step cfg l = some s') : ∃ owner', OwnOk owner' s' := by
  obtain ⟨g1, g2, g3, g4⟩ := h
  have new : ∀ c, (∀ c' ch, (s.ctxs c').chan = some ch → (fun ch => if ch = s.nchan then c else owner ch) ch = c' ∧ ch < s.nchan) ∧
      (∀ i c' ch, (s.threads i).pc = .beatSend c' ch → (fun ch => if ch = s.nchan then c else owner ch) ch = c' ∧ ch < s.nchan) ∧
      (∀ ch, s.buf ch = true → ch < s.nchan ∧ 0 < beatReturns ((fun ch => if ch = s.nchan then c else owner ch) ch) s.trace) ∧
      (∀ c' k ch, (s.ctxs c').hb = .select k ch → (fun ch => if ch = s.nchan then c else owner ch) ch = c' ∧ ch < s.nchan) := by
    intro c
    refine ⟨fun c' ch h => ?_, fun i c' ch h => ?_, fun ch h => ?_, fun c' k ch h => ?_⟩
    · have := g1 _ _ h
      simp only
      rw [if_neg (by omega)]; exact this
    · have := g2 _ _ _ h
      simp only
      rw [if_neg (by omega)]; exact this
    · have := g3 _ h
      simp only
      rw [if_neg (by omega)]; exact this
    · have := g4 _ _ _ h
      simp only
      rw [if_neg (by omega)]; exact this
  cases l with
  | hb c x =>
    by_cases hx : ∃ k, (s.ctxs c).hb = .create k
    · obtain ⟨k, hk⟩ := hx
      refine ⟨fun ch => if ch = s.nchan then c else owner ch, ?_⟩
      obtain ⟨n1, n2, n3, n4⟩ := new c
      clear g1 g2 g3 g4
      simp only [WState.step, hbStep, hk] at hs
      cases x <;> simp only [Option.some.injEq, reduceCtorEq] at hs
      subst hs
      refine ⟨?_, ?_, ?_, ?_⟩ <;> simp only [WState.setCtx] <;> grind
    · refine ⟨owner, ?_⟩
      clear new
      wstep hs
      all_goals refine ⟨?_, ?_, ?_, ?_⟩
      all_goals simp only [beatReturns]
      all_goals grind
  | user i =>
    by_cases hx : ∃ c, (s.threads i).pc = .beatCreate c
    · obtain ⟨c, hk⟩ := hx
      refine ⟨fun ch => if ch = s.nchan then c else owner ch, ?_⟩
      obtain ⟨n1, n2, n3, n4⟩ := new c
      clear g1 g2 g3 g4
      simp only [WState.step, userStep, hk, Option.some.injEq] at hs
      subst hs
      refine ⟨?_, ?_, ?_, ?_⟩ <;> simp only [WState.setCtx, WState.setThread] <;> grind
    · refine ⟨owner, ?_⟩
      clear new
      wstep hs
      all_goals refine ⟨?_, ?_, ?_, ?_⟩
      all_goals simp only [beatReturns]
      all_goals grind
  | _ =>
    refine ⟨owner, ?_⟩
    clear new
    wstep hs
    all_goals refine ⟨?_, ?_, ?_, ?_⟩
    all_goals simp only [beatReturns]
    all_goals grind

theorem ownok_run (cfg : WCfg) (life : Life) (jobs : Nat → List UCall) (ls : List WLabel) :
    ∃ owner, OwnOk owner ((WState.start life jobs).run cfg ls) := by
  refine WState.run_induct (P := fun s => ∃ owner, OwnOk owner s) ?_ ?_ ls
  · exact ⟨fun _ => 0, by simp [WState.start], by simp [WState.start], by simp [WState.start], by simp [WState.start]⟩
  · rintro s l s' ⟨owner, h⟩ hs
    exact ownok_step h hs

/-! ## Without a watcher, only one signal finds room -/

structure BeatOk (t c : Nat) (s : WState) : Prop where
  off : ∀ c, (s.ctxs c).hb = .off
  rest : ∀ i, i ≠ t → .beat c ∉ (s.threads i).rest
  load : ∀ i, (s.threads i).pc = .beatLoad c → i = t
  create : ∀ i, (s.threads i).pc = .beatCreate c → i = t ∧ (s.ctxs c).chan = none
  send : ∀ i ch, (s.threads i).pc = .beatSend c ch → i = t ∧ (s.ctxs c).chan = some ch
  once : beatReturns c s.trace ≤ 1
  full : 0 < beatReturns c s.trace → ∃ ch, (s.ctxs c).chan = some ch ∧ s.buf ch = true
  known : s.n ≤ c → beatReturns c s.trace = 0

set_option maxHeartbeats 1000000 in
theorem beatok_step {cfg : WCfg} (hoff : cfg.heartBeatOn = false) {s s' : WState} {l : WLabel} {t c : Nat} (hw : WInv s)
    (h : BeatOk t c s) (hs : s.step cfg l = some s') : BeatOk t c s' := by
  obtain ⟨h1, h2, h3, h4⟩ := hw
  have k1 : ∀ i c ch, (s.threads i).pc = .beatSend c ch → c < s.n := fun i c v h => h4 i c (by rw [h]; rfl)
  have k2 : ∀ i c, (s.threads i).pc = .beatCreate c → c < s.n := fun i c h => h4 i c (by rw [h]; rfl)
  have k3 : ∀ i c, (s.threads i).pc = .beatLoad c → c < s.n := fun i c h => h4 i c (by rw [h]; rfl)
  obtain ⟨g1, g2, g3, g4, g5, g6, g7, g8⟩ := h
  clear h2 h3 h4
  refine ⟨?_, ?_, ?_, ?_, ?_, ?_, ?_, ?_⟩
  · clear g2 g3 g4 g5 g6 g7 g8 k1 k2 k3
    cases l <;> wstep hs
    all_goals grind
  · clear g3 g4 g5 g6 g7 g8 k1 k2 k3 g1
    cases l <;> wstep hs
    all_goals grind
  · clear g4 g5 g6 g7 g8 k1 k2 k3 g1
    cases l <;> wstep hs
    all_goals grind
  · clear g6 g7 g8
    cases l <;> wstep hs
    all_goals grind
  · clear g6 g7 g8
    cases l <;> wstep hs
    all_goals grind
  · clear k2 k3
    cases l <;> wstep hs
    all_goals simp only [beatReturns]
    all_goals grind
  · cases l <;> wstep hs
    all_goals simp only [beatReturns]
    all_goals grind
  · clear g2 g3 g4 g5 g6 g7 k2 k3
    cases l <;> wstep hs
    all_goals simp only [beatReturns]
    all_goals grind

theorem beatok_run (cfg : WCfg) (hoff : cfg.heartBeatOn = false) (life : Life) (jobs : Nat → List UCall) (t c : Nat)
    (hj : OnlyBeater t c jobs) (ls : List WLabel) : BeatOk t c ((WState.start life jobs).run cfg ls) := by
  have : WInv ((WState.start life jobs).run cfg ls) ∧ BeatOk t c ((WState.start life jobs).run cfg ls) := by
    refine WState.run_induct (P := fun s => WInv s ∧ BeatOk t c s) ⟨winv_start life jobs, ?_⟩ ?_ ls
    · refine ⟨?_, hj, ?_, ?_, ?_, ?_, ?_, ?_⟩ <;> simp [WState.start, beatReturns]
    · exact fun s l s' h hs => ⟨winv_step h.1 hs, beatok_step hoff h.1 h.2 hs⟩
  exact this.2

end Tcpx
