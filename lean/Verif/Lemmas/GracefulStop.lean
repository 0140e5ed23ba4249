import Verif.Lemmas.WatchLive
import Verif.Lemmas.WatchSignals
/-!
# Lemma on servers without broadcast signals (C130)
-/
namespace Tcpx
open Spec

/-- Without broadcast signals no connection is closed by one. -/
theorem noSignal_run (cfg : WCfg) (life : Life) (hconf : Configured life) (hsig : life.withSignals = false) (jobs : Nat → List UCall)
    (ls : List WLabel) (c : Nat) : .closed c .signal ∉ ((WState.start life jobs).run cfg ls).trace := by
  have := WState.run_induct (cfg := cfg) (s := WState.start life jobs)
    (P := fun t => (t.life.withSignals = false ∧ t.life.sig ≠ .closed) ∧
    (∀ c, (t.ctxs c).hb ≠ .closing .signal ∧ (t.ctxs c).bc ≠ .closing ∧ (t.ctxs c).au ≠ .closing .signal) ∧ ∀ c, .closed c .signal ∉ t.trace)
    ⟨⟨hsig, hconf.2 hsig⟩, fun c => by simp [WState.start], fun c => by simp [WState.start]⟩ ?_ ls
  · exact this.2.2 c
  · intro t l t' ht h
    obtain ⟨⟨h1, h2⟩, h3, h4⟩ := ht
    refine ⟨?_, ?_, ?_⟩
    · cases l <;> wstep h
      all_goals grind [Life.stop, Life.closeAllConnection, Life.listen]
    · intro c
      have h3c := h3 c
      cases l <;> wstep h
      all_goals grind
    · intro c
      have h4c := h4 c
      cases l <;> wstep h
      all_goals grind

end Tcpx
