import Verif.Lemmas.KeptCan
/-! # Lemmas: only time makes anybody late -/
namespace Tcpx
open Spec

set_option maxHeartbeats 1000000 in
theorem promptBeat_act {cfg : TCfg} {d c : Nat} {s : TState} {w' : WState} {a : WLabel} (hst : s.w.step cfg.w a = some w')
    (hb0 : s.w.buf s.w.nchan = false)
    (h : PromptBeat cfg d c s) : PromptBeat cfg d c (s.after w' a) := by
  unfold PromptBeat at *
  cases a <;> tstep hst
  all_goals try simp only [setAt]
  all_goals grind

set_option maxHeartbeats 1000000 in
theorem promptAuth_act {cfg : TCfg} {d c : Nat} {s : TState} {w' : WState} {a : WLabel} (hst : s.w.step cfg.w a = some w')
    (h : PromptAuth cfg d c s) : PromptAuth cfg d c (s.after w' a) := by
  unfold PromptAuth at *
  cases a <;> tstep hst
  all_goals try simp only [setAt]
  all_goals grind

set_option maxHeartbeats 1000000 in
theorem promptEnd_act {cfg : TCfg} {d c : Nat} {s : TState} {w' : WState} {a : WLabel} (hst : s.w.step cfg.w a = some w')
    (h : PromptEnd d c s) : PromptEnd d c (s.after w' a) := by
  unfold PromptEnd at *
  cases a <;> tstep hst
  all_goals try simp only [setAt, closedAt, Option.or_eq_some_iff]
  all_goals grind

set_option maxHeartbeats 1000000 in
theorem promptCalls_act {cfg : TCfg} {d c : Nat} {s : TState} {w' : WState} {a : WLabel} (ho : ∃ owner, OwnOk owner s.w) (hw : WInv s.w)
    (hst : s.w.step cfg.w a = some w') (h : PromptCalls d c s) : PromptCalls d c (s.after w' a) := by
  obtain ⟨owner, o1, o2, o3, o4⟩ := ho
  have k : ∀ i c ch, (s.w.threads i).pc = .beatSend c ch → c < s.w.n := fun i c ch h => hw.thr i c (by rw [h]; rfl)
  have k1 : ∀ i c, (s.w.threads i).pc = .beatLoad c → c < s.w.n := fun i c h => hw.thr i c (by rw [h]; rfl)
  have k2 : ∀ i c, (s.w.threads i).pc = .beatCreate c → c < s.w.n := fun i c h => hw.thr i c (by rw [h]; rfl)
  clear o1 o3 hw
  unfold PromptCalls at *
  cases a <;> tstep hst
  all_goals try simp only [calledAt, lastHeard]
  all_goals grind

end Tcpx
