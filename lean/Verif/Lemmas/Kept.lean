import Verif.Lemmas.TimedKeep
import Verif.Lemmas.TimedAuth
import Verif.Lemmas.TimedEnd
import Verif.Lemmas.Keepup
import Verif.Spec.Kept
/-! # Lemmas: heartbeats handled in time keep a connection (C85) -/
namespace Tcpx
open Spec

/-- The watcher is at work. -/
def HbPc.live : HbPc → Bool
  | .off => false
  | .closing _ => false
  | .ended => false
  | _ => true

/-- How late a watcher can be that has no channel yet. -/
def EarlyPc (d a t : Nat) : HbPc → Prop
  | .top _ => t ≤ a
  | .load _ => t ≤ a + d
  | .create _ => t ≤ a + 2 * d
  | _ => False

/-- Calls and their times. -/
structure CallOk (c : Nat) (s : TState) : Prop where
  now : ∀ r, lastCall c s.log = some r → r ≤ s.now
  known : c < s.w.n → (lastCall c s.log).isSome = true
  load : ∀ i, (s.w.threads i).pc = .beatLoad c → ∃ t r, calledAt i s.log = some t ∧ lastCall c s.log = some r ∧ t ≤ r
  create : ∀ i, (s.w.threads i).pc = .beatCreate c → ∃ t r, calledAt i s.log = some t ∧ lastCall c s.log = some r ∧ t ≤ r
  send : ∀ i ch, (s.w.threads i).pc = .beatSend c ch → ∃ t r, calledAt i s.log = some t ∧ lastCall c s.log = some r ∧ t ≤ r
  acc : c < s.w.n → (acceptedAt c s.log).isSome = true
  heard : ∀ a h, acceptedAt c s.log = some a → lastHeard c s.log = some h → a ≤ h
  accNow : ∀ a, acceptedAt c s.log = some a → a ≤ s.now

set_option maxHeartbeats 1000000 in
theorem callok_step {cfg : TCfg} {c : Nat} {s s' : TState} {l : TLabel} (hw : WInv s.w) (hl : LowOk cfg c s)
    (h : CallOk c s) (hs : s.step cfg l = some s') : CallOk c s' := by
  have hthr := hw.thr
  have hfr := hw.fresh c
  have hlast : ∀ h, lastHeard c s.log = some h → h ≤ s.now := fun h e => (hl.heard h e).1
  have hln : c < s.w.n → (lastHeard c s.log).isSome = true := hl.known
  clear hl hw
  obtain ⟨a1, a2, a3, a4, a5, a6, a7, a8⟩ := h
  rcases tstep_cases hs with ⟨d, rfl⟩ | ⟨a, w', rfl, hdue, hst, rfl⟩
  · exact ⟨fun r e => Nat.le_trans (a1 r e) (Nat.le_add_right _ _), a2, a3, a4, a5, a6, a7, fun r e => Nat.le_trans (a8 r e) (Nat.le_add_right _ _)⟩
  · clear hs hdue
    have k1 : ∀ i c, (s.w.threads i).pc = .beatLoad c → c < s.w.n := fun i c h => hthr i c (by rw [h]; rfl)
    have k2 : ∀ i c, (s.w.threads i).pc = .beatCreate c → c < s.w.n := fun i c h => hthr i c (by rw [h]; rfl)
    have k3 : ∀ i c ch, (s.w.threads i).pc = .beatSend c ch → c < s.w.n := fun i c ch h => hthr i c (by rw [h]; rfl)
    clear hthr
    refine ⟨?_, ?_, ?_, ?_, ?_, ?_, ?_, ?_⟩
    · clear a2 a3 a4 a5 a6 a7 a8 k1 k2 k3 hlast hln hfr
      cases a <;> tstep hst
      all_goals try simp only [lastCall]
      all_goals grind
    · clear a1 a3 a4 a5 a6 a7 a8 k1 k2 k3 hlast hln hfr
      cases a <;> tstep hst
      all_goals try simp only [lastCall]
      all_goals grind
    · clear a4 a5 a6 a7 a8 hlast hln hfr
      cases a <;> tstep hst
      all_goals try simp only [lastCall, calledAt]
      all_goals grind
    · clear a5 a6 a7 a8 hlast hln hfr
      cases a <;> tstep hst
      all_goals try simp only [lastCall, calledAt]
      all_goals grind
    · clear a6 a7 a8 hlast hln hfr
      cases a <;> tstep hst
      all_goals try simp only [lastCall, calledAt]
      all_goals grind
    · clear a1 a2 a3 a4 a5 a7 a8 k1 k2 k3 hlast hln hfr
      cases a <;> tstep hst
      all_goals try simp only [acceptedAt]
      all_goals grind
    · clear a1 a2 a3 a4 a5 k1 k2 k3
      cases a <;> tstep hst
      all_goals try simp only [acceptedAt, lastHeard]
      all_goals grind
    · clear a1 a2 a3 a4 a5 a6 a7 k1 k2 k3 hlast hln hfr
      cases a <;> tstep hst
      all_goals try simp only [acceptedAt]
      all_goals grind

end Tcpx
