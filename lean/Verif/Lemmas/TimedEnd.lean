import Verif.Lemmas.TimedAuth
/-! # The watchers of a closed connection, run promptly -/
namespace Tcpx
open Spec

/-- The latest moment the heartbeat watcher came to where it stands, `L` being when the connection was closed (or a heartbeat received
later). -/
def EndPc (d L a : Nat) : HbPc → Prop
  | .off => True
  | .top _ => a ≤ L + d
  | .load _ => a ≤ L + 2 * d
  | .create _ => a ≤ L + 3 * d
  | .select _ _ => a ≤ L + 4 * d
  | .lost => a ≤ L + d
  | .closing _ => a ≤ L + 5 * d
  | .ended => True

/-- The latest moment the heartbeat watcher leaves where it stands; it does not leave its `select` by the timer if it came there after
the closing. -/
def EndLeave (d L a now : Nat) : HbPc → Prop
  | .off => True
  | .top _ => now ≤ L + 2 * d
  | .load _ => now ≤ L + 3 * d
  | .create _ => now ≤ L + 4 * d
  | .select _ _ => now ≤ L + 5 * d ∧ (now ≤ L + d ∨ now ≤ a + d)
  | .lost => now ≤ L + 2 * d
  | .closing _ => now ≤ L + 6 * d
  | .ended => True

theorem endPc_leave {cfg : TCfg} {d c t L : Nat} {s : TState} (hp : PromptBeat cfg d c s) (he : PromptEnd d c s)
    (ht : closedAt c s.log = some t) (hL : t ≤ L) (hu : EndPc d L (s.hbAt c) (s.w.ctxs c).hb) :
    EndLeave d L (s.hbAt c) s.now (s.w.ctxs c).hb := by
  unfold PromptBeat at hp
  have h1 := (he.1 t ht).1
  cases hpc : (s.w.ctxs c).hb with
  | select k ch =>
    have := h1 k ch hpc
    rw [hpc] at hu hp
    simp only [EndPc, EndLeave] at *
    omega
  | _ => rw [hpc] at hp hu; simp only [EndPc, EndLeave] at * <;> omega

theorem endPc_now {d L a now : Nat} {pc : HbPc} (h : a ≤ now) (hL : now ≤ L) : EndPc d L a pc := by
  cases pc <;> simp only [EndPc] <;> omega

theorem endPc_mono {d L L' a : Nat} {pc : HbPc} (h : EndPc d L a pc) (hL : L ≤ L') : EndPc d L' a pc := by
  cases pc <;> simp only [EndPc] at * <;> omega

structure EndsOk (d c : Nat) (s : TState) : Prop where
  now : s.hbAt c ≤ s.now ∧ s.auAt c ≤ s.now ∧ s.bcAt c ≤ s.now
  hb : ∀ t h, closedAt c s.log = some t → lastHeard c s.log = some h → EndPc d (max t h) (s.hbAt c) (s.w.ctxs c).hb
  au : ∀ t, closedAt c s.log = some t → ((s.w.ctxs c).au = .select → s.auAt c ≤ t) ∧ ∀ w, (s.w.ctxs c).au = .closing w → s.auAt c ≤ t + 2 * d
  bc : ∀ t, closedAt c s.log = some t → ((s.w.ctxs c).bc = .select → s.bcAt c ≤ t) ∧ ((s.w.ctxs c).bc = .closing → s.bcAt c ≤ t + 2 * d)
  fresh : s.w.n ≤ c → closedAt c s.log = none

theorem lastHeard_le {cfg : TCfg} {c : Nat} {s : TState} (h : LowOk cfg c s) {t : Nat} (ht : lastHeard c s.log = some t) : t ≤ s.now :=
  (h.heard t ht).1

set_option maxHeartbeats 2000000 in
theorem endsok_step {cfg : TCfg} {d c : Nat} (hd : d < cfg.interval) {s s' : TState} {l : TLabel} (hw : WInv s.w)
    (hp : PromptBeat cfg d c s) (he : PromptEnd d c s) (h : EndsOk d c s)
    (hs : s.step cfg l = some s') : EndsOk d c s' := by
  have hth : ∀ i, (s.w.threads i).pc = .closing c → c < s.w.n := fun i h => hw.thr i c (by rw [h]; rfl)
  have hf := hw.fresh c
  obtain ⟨h1, h2, h3, h4, h5⟩ := h
  rcases tstep_cases hs with ⟨d, rfl⟩ | ⟨a, w', rfl, hdue, hst, rfl⟩
  · exact ⟨⟨by simp only; omega, by simp only; omega, by simp only; omega⟩, h2, h3, h4, h5⟩
  · clear hs
    have hlv : ∀ t h, closedAt c s.log = some t → lastHeard c s.log = some h → EndLeave d (max t h) (s.hbAt c) s.now (s.w.ctxs c).hb :=
      fun t h e1 e2 => endPc_leave hp he e1 (Nat.le_max_left _ _) (h2 t h e1 e2)
    refine ⟨?_, ?_, ?_, ?_, ?_⟩
    · simp only [TState.after]
      cases a <;> simp only [setAt] <;> grind
    · clear h3 h4 hp he
      cases hcl : closedAt c s.log with
      | none =>
        simp only [hcl, reduceCtorEq, false_imp_iff, implies_true] at h2 hlv
        clear h2 hlv
        have hnow := h1.1
        have key := fun L pc => @endPc_now d L (s.hbAt c) s.now pc hnow
        clear h1
        cases a with
        | hb c' x =>
          by_cases hcc : c' = c
          · subst hcc
            tstep hst
            all_goals try simp only [closedAt, lastHeard, setAt, hcl]
            all_goals grind [EndPc]
          · tstep hst
            all_goals try simp only [closedAt, lastHeard, setAt, hcl]
            all_goals grind
        | accept o =>
          tstep hst
          all_goals simp only [closedAt, hcl]
          all_goals grind
        | _ =>
          tstep hst
          all_goals try simp only [closedAt, lastHeard, hcl, Option.none_or]
          all_goals grind
      | some t =>
        simp only [hcl, Option.some.injEq] at h2 hlv
        have hlt : c < s.w.n := Nat.lt_of_not_le fun hn => by rw [h5 hn] at hcl; cases hcl
        clear h5 h1 hf hth
        cases a with
        | hb c' x =>
          by_cases hcc : c' = c
          · subst hcc
            simp only [TState.due] at hdue
            clear h2
            tstep hst
            all_goals try simp only [closedAt, lastHeard, setAt, hcl, Option.some_or]
            all_goals grind [EndPc, EndLeave]
          · clear hlv
            tstep hst
            all_goals try simp only [closedAt, lastHeard, setAt, hcl, Option.some_or]
            all_goals grind
        | _ =>
          clear hlv hdue
          tstep hst
          all_goals try simp only [closedAt, lastHeard, setAt, hcl, Option.some_or]
          all_goals grind
    · clear h2 h4 hlv hp
      have hau := fun t e => (he.1 t e).2.1
      clear he
      cases hcl : closedAt c s.log with
      | none =>
        simp only [hcl, reduceCtorEq, false_imp_iff, implies_true] at h3 hau
        clear hdue
        cases a <;> tstep hst
        all_goals try simp only [closedAt, setAt, hcl, Option.none_or]
        all_goals grind
      | some t =>
        have hlt : c < s.w.n := Nat.lt_of_not_le fun hn => by rw [h5 hn] at hcl; cases hcl
        simp only [hcl, Option.some.injEq, forall_eq'] at h3 hau
        clear hdue
        cases a <;> tstep hst
        all_goals try simp only [closedAt, setAt, hcl, Option.some_or]
        all_goals grind
    · clear h2 h3 hlv hp
      have hbc := fun t e => (he.1 t e).2.2
      clear he
      cases hcl : closedAt c s.log with
      | none =>
        simp only [hcl, reduceCtorEq, false_imp_iff, implies_true] at h4 hbc
        clear hdue
        cases a <;> tstep hst
        all_goals try simp only [closedAt, setAt, hcl, Option.none_or]
        all_goals grind
      | some t =>
        have hlt : c < s.w.n := Nat.lt_of_not_le fun hn => by rw [h5 hn] at hcl; cases hcl
        simp only [hcl, Option.some.injEq, forall_eq'] at h4 hbc
        clear hdue
        cases a <;> tstep hst
        all_goals try simp only [closedAt, setAt, hcl, Option.some_or]
        all_goals grind
    · clear h1 h2 h3 h4 hlv hp he hdue
      cases a <;> tstep hst
      all_goals try simp only [closedAt]
      all_goals grind

end Tcpx
