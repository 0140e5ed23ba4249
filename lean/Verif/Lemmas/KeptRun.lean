import Verif.Lemmas.KeptHold
/-! # Lemmas: heartbeats handled in time keep a connection (C85), for runs -/
namespace Tcpx
open Spec

/-- A new connection. -/
theorem holdok_accept {cfg : TCfg} {d g : Nat} {s : TState} (hw : WInv s.w) (o : Origin) {w' : WState}
    (hst : s.w.step cfg.w (.accept o) = some w') : HoldOk d g s.w.n s.now (s.after w' (.accept o)) := by
  have k2 : ∀ i, (s.w.threads i).pc ≠ .beatCreate s.w.n := fun i h => absurd (hw.thr i s.w.n (by rw [h]; rfl)) (Nat.lt_irrefl _)
  have k3 : ∀ i ch, (s.w.threads i).pc ≠ .beatSend s.w.n ch := fun i ch h => absurd (hw.thr i s.w.n (by rw [h]; rfl)) (Nat.lt_irrefl _)
  simp only [WState.step, Option.some.injEq] at hst
  subst hst
  refine ⟨?_, ?_, ?_, ?_, ?_, ?_, ?_⟩
  all_goals simp only [TState.after, WState.setCtx, WState.log, newCtx, setAt, if_true]
  · exact fun _ i ch => k3 i ch
  · intro h1 _
    split at h1
    · next h => simp [h, EarlyPc]
    · cases h1
  · intro k h1
    split at h1 <;> cases h1
  · exact fun _ i t h => absurd h (k2 i)
  · intro k ch h1
    split at h1 <;> cases h1
  · exact fun _ ch h h1 => nomatch h1
  · exact fun _ ch h r h1 => nomatch h1

theorem notlost_hold {cfg : TCfg} {g d c a : Nat} {s s' : TState} {l : TLabel} (hw : WInv s.w) (hgd : g + 6 * d < 3 * cfg.interval)
    (hl : LowOk cfg c s) (hc : CallOk c s) (hlt : c < s.w.n) (hacc : acceptedAt c s.log = some a) (hp : PromptBeat cfg d c s)
    (hq : PromptCalls d c s) (hg : CallsEvery g c s) (hopen : ¬ ClosedIn c s.log)
    (ha : HoldOk d g c a s) (h : NotLost c s) (hs : s.step cfg l = some s') : NotLost c s' := by
  rcases tstep_cases hs with ⟨d, rfl⟩ | ⟨b, w', rfl, hdue, hst, rfl⟩
  · exact h
  · clear hs
    have key : ∀ ch, (s.w.ctxs c).hb = .select 2 ch → ¬ s.hbAt c + cfg.interval ≤ s.now := by
      intro ch hpc hle
      obtain ⟨h0, e0⟩ := Option.isSome_iff_exists.1 (hl.known hlt)
      obtain ⟨r0, f0⟩ := Option.isSome_iff_exists.1 (hc.known hlt)
      have hlow := (hl.heard h0 e0).2
      rw [hpc] at hlow
      simp only [LowPc] at hlow
      have hg := hg r0 f0 hopen
      have hah := hc.heard a h0 hacc e0
      unfold PromptBeat at hp
      rw [hpc] at hp
      simp only at hp
      have live : (s.w.ctxs c).hb.live = true := by rw [hpc]; rfl
      by_cases hch : (s.w.ctxs c).chan = some ch
      · cases hb : s.w.buf ch with
        | true =>
          have h1 := ha.full live ch h0 hch hb e0
          have h2 := hp.2 hb
          omega
        | false =>
          rcases ha.empty live ch h0 r0 hch hb e0 f0 with h1 | ⟨i, t, h1, h2 | h2, h3⟩
          · omega
          · have := (hq i t h1).1 (.inl h2)
            omega
          · have := (hq i t h1).2 ch h0 h2 hb e0
            omega
      · have := ha.old 2 ch hpc hch
        omega
    obtain ⟨h1, h2⟩ := h
    have hfr := hw.fresh c
    clear hw hl hg hp ha hopen hq hc
    unfold NotLost
    cases b with
    | hb c' x =>
      simp only [TState.due] at hdue
      tstep hst
      all_goals grind
    | _ =>
      clear hdue key
      tstep hst
      all_goals grind

/-- Everything together. -/
structure KeptOk (cfg : TCfg) (d g c : Nat) (s : TState) : Prop where
  inv : WInv s.w
  own : ∃ owner, OwnOk owner s.w
  low : LowOk cfg c s
  call : CallOk c s
  keep : c < s.w.n → ¬ ClosedIn c s.log → ∃ a, acceptedAt c s.log = some a ∧ HoldOk d g c a s ∧ NotLost c s
  loss : AtEachT (.closed c .loss) (fun _ pre => ClosedIn c pre) s.log

theorem acceptedAt_tstep {cfg : TCfg} {c : Nat} {s s' : TState} {l : TLabel} (hlt : c < s.w.n) (hs : s.step cfg l = some s') :
    acceptedAt c s'.log = acceptedAt c s.log := by
  rcases tstep_cases hs with ⟨d, rfl⟩ | ⟨b, w', rfl, hdue, hst, rfl⟩
  · rfl
  · clear hs hdue
    cases b <;> tstep hst
    all_goals try simp only [acceptedAt]
    all_goals grind

theorem new_tstep {cfg : TCfg} {c : Nat} {s s' : TState} {l : TLabel} (h1 : s.w.n ≤ c) (h2 : c < s'.w.n) (hs : s.step cfg l = some s') :
    c = s.w.n ∧ ∃ o w', s.w.step cfg.w (.accept o) = some w' ∧ s' = s.after w' (.accept o) := by
  rcases tstep_cases hs with ⟨d, rfl⟩ | ⟨b, w', rfl, hdue, hst, rfl⟩
  · exact absurd h2 (Nat.not_lt.2 h1)
  · clear hs hdue
    cases b with
    | accept o =>
      refine ⟨?_, o, w', hst, rfl⟩
      simp only [WState.step, Option.some.injEq] at hst
      subst hst
      simp only [TState.after, WState.setCtx, WState.log] at h2
      omega
    | _ =>
      exfalso
      revert h2
      tstep hst
      all_goals grind

theorem keptok_step {cfg : TCfg} {g d c : Nat} {s s' : TState} {l : TLabel} (hgd : g + 6 * d < 3 * cfg.interval)
    (hp : PromptBeat cfg d c s) (hq : PromptCalls d c s) (hg : CallsEvery g c s) (h : KeptOk cfg d g c s)
    (hs : s.step cfg l = some s') : KeptOk cfg d g c s' := by
  obtain ⟨h1, h2, h3, h4, h5, h6⟩ := h
  refine ⟨winv_tstep h1 hs, ownok_tstep h2 hs, lowok_step h1 h3 hs, callok_step h1 h3 h4 hs, ?_, ?_⟩
  · intro hn hopen
    have ho : ¬ ClosedIn c s.log := fun h => hopen (closedIn_tstep hs h)
    by_cases hlt : c < s.w.n
    · obtain ⟨a, ha, hh, hl⟩ := h5 hlt ho
      exact ⟨a, (acceptedAt_tstep hlt hs).trans ha, holdok_step h1 h2 h3 h4 hlt ha hp hq hg ho hh hs,
        notlost_hold h1 hgd h3 h4 hlt ha hp hq hg ho hh hl hs⟩
    · obtain ⟨rfl, o, w', hst, rfl⟩ := new_tstep (Nat.le_of_not_lt hlt) hn hs
      refine ⟨s.now, ?_, holdok_accept h1 o hst, ?_⟩
      · clear hs hn hopen
        tstep hst
        all_goals simp [acceptedAt]
      · simp only [WState.step, Option.some.injEq] at hst
        subst hst
        simp only [NotLost, TState.after, WState.setCtx, WState.log, newCtx, if_true]
        split <;> simp
  · have k : (s.w.ctxs c).hb = .closing .loss → ClosedIn c s.log := fun hpc => Classical.byContradiction fun ho => by
      have hlt : c < s.w.n := Nat.lt_of_not_le fun hn => by rw [h1.fresh c hn] at hpc; cases hpc
      obtain ⟨_, _, _, hl⟩ := h5 hlt ho
      exact hl.2 hpc
    have hau := h1.au c
    clear h5 h4 h3 h2 h1 hg hp hq
    rcases tstep_cases hs with ⟨d, rfl⟩ | ⟨a, w', rfl, hdue, hst, rfl⟩
    · exact h6
    · clear hs hdue
      cases a <;> tstep hst
      all_goals try simp only [atEachT_cons]
      all_goals grind

theorem keptok_start (cfg : TCfg) (life : Life) (jobs : Nat → List UCall) (d g c : Nat) : KeptOk cfg d g c (.start life jobs) := by
  obtain ⟨k1, k2, k3, _, k5⟩ := keepok_start cfg life jobs g c
  refine ⟨k1, k2, k3, ⟨?_, fun h => absurd h (Nat.not_lt_zero _), ?_, ?_, ?_, fun h => absurd h (Nat.not_lt_zero _), ?_, ?_⟩,
    fun h => absurd h (Nat.not_lt_zero _), k5⟩
  all_goals simp [TState.start, WState.start, lastCall, acceptedAt]

end Tcpx
