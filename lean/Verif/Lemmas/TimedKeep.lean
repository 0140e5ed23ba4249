import Verif.Lemmas.Timed
/-! # Lemmas: heartbeats in time keep a connection -/
namespace Tcpx
open Spec

/-- Watcher and handlers use the same channel, and what is in it was sent soon after the last heartbeat heard. -/
structure AgreeOk (g c : Nat) (s : TState) : Prop where
  now : ∀ r, lastSignal c s.log = some r → r ≤ s.now
  known : c < s.w.n → (lastSignal c s.log).isSome = true
  noSend : (s.w.ctxs c).chan = none → ∀ i ch, (s.w.threads i).pc ≠ .beatSend c ch
  noSel : (s.w.ctxs c).chan = none → ∀ k ch, (s.w.ctxs c).hb ≠ .select k ch
  noLate : (s.w.ctxs c).chan = none → ∀ h r, lastHeard c s.log = some h → lastSignal c s.log = some r → r ≤ h
  send : ∀ ch, (s.w.ctxs c).chan = some ch → ∀ i ch', (s.w.threads i).pc = .beatSend c ch' → ch' = ch
  sel : ∀ ch, (s.w.ctxs c).chan = some ch → ∀ k ch', (s.w.ctxs c).hb = .select k ch' → ch' = ch
  crt : ∀ ch, (s.w.ctxs c).chan = some ch → ∀ k, (s.w.ctxs c).hb ≠ .create k
  full : ∀ ch, (s.w.ctxs c).chan = some ch → s.w.buf ch = true → ∀ h, lastHeard c s.log = some h → s.chAt ch ≤ h + g
  empty : ∀ ch, (s.w.ctxs c).chan = some ch → s.w.buf ch = false → ∀ h r, lastHeard c s.log = some h → lastSignal c s.log = some r → r ≤ h

set_option maxHeartbeats 2000000 in
theorem agreeok_step {cfg : TCfg} {g c : Nat} {s s' : TState} {l : TLabel} (hw : WInv s.w) (ho : ∃ owner, OwnOk owner s.w)
    (hl : LowOk cfg c s) (hg : BeatsEvery g c s) (hf' : WatcherFirst c s) (hf : WatcherFirst c s') (hopen : ¬ ClosedIn c s.log)
    (h : AgreeOk g c s) (hs : s.step cfg l = some s') : AgreeOk g c s' := by
  obtain ⟨owner, o1, o2, o3, o4⟩ := ho
  have hfr := hw.fresh c
  have hlast := hl.heard
  clear hw hl
  replace hg := fun t e => hg t e hopen
  clear hopen
  have hch : ∀ ch, (s.w.ctxs c).chan = some ch → ch < s.w.nchan := fun ch e => (o1 _ _ e).2
  have hb0 : s.w.buf s.w.nchan = false := by
    cases hb : s.w.buf s.w.nchan with
    | false => rfl
    | true => exact absurd (o3 _ hb).1 (Nat.lt_irrefl _)
  clear o3
  unfold WatcherFirst at hf hf'
  obtain ⟨a1, a2, a3, a4, a5, a6, a7, a8, a9, a10⟩ := h
  have hcr : ∀ k, (s.w.ctxs c).hb = .create k → (s.w.ctxs c).chan = none := by
    intro k hk
    cases hc : (s.w.ctxs c).chan with
    | none => rfl
    | some ch => exact absurd hk (a8 ch hc k)
  have hno : lastSignal c s.log = none → s.w.n ≤ c := by
    intro e
    apply Nat.le_of_not_lt
    intro hlt
    have := a2 hlt
    rw [e] at this
    cases this
  rcases tstep_cases hs with ⟨d, rfl⟩ | ⟨a, w', rfl, hdue, hst, rfl⟩
  · exact ⟨fun r e => Nat.le_trans (a1 r e) (Nat.le_add_right _ _), a2, a3, a4, a5, a6, a7, a8, a9, a10⟩
  · clear hs hdue
    refine ⟨?_, ?_, ?_, ?_, ?_, ?_, ?_, ?_, ?_, ?_⟩
    · clear a2 a3 a4 a5 a6 a7 a8 a9 a10 o1 o2 o4 hf hf' hg
      cases a <;> tstep hst
      all_goals try simp only [lastSignal]
      all_goals grind
    · clear a1 a3 a4 a5 a6 a7 a8 a9 a10 o1 o2 o4 hf hf' hg
      cases a <;> tstep hst
      all_goals try simp only [lastSignal]
      all_goals grind
    · clear a1 a2 a4 a5 a6 a7 a8 a9 a10 o1 o2 o4 hf' hg
      cases a <;> tstep hst
      all_goals grind
    · clear a1 a2 a3 a5 a6 a7 a8 a9 a10 o1 o2 o4 hf hf' hg
      cases a <;> tstep hst
      all_goals grind
    · clear a2 a4 a6 a7 a8 a9 a10 o1 o2 o4 hf hg hlast
      cases a <;> tstep hst
      all_goals try simp only [lastSignal, lastHeard]
      all_goals grind
    · clear a1 a2 a4 a5 a7 a8 a9 a10 o1 o2 o4 hf hg hlast hb0 hch
      cases a <;> tstep hst
      all_goals grind
    · clear a1 a2 a3 a5 a6 a8 a9 a10 o1 o2 o4 hf hg hlast hb0 hch
      cases a <;> tstep hst
      all_goals grind
    · clear a1 a2 a3 a4 a5 a6 a7 a9 a10 o1 o2 o4 hf hg hlast hb0 hch
      cases a <;> tstep hst
      all_goals grind
    · clear a2 a4 a5 a8 hf
      have hl1 : ∀ h, lastHeard c s.log = some h → h ≤ s.now := fun h e => (hlast h e).1
      clear hlast
      have hz : s.w.n ≤ c → (s.w.ctxs c).chan = none := fun h => by rw [hfr h]
      clear hfr
      rcases hL : lastHeard c s.log with _ | h0 <;> rcases hR : lastSignal c s.log with _ | r0
      all_goals simp only [hL, hR, Option.some.injEq, reduceCtorEq, forall_eq', false_implies, implies_true, true_implies] at hl1 a1 a9 a10 hg hno
      all_goals cases a <;> tstep hst
      all_goals try simp only [lastHeard, setAt, hL]
      all_goals grind
    · clear a2 a4 a8 a9 hlast hf
      have hz : s.w.n ≤ c → (s.w.ctxs c).chan = none := fun h => by rw [hfr h]
      clear hfr
      rcases hL : lastHeard c s.log with _ | h0 <;> rcases hR : lastSignal c s.log with _ | r0
      all_goals simp only [hL, hR, Option.some.injEq, reduceCtorEq, forall_eq', false_implies, implies_true, true_implies] at a1 a5 a10 hg hno
      all_goals cases a <;> tstep hst
      all_goals try simp only [lastSignal, lastHeard, setAt, hL, hR]
      all_goals grind

theorem ownok_tstep {cfg : TCfg} {s s' : TState} {l : TLabel} (ho : ∃ owner, OwnOk owner s.w) (hs : s.step cfg l = some s') :
    ∃ owner, OwnOk owner s'.w := by
  rcases tstep_cases hs with ⟨d, rfl⟩ | ⟨a, w', rfl, hdue, hst, rfl⟩
  · exact ho
  · obtain ⟨owner, ho⟩ := ho
    exact ownok_step ho hst

theorem closedIn_tstep {cfg : TCfg} {c : Nat} {s s' : TState} {l : TLabel} (hs : s.step cfg l = some s') (h : ClosedIn c s.log) :
    ClosedIn c s'.log := by
  obtain ⟨t, w, h⟩ := h
  rcases tstep_cases hs with ⟨d, rfl⟩ | ⟨a, w', rfl, hdue, hst, rfl⟩
  · exact ⟨t, w, h⟩
  · exact ⟨t, w, List.mem_append_right _ h⟩

/-- The watcher is not on its way to closing for loss. -/
def NotLost (c : Nat) (s : TState) : Prop := (s.w.ctxs c).hb ≠ .lost ∧ (s.w.ctxs c).hb ≠ .closing .loss

theorem notlost_step {cfg : TCfg} {g d c : Nat} {s s' : TState} {l : TLabel} (hw : WInv s.w) (hd : d < cfg.interval)
    (hgd : g + d < 3 * cfg.interval) (hl : LowOk cfg c s) (hg : BeatsEvery g c s) (hp : PromptBeat cfg d c s)
    (hopen : ¬ ClosedIn c s.log) (ha : AgreeOk g c s) (h : NotLost c s) (hs : s.step cfg l = some s') : NotLost c s' := by
  rcases tstep_cases hs with ⟨d, rfl⟩ | ⟨a, w', rfl, hdue, hst, rfl⟩
  · exact h
  · clear hs
    have key : ∀ ch, (s.w.ctxs c).hb = .select 2 ch → ¬ s.hbAt c + cfg.interval ≤ s.now := by
      intro ch hpc hle
      have hlt : c < s.w.n := Nat.lt_of_not_le fun hn => by rw [hw.fresh c hn] at hpc; cases hpc
      obtain ⟨h0, e0⟩ := Option.isSome_iff_exists.1 (hl.known hlt)
      obtain ⟨r0, f0⟩ := Option.isSome_iff_exists.1 (ha.known hlt)
      have hlow := (hl.heard h0 e0).2
      rw [hpc] at hlow
      simp only [LowPc] at hlow
      have hg := hg r0 f0 hopen
      unfold PromptBeat at hp
      rw [hpc] at hp
      simp only at hp
      cases hch : (s.w.ctxs c).chan with
      | none => exact ha.noSel hch 2 ch hpc
      | some ch' =>
        have := ha.sel ch' hch 2 ch hpc
        subst this
        cases hb : s.w.buf ch with
        | true =>
          have h1 := ha.full ch hch hb h0 e0
          have h2 := hp.2 hb
          omega
        | false =>
          have h1 := ha.empty ch hch hb h0 r0 e0 f0
          omega
    obtain ⟨h1, h2⟩ := h
    have hfr := hw.fresh c
    clear hw hl hg hp ha hopen
    unfold NotLost
    cases a with
    | hb c' x =>
      simp only [TState.due] at hdue
      tstep hst
      all_goals grind
    | _ =>
      clear hdue key
      tstep hst
      all_goals grind

/-- Everything together. -/
structure KeepOk (cfg : TCfg) (g c : Nat) (s : TState) : Prop where
  inv : WInv s.w
  own : ∃ owner, OwnOk owner s.w
  low : LowOk cfg c s
  keep : ¬ ClosedIn c s.log → AgreeOk g c s ∧ NotLost c s
  loss : AtEachT (.closed c .loss) (fun _ pre => ClosedIn c pre) s.log

theorem keepok_step {cfg : TCfg} {g d c : Nat} {s s' : TState} {l : TLabel} (hd : d < cfg.interval) (hgd : g + d < 3 * cfg.interval)
    (hg : BeatsEvery g c s) (hp : PromptBeat cfg d c s) (hf : WatcherFirst c s) (hf' : WatcherFirst c s') (h : KeepOk cfg g c s)
    (hs : s.step cfg l = some s') : KeepOk cfg g c s' := by
  obtain ⟨h1, h2, h3, h4, h5⟩ := h
  refine ⟨winv_tstep h1 hs, ownok_tstep h2 hs, lowok_step h1 h3 hs, ?_, ?_⟩
  · intro hopen
    have ho : ¬ ClosedIn c s.log := fun h => hopen (closedIn_tstep hs h)
    obtain ⟨ha, hn⟩ := h4 ho
    exact ⟨agreeok_step h1 h2 h3 hg hf hf' ho ha hs, notlost_step h1 hd hgd h3 hg hp ho ha hn hs⟩
  · have k : (s.w.ctxs c).hb = .closing .loss → ClosedIn c s.log := fun hpc => Classical.byContradiction fun ho => (h4 ho).2.2 hpc
    have hau := h1.au c
    clear h4 h3 h2 h1 hg hp hf hf'
    rcases tstep_cases hs with ⟨d, rfl⟩ | ⟨a, w', rfl, hdue, hst, rfl⟩
    · exact h5
    · clear hs hdue
      cases a <;> tstep hst
      all_goals try simp only [atEachT_cons]
      all_goals grind

theorem keepok_start (cfg : TCfg) (life : Life) (jobs : Nat → List UCall) (g c : Nat) : KeepOk cfg g c (.start life jobs) := by
  refine ⟨winv_start life jobs, ⟨fun _ => 0, ?_, ?_, ?_, ?_⟩, ⟨Nat.le_refl _, fun h => absurd h (Nat.not_lt_zero _), ?_, atEachT_nil _ _⟩,
    fun _ => ⟨⟨?_, fun h => absurd h (Nat.not_lt_zero _), ?_, ?_, ?_, ?_, ?_, ?_, ?_, ?_⟩, ?_, ?_⟩, atEachT_nil _ _⟩
  all_goals simp [TState.start, WState.start, lastHeard, lastSignal]

/-! ## Authorisation -/

structure AuthOk (cfg : TCfg) (c : Nat) (s : TState) : Prop where
  now : s.auAt c ≤ s.now
  known : c < s.w.n → (acceptedAt c s.log).isSome = true
  wait : ∀ a, acceptedAt c s.log = some a → a ≤ s.now ∧ ((s.w.ctxs c).au = .select → s.auAt c = a) ∧
    ((s.w.ctxs c).au = .closing .deadline → a + cfg.authDeadline ≤ s.auAt c)
  late : AtEachT (.closed c .deadline) (fun t pre => ∃ a, acceptedAt c pre = some a ∧ a + cfg.authDeadline ≤ t) s.log

theorem authok_step {cfg : TCfg} {c : Nat} {s s' : TState} {l : TLabel} (hw : WInv s.w) (h : AuthOk cfg c s)
    (hs : s.step cfg l = some s') : AuthOk cfg c s' := by
  obtain ⟨h1, h0, h2, h3⟩ := h
  rcases tstep_cases hs with ⟨d, rfl⟩ | ⟨a, w', rfl, hdue, hst, rfl⟩
  · refine ⟨by simp only; omega, h0, fun h e => ?_, h3⟩
    obtain ⟨e2, e3⟩ := h2 h e
    exact ⟨by simp only; omega, e3⟩
  · clear hs
    have hf := hw.fresh c
    have hb := hw.hb
    clear hw
    refine ⟨?_, ?_, ?_, ?_⟩
    · simp only [TState.after]
      cases a <;> simp only [setAt] <;> grind
    · clear h3 h2 hdue
      cases a <;> tstep hst
      all_goals try simp only [acceptedAt]
      all_goals grind
    · clear h3
      cases a with
      | au c' x =>
        by_cases hcc : c' = c
        · subst hcc
          simp only [TState.due] at hdue
          tstep hst
          all_goals try simp only [acceptedAt, setAt]
          all_goals grind
        · tstep hst
          all_goals try simp only [acceptedAt, setAt]
          all_goals grind
      | accept o =>
        clear hdue
        by_cases hcc : s.w.n = c
        · tstep hst
          all_goals simp only [acceptedAt, setAt, hcc, if_true, Option.some.injEq]
          all_goals grind
        · tstep hst
          all_goals simp only [acceptedAt, setAt, hcc, if_false]
          all_goals grind
      | _ =>
        tstep hst
        all_goals try simp only [acceptedAt]
        all_goals grind
    · clear hdue
      have k : (s.w.ctxs c).au = .closing .deadline → ∃ a, acceptedAt c s.log = some a ∧ a + cfg.authDeadline ≤ s.now := by
        intro hp
        have hc : c < s.w.n := Nat.lt_of_not_le fun hn => by rw [hf hn] at hp; cases hp
        obtain ⟨a, e⟩ := Option.isSome_iff_exists.1 (h0 hc)
        exact ⟨a, e, Nat.le_trans ((h2 a e).2.2 hp) h1⟩
      clear h0 h2 h1
      cases a <;> tstep hst
      all_goals try simp only [atEachT_cons]
      all_goals grind

theorem authok_run (cfg : TCfg) (life : Life) (jobs : Nat → List UCall) (c : Nat) (ls : List TLabel) :
    AuthOk cfg c ((TState.start life jobs).run cfg ls) := by
  refine (TState.run_induct (P := fun s => WInv s.w ∧ AuthOk cfg c s) (throughout_true _ _ _) ⟨winv_start life jobs, ?_⟩ ?_).2
  · exact ⟨Nat.le_refl _, fun h => absurd h (Nat.not_lt_zero _), fun h e => (by cases e), atEachT_nil _ _⟩
  · exact fun s l s' h _ _ hs => ⟨winv_tstep h.1 hs, authok_step h.1 h.2 hs⟩

end Tcpx
