import Verif.Lemmas.WatchSignals
/-! # Lemmas about what closes connections -/
namespace Tcpx
open Spec

/-! ## Closing (C52, C61, C63, C64) -/

/-- What closed connections, sockets and the broadcast channel have to do with what happened. -/
structure ClOk (cfg : WCfg) (s : WState) : Prop where
  ended : ∀ c, (s.ctxs c).endClosed = true ↔ IsClosed c s.trace
  sock : ∀ c, (s.ctxs c).endClosed = true → s.closed (s.ctxs c).sock = true
  socks : ∀ k, s.closed k = true → ∃ c, IsClosed c s.trace ∧ (s.ctxs c).sock = k
  sig : s.life.withSignals = true → s.life.sig = .closed → .stop true true ∈ s.trace
  sent : s.life.withSignals = true → .stop true true ∈ s.trace → s.life.sig = .closed
  noSig : s.life.withSignals = false → s.life.sig ≠ .closed
  bc : s.life.withSignals = true → ∀ c, c < s.n → (s.ctxs c).bc ≠ .off
  bcEnd : ∀ c, (s.ctxs c).bc = .ended → IsClosed c s.trace
  hbOff : cfg.heartBeatOn = false → ∀ c, (s.ctxs c).hb = .off

theorem isClosed_cons (c : Nat) (e : WatchEv) (tr : List WatchEv) :
    IsClosed c (e :: tr) ↔ (match e with | .closed c' _ => c' = c | _ => False) ∨ IsClosed c tr := by
  simp only [IsClosed, List.mem_cons]
  constructor
  · rintro ⟨w, h | h⟩
    · subst h; exact .inl rfl
    · exact .inr ⟨w, h⟩
  · rintro (h | ⟨w, h⟩)
    · cases e with
      | closed c' w => simp only at h; subst h; exact ⟨w, .inl rfl⟩
      | _ => cases h
    · exact ⟨w, .inr h⟩

theorem stop_facts (s : Life) (b : Bool) :
    (s.stop b).2.withSignals = s.withSignals ∧
    ((s.stop b).2.sig = .closed → s.sig = .closed ∨ s.withSignals = true ∧ b = true ∧ (s.stop b).1 = .ok ()) ∧
    (s.withSignals = true → b = true → (s.stop b).1 = .ok () → (s.stop b).2.sig = .closed) ∧
    (s.sig = .closed → (s.stop b).2.sig = .closed) := by
  unfold Life.stop
  by_cases h1 : s.state = .stopped
  · simp only [h1, if_true]
    exact ⟨trivial, fun h => .inl h, fun _ _ h => (by cases h), fun h => h⟩
  · simp only [h1, if_false]
    cases b with
    | false => simp +contextual
    | true =>
      simp only [if_true, Life.closeAllConnection]
      cases s.withSignals <;> cases s.sig <;> cases s.pool <;> simp

set_option maxHeartbeats 1000000 in
theorem clok_step {cfg : WCfg} {s s' : WState} {l : WLabel} (hw : WInv s) (h : ClOk cfg s)
    (hs : s.step cfg l = some s') : ClOk cfg s' := by
  obtain ⟨h1, h2, h3, h4⟩ := hw
  obtain ⟨g1, g2, g3, g4, g5, g6, g7, g8, g9⟩ := h
  have k1 : ∀ c, s.n ≤ c → (s.ctxs c).endClosed = false := fun c h => by rw [h1 c h]
  have kf := stop_facts s.life
  have kl : ∀ a b c, (s.life.listen a b c).withSignals = s.life.withSignals ∧ (s.life.listen a b c).sig = s.life.sig :=
    fun _ _ _ => ⟨rfl, rfl⟩
  clear h2 h3
  have k3 : ∀ i c, (s.threads i).pc = .closing c → c < s.n := fun i c h => h4 i c (by rw [h]; rfl)
  clear h4
  refine ⟨?_, ?_, ?_, ?_, ?_, ?_, ?_, ?_, ?_⟩
  · clear g2 g3 g4 g5 g6 g7 g8 g9 kf kl
    cases l <;> wstep hs
    all_goals simp only [isClosed_cons]
    all_goals grind
  · clear g3 g4 g5 g6 g7 g8 g9 kf kl
    cases l <;> wstep hs
    all_goals grind
  · clear g2 g4 g5 g6 g7 g8 g9 kf kl
    cases l <;> wstep hs
    all_goals simp only [isClosed_cons]
    all_goals grind
  · clear g1 g2 g3 g6 g7 g8 g9 k1 k3
    cases l <;> wstep hs
    all_goals simp only [List.mem_cons]
    all_goals grind
  · clear g1 g2 g3 g6 g7 g8 g9 k1 k3
    cases l <;> wstep hs
    all_goals simp only [List.mem_cons]
    all_goals grind
  · clear g1 g2 g3 g7 g8 g9 k1 k3
    cases l <;> wstep hs
    all_goals grind
  · clear g1 g2 g3 g4 g5 g6 g8 g9 k1 k3
    cases l <;> wstep hs
    all_goals grind
  · clear g2 g3 g4 g5 g6 g7 g9 kf kl
    cases l <;> wstep hs
    all_goals simp only [isClosed_cons]
    all_goals grind
  · clear g1 g2 g3 g4 g5 g6 g7 g8 k1 k3 kf kl
    cases l <;> wstep hs
    all_goals grind

theorem clok_run (cfg : WCfg) (life : Life) (hl : Configured life) (jobs : Nat → List UCall) (ls : List WLabel) :
    ClOk cfg ((WState.start life jobs).run cfg ls) := by
  have : WInv ((WState.start life jobs).run cfg ls) ∧ ClOk cfg ((WState.start life jobs).run cfg ls) := by
    refine WState.run_induct (P := fun s => WInv s ∧ ClOk cfg s) ⟨winv_start life jobs, ?_⟩ ?_ ls
    · refine ⟨?_, ?_, ?_, ?_, ?_, hl.2, ?_, ?_, ?_⟩
      · simp [WState.start, IsClosed]
      · simp [WState.start]
      · simp [WState.start]
      · intro h h'
        rw [show (WState.start life jobs).life = life from rfl] at h h'
        rw [hl.1 h] at h'; cases h'
      · simp [WState.start]
      · simp [WState.start]
      · simp [WState.start]
      · simp [WState.start]
    · exact fun s l s' h hs => ⟨winv_step h.1 hs, clok_step h.1 h.2 hs⟩
  exact this.2

/-- What the reasons of closes have to do with what happened. -/
structure CauseOk (cfg : WCfg) (s : WState) : Prop where
  hb : ∀ c, (s.ctxs c).hb = .closing .signal → s.life.sig = .closed
  bc : ∀ c, (s.ctxs c).bc = .closing → s.life.sig = .closed
  au : ∀ c, (s.ctxs c).au = .closing .signal → s.life.sig = .closed
  signal : ∀ c, AtEach (.closed c .signal) (fun tr => .stop true true ∈ tr) s.trace
  beatOff : cfg.heartBeatOn = false → ∀ c, .closed c .stopState ∉ s.trace ∧ .closed c .loss ∉ s.trace
  udp : ∀ c, (s.ctxs c).sock % 2 = 0 → (s.ctxs c).au = .off ∧ .closed c .deadline ∉ s.trace ∧ .closed c .denied ∉ s.trace
  fresh : ∀ c, s.n ≤ c → .closed c .deadline ∉ s.trace ∧ .closed c .denied ∉ s.trace

set_option maxHeartbeats 1000000 in
theorem causeok_step {cfg : WCfg} {s s' : WState} {l : WLabel} (hw : WInv s) (hc : ClOk cfg s) (h : CauseOk cfg s)
    (hs : s.step cfg l = some s') : CauseOk cfg s' := by
  obtain ⟨h1, h2, h3, h4⟩ := hw
  obtain ⟨g1, g2, g3, g4, g5, g6, g7⟩ := h
  have kf := stop_facts s.life
  have kl : ∀ a b c, (s.life.listen a b c).withSignals = s.life.withSignals ∧ (s.life.listen a b c).sig = s.life.sig :=
    fun _ _ _ => ⟨rfl, rfl⟩
  have ks : s.life.sig = .closed → .stop true true ∈ s.trace := by
    intro h
    cases hw : s.life.withSignals with
    | true => exact hc.sig hw h
    | false => exact absurd h (hc.noSig hw)
  have kh := hc.hbOff
  clear h4 hc
  refine ⟨?_, ?_, ?_, ?_, ?_, ?_, ?_⟩
  · clear g2 g3 g4 g5 g6 h2 h3 kh ks g7
    cases l <;> wstep hs
    all_goals grind
  · clear g1 g3 g4 g5 g6 h2 h3 kh ks g7
    cases l <;> wstep hs
    all_goals grind
  · clear g1 g2 g4 g5 g6 h2 h3 kh ks g7
    cases l <;> wstep hs
    all_goals grind
  · clear g5 g6 h1 h2 h3 kh kf kl g7
    cases l <;> wstep hs
    all_goals simp only [atEach_cons]
    all_goals grind
  · clear g1 g2 g3 g4 g6 h1 h3 kf kl ks g7
    cases l <;> wstep hs
    all_goals simp only [List.mem_cons]
    all_goals grind
  · clear g1 g2 g3 g4 g5 h2 kf kl ks kh
    cases l <;> wstep hs
    all_goals simp only [List.mem_cons]
    all_goals grind
  · clear g1 g2 g3 g4 g5 g6 h2 kf kl ks kh
    cases l <;> wstep hs
    all_goals simp only [List.mem_cons]
    all_goals grind

theorem causeok_run (cfg : WCfg) (life : Life) (hl : Configured life) (jobs : Nat → List UCall) (ls : List WLabel) :
    CauseOk cfg ((WState.start life jobs).run cfg ls) := by
  have : (WInv ((WState.start life jobs).run cfg ls) ∧ ClOk cfg ((WState.start life jobs).run cfg ls)) ∧
      CauseOk cfg ((WState.start life jobs).run cfg ls) := by
    refine WState.run_induct (P := fun s => (WInv s ∧ ClOk cfg s) ∧ CauseOk cfg s)
      ⟨⟨winv_start life jobs, clok_run cfg life hl jobs []⟩, ?_⟩ ?_ ls
    · refine ⟨?_, ?_, ?_, ?_, ?_, ?_, ?_⟩
      · simp [WState.start]
      · simp [WState.start]
      · simp [WState.start]
      · exact fun c => atEach_nil _ _
      · simp [WState.start]
      · simp [WState.start]
      · simp [WState.start]
    · exact fun s l s' h hs => ⟨⟨winv_step h.1.1 hs, clok_step h.1.1 h.1.2 hs⟩, causeok_step h.1.1 h.1.2 h.2 hs⟩
  exact this.2

end Tcpx
