import Verif.Lemmas.WatchClose
/-! # Lemmas about what watchers do when they are scheduled -/
namespace Tcpx
open Spec

theorem trace_step {cfg : WCfg} {s s' : WState} {l : WLabel} (hs : s.step cfg l = some s') : ∃ es, s'.trace = es ++ s.trace := by
  cases l <;> wstep hs
  all_goals first
    | exact ⟨[], rfl⟩
    | exact ⟨[_], rfl⟩
    | exact ⟨[_, _], rfl⟩

theorem trace_run (cfg : WCfg) (s : WState) (ls : List WLabel) : ∃ es, (s.run cfg ls).trace = es ++ s.trace := by
  induction ls generalizing s with
  | nil => exact ⟨[], rfl⟩
  | cons l ls ih =>
    obtain ⟨e1, h1⟩ := ih ((s.step cfg l).getD s)
    rw [show (s.run cfg (l :: ls)) = ((s.step cfg l).getD s).run cfg ls from rfl, h1]
    cases h : s.step cfg l with
    | none => exact ⟨e1, rfl⟩
    | some s' =>
      obtain ⟨e2, h2⟩ := trace_step h
      exact ⟨e1 ++ e2, by simp [h2]⟩

theorem trace_mono {cfg : WCfg} {s : WState} {ls : List WLabel} {e : WatchEv} (h : e ∈ s.trace) : e ∈ (s.run cfg ls).trace := by
  obtain ⟨es, he⟩ := trace_run cfg s ls
  rw [he]; exact List.mem_append_right _ h

theorem closed_mono {cfg : WCfg} {s : WState} {ls : List WLabel} {c : Nat} (h : IsClosed c s.trace) :
    IsClosed c (s.run cfg ls).trace := h.imp fun _ h => trace_mono h

theorem stop_label {cfg : WCfg} {b ok : Bool} : ∀ {ls : List WLabel} {s : WState}, .stop b ok ∈ (s.run cfg ls).trace →
    .stop b ∈ ls ∨ .stop b ok ∈ s.trace := by
  intro ls
  induction ls with
  | nil => exact fun h => .inr h
  | cons l ls ih =>
    intro s h
    rcases ih h with h | h
    · exact .inl (List.mem_cons_of_mem _ h)
    · cases hs : s.step cfg l with
      | none => rw [hs] at h; exact .inr h
      | some s' =>
        rw [hs] at h
        simp only [Option.getD_some] at h
        by_cases hl : l = .stop b
        · exact .inl (by rw [hl]; exact List.mem_cons_self)
        · refine .inr ?_
          clear ih
          cases l <;> wstep hs
          all_goals simp only [List.mem_cons] at h
          all_goals grind

theorem withSignals_step {cfg : WCfg} {s s' : WState} {l : WLabel} (hs : s.step cfg l = some s') :
    s'.life.withSignals = s.life.withSignals := by
  have kf := stop_facts s.life
  have kl : ∀ a b c, (s.life.listen a b c).withSignals = s.life.withSignals := fun _ _ _ => rfl
  cases l <;> wstep hs
  all_goals grind

theorem withSignals_run (cfg : WCfg) (s : WState) (ls : List WLabel) : (s.run cfg ls).life.withSignals = s.life.withSignals := by
  exact WState.run_induct (P := fun t => t.life.withSignals = s.life.withSignals) rfl
    (fun t l t' h ht => by rw [withSignals_step ht, h]) ls

theorem n_step {cfg : WCfg} {s s' : WState} {l : WLabel} (hs : s.step cfg l = some s') : s.n ≤ s'.n := by
  cases l <;> wstep hs
  all_goals grind

theorem n_run (cfg : WCfg) (s : WState) (ls : List WLabel) : s.n ≤ (s.run cfg ls).n :=
  WState.run_induct (P := fun t => s.n ≤ t.n) (Nat.le_refl _) (fun _ _ _ h ht => Nat.le_trans h (n_step ht)) ls

/-! ## Heartbeat -/

theorem closing_live (cfg : WCfg) (c : Nat) (ls : List WLabel) : ∀ (s : WState), c < s.n → (s.ctxs c).hb = .closing .loss →
    .hb c .go ∈ ls → .closed c .loss ∈ (s.run cfg ls).trace := by
  induction ls with
  | nil => intro s _ _ h; cases h
  | cons l ls ih =>
    intro s hn hc hm
    show .closed c .loss ∈ (((s.step cfg l).getD s).run cfg ls).trace
    by_cases hl : ∃ x, l = .hb c x
    · obtain ⟨x, rfl⟩ := hl
      cases x with
      | go =>
        refine trace_mono ?_
        simp [WState.step, hbStep, hc, WState.closeConn, WState.log]
      | _ =>
        simp only [WState.step, hbStep, hc, Option.getD_none]
        exact ih s hn hc (by simpa using hm)
    · have hm' : .hb c .go ∈ ls := by
        rcases List.mem_cons.1 hm with h | h
        · exact absurd ⟨_, h.symm⟩ hl
        · exact h
      cases h : s.step cfg l with
      | none => exact ih s hn hc hm'
      | some s' =>
        obtain ⟨h1, h2⟩ := hb_frame hn (fun x hx => hl ⟨x, hx⟩) h
        exact ih s' h2 (by rw [h1]; exact hc) hm'

theorem lost_live (cfg : WCfg) (c : Nat) (ls : List WLabel) : ∀ (s : WState), c < s.n → (s.ctxs c).hb = .lost →
    2 ≤ ls.count (.hb c .go) → .hb c .panic ∉ ls → .closed c .loss ∈ (s.run cfg ls).trace := by
  induction ls with
  | nil => intro s _ _ h; cases h
  | cons l ls ih =>
    intro s hn hc hm hp
    show .closed c .loss ∈ (((s.step cfg l).getD s).run cfg ls).trace
    have hp' : .hb c .panic ∉ ls := fun h => hp (List.mem_cons_of_mem _ h)
    by_cases hl : ∃ x, l = .hb c x
    · obtain ⟨x, rfl⟩ := hl
      cases x with
      | go =>
        have hin : .hb c .go ∈ ls := by
          rw [List.count_cons_self] at hm
          exact List.count_pos_iff.1 (by omega)
        refine closing_live cfg c ls _ ?_ ?_ hin
        · simp only [WState.step, hbStep, hc, WState.setCtx, WState.log, Option.getD_some]
          split <;> exact hn
        · simp only [WState.step, hbStep, hc, WState.setCtx, WState.log, Option.getD_some]
          split <;> simp
      | panic => exact absurd List.mem_cons_self hp
      | _ =>
        simp only [WState.step, hbStep, hc, Option.getD_none]
        exact ih s hn hc (by simpa [List.count_cons] using hm) hp'
    · have hm' : 2 ≤ ls.count (.hb c .go) := by
        rw [List.count_cons_of_ne (fun h => hl ⟨_, h⟩)] at hm
        exact hm
      cases h : s.step cfg l with
      | none => exact ih s hn hc hm' hp'
      | some s' =>
        obtain ⟨h1, h2⟩ := hb_frame hn (fun x hx => hl ⟨x, hx⟩) h
        exact ih s' h2 (by rw [h1]; exact hc) hm' hp'

/-- Steps other than those of the watcher of `c` leave it where it is; without calls to `Stop` a running server goes on running. -/
theorem others_run (cfg : WCfg) (c : Nat) (ls : List WLabel) : ∀ (s : WState), c < s.n → (∀ x, .hb c x ∉ ls) →
    (∀ b, .stop b ∉ ls) → s.life.state = .running →
    ((s.run cfg ls).ctxs c).hb = (s.ctxs c).hb ∧ c < (s.run cfg ls).n ∧ (s.run cfg ls).life.state = .running := by
  induction ls with
  | nil => exact fun s h _ _ hr => ⟨rfl, h, hr⟩
  | cons l ls ih =>
    intro s hn hl hstop hr
    have hl' : ∀ x, .hb c x ∉ ls := fun x h => hl x (List.mem_cons_of_mem _ h)
    have hs' : ∀ b, .stop b ∉ ls := fun x h => hstop x (List.mem_cons_of_mem _ h)
    have e : s.run cfg (l :: ls) = ((s.step cfg l).getD s).run cfg ls := rfl
    rw [e]
    cases h : s.step cfg l with
    | none => exact ih s hn hl' hs' hr
    | some s' =>
      obtain ⟨h1, h2⟩ := hb_frame hn (fun x hx => hl x (by rw [hx]; exact List.mem_cons_self)) h
      have hrun : s'.life.state = .running := by
        have hne : ∀ b, l ≠ .stop b := fun b hb => hstop b (by rw [hb]; exact List.mem_cons_self)
        have kl : ∀ a b c, (s.life.listen a b c).state = .running := fun _ _ _ => rfl
        clear ih h1 h2 hl hstop hl' hs' e
        cases l <;> wstep h
        all_goals grind
      obtain ⟨g1, g2⟩ := ih s' h2 hl' hs' hrun
      exact ⟨by rw [Option.getD_some, g1, h1], g2⟩

theorem sock_step {cfg : WCfg} {s s' : WState} {l : WLabel} {c : Nat} (hc : c < s.n) (hs : s.step cfg l = some s') :
    (s'.ctxs c).sock = (s.ctxs c).sock := by
  cases l <;> wstep hs
  all_goals grind

theorem sock_run (cfg : WCfg) {c : Nat} {s : WState} (hc : c < s.n) (ls : List WLabel) :
    ((s.run cfg ls).ctxs c).sock = (s.ctxs c).sock := by
  have := WState.run_induct (cfg := cfg) (P := fun t => c < t.n ∧ (t.ctxs c).sock = (s.ctxs c).sock) ⟨hc, rfl⟩
    (fun t l t' h ht => ⟨Nat.lt_of_lt_of_le h.1 (n_step ht), by rw [sock_step h.1 ht, h.2]⟩) ls
  exact this.2

/-- One silent interval of a watcher. -/
theorem silent_round (cfg : WCfg) (s : WState) (c times : Nat) (hn : c < s.n) (hp : (s.ctxs c).hb = .top times)
    (hr : s.life.state = .running) :
    ((s.run cfg [.hb c .go, .hb c .go, .hb c .go, .hb c .timer]).ctxs c).hb = (if times + 1 = 3 then .lost else .top (times + 1)) ∧
    c < (s.run cfg [.hb c .go, .hb c .go, .hb c .go, .hb c .timer]).n ∧
    (s.run cfg [.hb c .go, .hb c .go, .hb c .go, .hb c .timer]).life.state = .running := by
  cases hch : (s.ctxs c).chan with
  | none => simp [WState.run, WState.step, hbStep, hp, hr, hch, WState.setCtx, WState.log, hn]
  | some ch => simp [WState.run, WState.step, hbStep, hp, hr, hch, WState.setCtx, WState.log, hn]

/-- Where user code may close. -/
structure UserOk (jobs : Nat → List UCall) (s : WState) : Prop where
  rest : ∀ i u, u ∈ (s.threads i).rest → u ∈ jobs i
  pc : ∀ i c, (s.threads i).pc = .closing c → .close c ∈ jobs i
  closed : ∀ c, .closed c .user ∈ s.trace → ∃ i, .close c ∈ jobs i

theorem userok_step {cfg : WCfg} {jobs : Nat → List UCall} {s s' : WState} {l : WLabel} (hw : WInv s) (h : UserOk jobs s)
    (hs : s.step cfg l = some s') : UserOk jobs s' := by
  obtain ⟨h1, h2, h3, h4⟩ := hw
  obtain ⟨g1, g2, g3⟩ := h
  refine ⟨?_, ?_, ?_⟩
  · clear h1 h2 h3 h4
    cases l <;> wstep hs
    all_goals grind
  · clear h1 h2 h3 h4
    cases l <;> wstep hs
    all_goals grind
  · cases l <;> wstep hs
    all_goals grind

theorem userok_run (cfg : WCfg) (life : Life) (jobs : Nat → List UCall) (ls : List WLabel) :
    UserOk jobs ((WState.start life jobs).run cfg ls) := by
  have : WInv ((WState.start life jobs).run cfg ls) ∧ UserOk jobs ((WState.start life jobs).run cfg ls) := by
    refine WState.run_induct (P := fun s => WInv s ∧ UserOk jobs s) ⟨winv_start life jobs, ?_⟩ ?_ ls
    · exact ⟨fun _ _ h => h, fun _ _ h => (by cases h), fun _ h => (by cases h)⟩
    · exact fun s l s' h hs => ⟨winv_step h.1 hs, userok_step h.1 h.2 hs⟩
  exact this.2

/-! ## Authorisation -/

theorem au_closing_live (cfg : WCfg) (c : Nat) (w : Cause) (ls : List WLabel) : ∀ (s : WState), c < s.n →
    (s.ctxs c).au = .closing w → .au c .go ∈ ls → .closed c w ∈ (s.run cfg ls).trace := by
  induction ls with
  | nil => intro s _ _ h; cases h
  | cons l ls ih =>
    intro s hn hc hm
    show .closed c w ∈ (((s.step cfg l).getD s).run cfg ls).trace
    by_cases hl : ∃ x, l = .au c x
    · obtain ⟨x, rfl⟩ := hl
      cases x with
      | go =>
        refine trace_mono ?_
        simp [WState.step, auStep, hc, WState.closeConn, WState.log]
      | _ =>
        simp only [WState.step, auStep, hc, Option.getD_none]
        exact ih s hn hc (by simpa using hm)
    · have hm' : .au c .go ∈ ls := by
        rcases List.mem_cons.1 hm with h | h
        · exact absurd ⟨_, h.symm⟩ hl
        · exact h
      cases h : s.step cfg l with
      | none => exact ih s hn hc hm'
      | some s' =>
        obtain ⟨h1, h2⟩ := au_frame hn (fun x hx => hl ⟨x, hx⟩) h
        exact ih s' h2 (by rw [h1]; exact hc) hm'

def Taken (c : Nat) (tr : List WatchEv) : Prop := ∃ v, .authTaken c v ∈ tr

theorem taken_cons (c : Nat) (e : WatchEv) (tr : List WatchEv) :
    Taken c (e :: tr) ↔ (match e with | .authTaken c' _ => c' = c | _ => False) ∨ Taken c tr := by
  unfold Taken
  constructor
  · rintro ⟨v, h⟩
    rcases List.mem_cons.1 h with rfl | h
    · exact .inl rfl
    · exact .inr ⟨v, h⟩
  · rintro (h | ⟨v, h⟩)
    · cases e <;> simp only at h
      subst h
      exact ⟨_, List.mem_cons_self⟩
    · exact ⟨v, List.mem_cons_of_mem _ h⟩

/-- An auth watcher that was started waits until something happens. -/
structure WaitOk (c : Nat) (s : WState) : Prop where
  lt : c < s.n
  on : (s.ctxs c).au ≠ .off
  ended : (s.ctxs c).au = .ended → Taken c s.trace ∨ IsClosed c s.trace

theorem waitok_step {cfg : WCfg} {s s' : WState} {l : WLabel} {c : Nat} (hc : ClOk cfg s) (h : WaitOk c s)
    (hs : s.step cfg l = some s') : WaitOk c s' := by
  obtain ⟨g1, g2, g3⟩ := h
  have k := hc.ended
  clear hc
  refine ⟨?_, ?_, ?_⟩
  · exact Nat.lt_of_lt_of_le g1 (n_step hs)
  · cases l <;> wstep hs
    all_goals grind
  · cases l <;> wstep hs
    all_goals simp only [isClosed_cons, taken_cons]
    all_goals grind

/-! ## Broadcast -/

theorem bc_live {cfg : WCfg} (c : Nat) (ls : List WLabel) : ∀ (s : WState), c < s.n → (s.ctxs c).bc = .closing →
    IsClosed c (s.run cfg ls).trace ∨ ((s.run cfg ls).ctxs c).bc = .closing := by
  induction ls with
  | nil => exact fun s _ h => .inr h
  | cons l ls ih =>
    intro s hn hc
    have e : s.run cfg (l :: ls) = ((s.step cfg l).getD s).run cfg ls := rfl
    rw [e]
    by_cases hl : ∃ x, l = .bc c x
    · obtain ⟨x, rfl⟩ := hl
      cases x with
      | go =>
        refine .inl (closed_mono ⟨.signal, ?_⟩)
        simp [WState.step, bcStep, hc, WState.closeConn, WState.log]
      | _ =>
        simp only [WState.step, bcStep, hc, Option.getD_none]
        exact ih s hn hc
    · cases h : s.step cfg l with
      | none => exact ih s hn hc
      | some s' =>
        obtain ⟨h1, h2⟩ := bc_frame hn (fun x hx => hl ⟨x, hx⟩) h
        exact ih s' h2 (by rw [h1]; exact hc)

end Tcpx
