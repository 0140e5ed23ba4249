import Verif.Lemmas.SessionKeep
/-! # Lemmas: the server can come to rest (C143) -/
namespace Tcpx
open Spec

/-- Nobody in the server has anything to do now. -/
structure AtRest (cfg : SCfg) (s : SState) : Prop where
  watch : ∀ c, Settled cfg.t c s.t
  calls : CallsSettled s.t
  begin : ∀ i c rest, s.spawned[i]? = some (.beat c :: rest) → s.t.w.threads (2 * i + 1) ≠ ⟨.idle, .beat c :: rest⟩
  tail : ∀ c k, s.loops c = .last k → s.t.w.threads k ≠ ⟨.idle, [.close c]⟩ ∧ (s.t.w.threads k).pc ≠ .closing c
  loop : ∀ c, s.loops c = .off ∨ (∃ k, s.loops c = .last k) ∨ s.loops c = .read ∧ s.shut c = false ∧ s.hung c = false ∧ s.inbox c = []

/-- What the goroutine of a connection has still to do now. -/
def loopRank (s : SState) (c : Nat) : Nat :=
  match s.loops c with
  | .off => 0
  | .last _ => 0
  | .leaving => 1
  | .read => 2 * (s.inbox c).length + 2
  | .go _ => 2 * (s.inbox c).length + 3

/-- What a goroutine has still to do now: finish its call; and those started for messages, what was given to them. -/
def jobRank (w : WState) (i : Nat) : Nat :=
  callRank (w.threads i).pc +
    if i % 2 = 1 then 4 * (w.threads i).rest.length + (match (w.threads i).pc with | .closing _ => 1 | _ => 0) else 0

set_option maxHeartbeats 1000000 in
/-- What the step of a watcher leaves alone. -/
theorem watch_same {cfg : TCfg} {c : Nat} {s : TState} {w' : WState} {a : WLabel} (ha : a.watches c) (hst : s.w.step cfg.w a = some w') :
    w'.n = s.w.n ∧ w'.threads = s.w.threads ∧ ∀ c', c' ≠ c → todo c' (s.after w' a) = todo c' s := by
  have e : ∀ c', todo c' (s.after w' a) = 20 * (beatReturns c' w'.trace - takenBeats c' w'.trace) + hbRank (w'.ctxs c').hb +
    auRank (w'.ctxs c').au + bcRank (w'.ctxs c').bc := fun _ => rfl
  simp only [e]
  unfold todo
  clear e
  cases a with
  | hb k x =>
    cases ha
    wstep hst
    all_goals refine ⟨rfl, rfl, fun c' hc => ?_⟩
    all_goals simp [hc, beatReturns, takenBeats, Ne.symm hc]
  | bc k x =>
    cases ha
    wstep hst
    all_goals refine ⟨rfl, rfl, fun c' hc => ?_⟩
    all_goals simp [hc, beatReturns, takenBeats]
  | au k x =>
    cases ha
    wstep hst
    all_goals refine ⟨rfl, rfl, fun c' hc => ?_⟩
    all_goals simp [hc, beatReturns, takenBeats]
  | _ => cases ha

/-- What a step of a goroutine leaves alone. -/
theorem user_same {cfg : WCfg} {i : Nat} {w w' : WState} (hst : w.step cfg (.user i) = some w') :
    w'.n = w.n ∧ (∀ j, j ≠ i → w'.threads j = w.threads j) ∧
      (0 < callRank (w.threads i).pc → callRank (w'.threads i).pc < callRank (w.threads i).pc ∧
        (w'.threads i).rest = (w.threads i).rest ∧ ∀ c, (w'.threads i).pc ≠ .closing c ∧ (w.threads i).pc ≠ .closing c) := by
  wstep hst
  all_goals refine ⟨rfl, fun j hj => (by simp [hj]), fun h => ?_⟩
  all_goals first
    | (simp_all [callRank]; done)
    | skip
  all_goals simp_all [callRank]
  all_goals (split <;> simp [callRank])

/-- A run of the watchers with the same contexts and events. -/
theorem session_w (cfg : SCfg) (life : Life) (jobs : Nat → List UCall) (ls : List SLabel) :
    ∃ J ls', ((srun cfg life jobs ls).filled J).w = (WState.start life J).run cfg.t.w ls' := by
  have := session_sim cfg life jobs ls ls.length
  rw [List.take_length] at this
  exact ⟨_, _, by rw [← this]; exact untime_run cfg.t _ _⟩

theorem session_hbinv (cfg : SCfg) (life : Life) (jobs : Nat → List UCall) (ls : List SLabel) (c : Nat) :
    HbInv cfg.t.w c (srun cfg life jobs ls).t.w := by
  obtain ⟨J, ls', h⟩ := session_w cfg life jobs ls
  have := hbinv_run cfg.t.w life J c ls'
  rw [← h] at this
  exact this

theorem session_counts (cfg : SCfg) (life : Life) (jobs : Nat → List UCall) (ls : List SLabel) (c : Nat) :
    takenBeats c (srun cfg life jobs ls).t.w.trace ≤ beatReturns c (srun cfg life jobs ls).t.w.trace := by
  obtain ⟨J, ls', h⟩ := session_w cfg life jobs ls
  have := C115_own cfg.t.w life J ls' c
  rw [wrun, ← h] at this
  exact this

theorem session_ended (cfg : SCfg) (life : Life) (jobs : Nat → List UCall) (ls : List SLabel) (c : Nat)
    (hc : IsClosed c (srun cfg life jobs ls).t.w.trace) : ((srun cfg life jobs ls).t.w.ctxs c).endClosed = true := by
  obtain ⟨J, ls', h⟩ := session_w cfg life jobs ls
  have := ended_run cfg.t.w life J c ls'
  rw [← h] at this
  exact (this hc).1

theorem session_finite (cfg : SCfg) (life : Life) (jobs : Nat → List UCall) (ls : List SLabel) :
    ∃ N, ∀ i, N ≤ i → jobRank (srun cfg life jobs ls).t.w i = 0 := by
  have hsim := session_sim cfg life jobs ls ls.length
  rw [List.take_length] at hsim
  obtain ⟨N, hN⟩ := finite_calls cfg.t life (allJobs jobs (srun cfg life jobs ls).spawned) (proj cfg (.start life jobs) ls)
  rw [hsim] at hN
  refine ⟨max N (2 * (srun cfg life jobs ls).spawned.length), fun i hi => ?_⟩
  by_cases hst : started (srun cfg life jobs ls).spawned.length i = true
  · have h1 := hN i (by omega)
    have e : ((srun cfg life jobs ls).filled (allJobs jobs (srun cfg life jobs ls).spawned)).w.threads i = (srun cfg life jobs ls).t.w.threads i := by
      simp [SState.filled, TState.fill, WState.fill, hst]
    rw [e] at h1
    have h2 : ¬ i % 2 = 1 := by
      simp only [started, Bool.or_eq_true, decide_eq_true_eq] at hst
      omega
    simp [jobRank, h1, h2]
  · have := unstarted_run cfg life jobs ls i (by simpa using hst)
    simp [jobRank, this, callRank]

theorem session_first (cfg : SCfg) (hjob : ∀ c m c' rest, cfg.job c m = .beat c' :: rest → c' = c)
    (hcb : ∀ f, cfg.onClose = some f → ∀ c, f c = []) (life : Life)
    (jobs : Nat → List UCall) (ls : List SLabel) (i c : Nat) (rest : List UCall) :
    (srun cfg life jobs ls).spawned[i]? = some (.beat c :: rest) → c < (srun cfg life jobs ls).t.w.n := by
  have : SOk (srun cfg life jobs ls) ∧ ∀ (i c : Nat) (rest : List UCall), (srun cfg life jobs ls).spawned[i]? = some (.beat c :: rest) →
      c < (srun cfg life jobs ls).t.w.n := by
    refine SState.run_induct (P := fun s => SOk s ∧ ∀ (i c : Nat) (rest : List UCall), s.spawned[i]? = some (.beat c :: rest) → c < s.t.w.n)
      (sthroughout_true _ _ _) ⟨sok_start life jobs, fun i c rest h => (by cases h)⟩ ?_
    intro s l s' h _ _ hs
    refine ⟨sok_step h.1 hs, fun i c rest hi => ?_⟩
    have hn := n_sstep hs
    have old : s.spawned[i]? = some (.beat c :: rest) → c < s'.t.w.n := fun h' => Nat.lt_of_lt_of_le (h.2 i c rest h') hn
    rcases sstep_cases hs with ⟨a, t', -, ht, e1, e2, -⟩ | ⟨j, hl, e1, e2⟩ | ⟨-, e1, e2⟩
    · rw [e2] at hi; exact old hi
    · rw [e2] at hi
      rcases getElem?_snoc hi with hi | ⟨-, hi⟩
      · exact old hi
      · have hlen : s'.spawned.length = s.spawned.length + 1 := by rw [e2]; simp
        cases l with
        | base a => exact absurd rfl (hl a)
        | arrive c' m => lstep hs; simp at hlen
        | hangup c' => lstep hs; simp at hlen
        | reset c' => lstep hs; simp at hlen
        | loop c' x =>
          rcases loop_cases hcb hs with ⟨a, m, rest', hl, hb, rfl⟩ | ⟨hl, rfl⟩ | ⟨m, hl, rfl⟩ | ⟨hl, hs'⟩
          · simp [SState.setLoop, SState.log] at hlen
          · simp [SState.setLoop] at hlen
          · have e3 : s.spawned ++ [cfg.job c' m] = s.spawned ++ [j] := e2
            have e4 := (List.append_inj' e3 rfl).2
            simp only [List.cons.injEq, and_true] at e4
            have := hjob c' m c rest (by rw [e4, ← hi])
            subst this
            exact Nat.lt_of_lt_of_le (h.1.conn _ (by rw [hl]; simp)).1 hn
          · have e3 : s.spawned ++ [[.close c']] = s.spawned ++ [j] := by
              rcases hs' with rfl | rfl <;> exact e2
            have e4 := (List.append_inj' e3 rfl).2
            simp only [List.cons.injEq, and_true] at e4
            rw [← e4] at hi
            cases hi
    · rw [e2] at hi; exact old hi
  exact this.2 i c rest

/-- There is less to do in `s'` than in `s`, where no goroutine from `N` on has anything to do. -/
def Less (N : Nat) (s' s : SState) : Prop :=
  totalRank (loopRank s') s'.t.w.n < totalRank (loopRank s) s'.t.w.n ∨
  loopRank s' = loopRank s ∧
    ((∀ i, N ≤ i → jobRank s'.t.w i = 0) ∧ totalRank (jobRank s'.t.w) N < totalRank (jobRank s.t.w) N ∨
      jobRank s'.t.w = jobRank s.t.w ∧ totalRank (fun c => todo c s'.t) s'.t.w.n < totalRank (fun c => todo c s.t) s'.t.w.n)

/-- Somebody in the server can do something, and then there is less to do. -/
def CanGo (cfg : SCfg) (N : Nat) (s : SState) : Prop :=
  ∃ l s', ByServerS l ∧ (∀ n, l ≠ .base (.delay n)) ∧ s.step cfg l = some s' ∧ s'.t.w.n = s.t.w.n ∧ Less N s' s

/-- As long as not everybody is at rest somebody can do something, and then there is less to do. -/
theorem session_progress (cfg : SCfg) (hjob : ∀ c m c' rest, cfg.job c m = .beat c' :: rest → c' = c)
    (hcb : ∀ f, cfg.onClose = some f → ∀ c, f c = []) (life : Life) (jobs : Nat → List UCall) (ls : List SLabel) (N : Nat)
    (hN : ∀ i, N ≤ i → jobRank (srun cfg life jobs ls).t.w i = 0) (hrest : ¬ AtRest cfg (srun cfg life jobs ls)) :
    CanGo cfg N (srun cfg life jobs ls) := by
  have hok := jobok_run cfg hcb life jobs ls
  have hfirst := session_first cfg hjob hcb life jobs ls
  have hhb := session_hbinv cfg life jobs ls
  have hcnt : ∀ c w', (srun cfg life jobs ls).t.w.step cfg.t.w (.hb c .recv) = some w' → takenBeats c w'.trace ≤ beatReturns c w'.trace := by
    intro c w' h
    have := session_counts cfg life jobs (ls ++ [.base (.act (.hb c .recv))]) c
    rw [srun, SState.run_append] at this
    simpa [SState.run, SState.step, TState.step, TState.due, h, TState.after] using this
  generalize srun cfg life jobs ls = s at *
  have base : ∀ a w', s.t.due cfg.t a = true → s.t.w.step cfg.t.w a = some w' → (∀ o, a ≠ .accept o) →
      ∃ s', s.step cfg (.base (.act a)) = some s' ∧ s'.t = s.t.after w' a ∧ loopRank s' = loopRank s := by
    intro a w' hdue hst ha
    have hm : s.t.step cfg.t (.act a) = some (s.t.after w' a) := by simp [TState.step, hdue, hst]
    simp only [SState.step, hm, Option.map_some]
    split
    · rename_i h; cases h; exact absurd rfl (ha _)
    · exact ⟨_, rfl, rfl, rfl⟩
  have user : ∀ i w', s.t.w.step cfg.t.w (.user i) = some w' → jobRank w' i < jobRank s.t.w i → CanGo cfg N s := by
    intro i w' hst hlt
    obtain ⟨s', h1, h2, h3⟩ := base (.user i) w' rfl hst (by simp)
    obtain ⟨u1, u2, -⟩ := user_same hst
    have e : s'.t.w = w' := by rw [h2]; rfl
    have hiN : i < N := Nat.lt_of_not_le fun h => by rw [hN i h] at hlt; omega
    have heq : ∀ j, j ≠ i → jobRank w' j = jobRank s.t.w j := fun j hj => by simp only [jobRank, u2 j hj]
    exact ⟨.base (.act (.user i)), s', trivial, by simp, h1, by rw [e, u1], .inr ⟨h3, .inl ⟨fun j hj => by
      rw [e, heq j (by omega)]; exact hN j hj, by rw [e]; exact totalRank_lt N i hiN hlt heq⟩⟩⟩
  have loop : ∀ c x s', s.step cfg (.loop c x) = some s' → s.loops c ≠ .off → s'.t.w.n = s.t.w.n → loopRank s' c < loopRank s c →
      (∀ c', c' ≠ c → loopRank s' c' = loopRank s c') → CanGo cfg N s := by
    intro c x s' hst hoff hn hlt heq
    exact ⟨.loop c x, s', trivial, by simp, hst, hn, .inl (totalRank_lt _ c (by rw [hn]; exact (hok.sok.conn c hoff).1) hlt heq)⟩
  by_cases h1 : ∀ c, Settled cfg.t c s.t
  · by_cases h2 : CallsSettled s.t
    · by_cases h3 : ∀ i c rest, s.spawned[i]? = some (.beat c :: rest) → s.t.w.threads (2 * i + 1) ≠ ⟨.idle, .beat c :: rest⟩
      · by_cases h4 : ∀ c k, s.loops c = .last k → s.t.w.threads k ≠ ⟨.idle, [.close c]⟩ ∧ (s.t.w.threads k).pc ≠ .closing c
        · have h5 : ¬ ∀ c, s.loops c = .off ∨ (∃ k, s.loops c = .last k) ∨
              s.loops c = .read ∧ s.shut c = false ∧ s.hung c = false ∧ s.inbox c = [] := fun h5 => hrest ⟨h1, h2, h3, h4, h5⟩
          obtain ⟨c, h5⟩ := Classical.not_forall.1 h5
          cases hl : s.loops c with
          | off => exact absurd (.inl hl) h5
          | last k => exact absurd (.inr (.inl ⟨k, hl⟩)) h5
          | leaving =>
            cases hc : cfg.onClose with
            | none =>
              refine loop c .go ((s.spawn [.close c]).setLoop c (.last s.next)) (by simp only [SState.step, SState.loopStep, hl, hc]) (by simp [hl])
                rfl (by simp [loopRank, hl, SState.setLoop]) fun c' hc' => ?_
              simp [loopRank, SState.setLoop, hc', SState.spawn]
            | some f =>
              refine loop c .go (((s.spawn (f c ++ [.close c])).setLoop c (.last s.next)).log (.onClose c))
                (by simp only [SState.step, SState.loopStep, hl, hc]) (by simp [hl])
                rfl (by simp [loopRank, hl, SState.setLoop, SState.log]) fun c' hc' => ?_
              simp [loopRank, SState.setLoop, hc', SState.spawn, SState.log]
          | go m =>
            refine loop c .go (((s.spawn (cfg.job c m)).setLoop c .read).log (.begun c m s.next)) (by simp only [SState.step, SState.loopStep, hl])
              (by simp [hl]) rfl (by simp [loopRank, hl, SState.setLoop, SState.log, SState.spawn]) fun c' hc' => ?_
            simp [loopRank, SState.setLoop, hc', SState.spawn, SState.log]
          | read =>
            have fail : (s.shut c || (s.hung c && (s.inbox c).isEmpty)) = true → CanGo cfg N s := by
              intro h
              refine loop c .fail (s.setLoop c .leaving) (by simp only [SState.step, SState.loopStep, hl, h, if_true]) (by simp [hl])
                rfl (by simp [loopRank, hl, SState.setLoop]) fun c' hc' => ?_
              simp [loopRank, SState.setLoop, hc']
            cases hsh : s.shut c with
            | true => exact fail (by simp [hsh])
            | false =>
              cases hb : s.inbox c with
              | nil =>
                cases hh : s.hung c with
                | true => exact fail (by simp [hh, hb])
                | false => exact absurd (.inr (.inr ⟨hl, hsh, hh, hb⟩)) h5
              | cons am rest =>
                obtain ⟨a, m⟩ := am
                refine loop c .go (({ s with inbox := fun c' => if c' = c then rest else s.inbox c' }.setLoop c
                  (if cfg.takes m then .go m else .leaving)).log (.read c m)) (by simp [SState.step, SState.loopStep, hl, hb, hsh])
                  (by simp [hl]) rfl ?_ fun c' hc' => ?_
                · by_cases ht : cfg.takes m = true <;> simp [loopRank, hl, hb, SState.setLoop, SState.log, ht] <;> omega
                · simp [loopRank, SState.setLoop, hc', SState.log]
        · obtain ⟨c, h4⟩ := Classical.not_forall.1 h4
          obtain ⟨k, h4⟩ := Classical.not_forall.1 h4
          obtain ⟨hl, h4⟩ := Classical.not_imp.1 h4
          obtain ⟨i, rfl, hi⟩ := hok.tail c k hl
          have hlt := (hok.sok.conn c (by rw [hl]; simp)).1
          by_cases ha : s.t.w.threads (2 * i + 1) = ⟨.idle, [.close c]⟩
          · refine user (2 * i + 1) ((s.t.w.setThread (2 * i + 1) ⟨.closing c, []⟩).log (.invoke (2 * i + 1) (.close c))) ?_ ?_
            · simp [WState.step, userStep, ha, UCall.ctx, hlt]
            · simp [jobRank, ha, WState.setThread, WState.log, callRank]
          · have hb : (s.t.w.threads (2 * i + 1)).pc = .closing c := Classical.byContradiction fun hb => h4 ⟨ha, hb⟩
            refine user (2 * i + 1) (((s.t.w.setThread (2 * i + 1) { s.t.w.threads (2 * i + 1) with pc := .idle }).closeConn c .user).log
              (.ret (2 * i + 1) (.close c))) ?_ ?_
            · simp [WState.step, userStep, hb]
            · simp [jobRank, hb, WState.setThread, WState.log, callRank, WState.closeConn, WState.setCtx]
      · obtain ⟨i, h3⟩ := Classical.not_forall.1 h3
        obtain ⟨c, h3⟩ := Classical.not_forall.1 h3
        obtain ⟨rest, h3⟩ := Classical.not_forall.1 h3
        obtain ⟨hi, h3⟩ := Classical.not_imp.1 h3
        have ht := Classical.not_not.1 h3
        have hlt := hfirst i c rest hi
        refine user (2 * i + 1) ((s.t.w.setThread (2 * i + 1) ⟨.beatLoad c, rest⟩).log (.invoke (2 * i + 1) (.beat c))) ?_ ?_
        · simp [WState.step, userStep, ht, UCall.ctx, hlt]
        · simp [jobRank, ht, WState.setThread, WState.log, callRank]; omega
    · have hb0 : s.t.w.buf s.t.w.nchan = false := by
        obtain ⟨owner, ho⟩ := hok.own
        cases hb : s.t.w.buf s.t.w.nchan with
        | false => rfl
        | true => exact absurd (ho.buf _ hb).1 (Nat.lt_irrefl _)
      obtain ⟨i, t', hs, hi, -⟩ := call_progress (cfg := cfg.t) hb0 h2
      obtain ⟨w', hst⟩ : ∃ w', s.t.w.step cfg.t.w (.user i) = some w' := by
        simp only [TState.step, TState.due, if_true] at hs
        obtain ⟨w', h, -⟩ := Option.map_eq_some_iff.1 hs
        exact ⟨w', h⟩
      obtain ⟨-, -, u3⟩ := user_same hst
      obtain ⟨u3, u4, u5⟩ := u3 hi
      refine user i w' hst ?_
      have k1 : (match (w'.threads i).pc with | .closing _ => 1 | _ => 0) = 0 := by
        split
        · rename_i c h; exact absurd h (u5 c).1
        · rfl
      unfold jobRank
      rw [k1, u4]
      split <;> omega
  · obtain ⟨c, hc⟩ := Classical.not_forall.1 h1
    have hlt : c < s.t.w.n := Nat.lt_of_not_le fun h => hc (by
      have := hok.sok.w.fresh c h
      unfold Settled
      rw [this]
      exact ⟨trivial, trivial, trivial⟩)
    obtain ⟨a, w', ha, hdue, hst, hto⟩ := watch_progress (hhb c) hc (hcnt c)
    obtain ⟨s', g1, g2, g3⟩ := base a w' hdue hst (by rintro o rfl; cases ha)
    obtain ⟨u1, u2, u3⟩ := watch_same ha hst
    have e : s'.t.w = w' := by rw [g2]; rfl
    refine ⟨.base (.act a), s', ?_, by simp, g1, by rw [e, u1], .inr ⟨g3, .inr ⟨?_, ?_⟩⟩⟩
    · cases a <;> first | trivial | cases ha
    · funext i; rw [e]; simp only [jobRank, u2]
    · rw [e, u1]
      refine totalRank_lt _ c hlt (by rw [g2]; exact hto) fun c' hc' => by rw [g2]; exact u3 c' hc'

end Tcpx
