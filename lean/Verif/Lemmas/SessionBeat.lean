import Verif.Lemmas.SessionTime
/-! # Lemmas about heartbeats that arrive in time -/
namespace Tcpx
open Spec

theorem lastCall_w (c : Nat) (es : List WatchEv) (now : Nat) (log : List (Nat × WatchEv)) :
    lastCall c (es.map (fun e => (now, e)) ++ log) = lastCall c log ∧ (∀ i, .invoke i (.beat c) ∉ es) ∨
    lastCall c (es.map (fun e => (now, e)) ++ log) = some now := by
  induction es with
  | nil => exact .inl ⟨rfl, by simp⟩
  | cons e es ih =>
    rw [List.map_cons, List.cons_append]
    cases e with
    | newConn c' =>
      simp only [lastCall]
      by_cases hc : c' = c
      · rw [if_pos hc]; exact .inr rfl
      · rw [if_neg hc]; exact ih.imp (fun h => ⟨h.1, by simpa using h.2⟩) id
    | invoke j u =>
      cases u with
      | beat c' =>
        simp only [lastCall]
        by_cases hc : c' = c
        · rw [if_pos hc]; exact .inr rfl
        · rw [if_neg hc]; exact ih.imp (fun h => ⟨h.1, by simpa [Ne.symm hc] using h.2⟩) id
      | _ => exact ih.imp (fun h => ⟨h.1, by simpa using h.2⟩) id
    | _ => exact ih.imp (fun h => ⟨h.1, by simpa using h.2⟩) id

theorem lastSent_w (kind : Nat → Bool) (c : Nat) (es : List WatchEv) (now : Nat) (ev : List (Nat × SEv)) :
    lastSent kind c (es.map (fun e => (now, .w e)) ++ ev) = lastSent kind c ev ∨
    lastSent kind c (es.map (fun e => (now, .w e)) ++ ev) = some now ∧ .newConn c ∈ es := by
  induction es with
  | nil => exact .inl rfl
  | cons e es ih =>
    rw [List.map_cons, List.cons_append]
    cases e with
    | newConn c' =>
      simp only [lastSent]
      by_cases hc : c' = c
      · rw [if_pos hc]; subst hc; exact .inr ⟨rfl, List.mem_cons_self⟩
      · rw [if_neg hc]; exact ih.imp id fun h => ⟨h.1, List.mem_cons_of_mem _ h.2⟩
    | _ => exact ih.imp id fun h => ⟨h.1, List.mem_cons_of_mem _ h.2⟩

/-- A heartbeat is on its way to `RecvHeartBeat`, in time for `L`. -/
def Pend (kind : Nat → Bool) (d c L : Nat) (s : SState) : Prop :=
  (∃ a m, (a, m) ∈ s.inbox c ∧ kind m = true ∧ a ≤ L) ∨
  (∃ m, s.loops c = .go m ∧ kind m = true ∧ s.lpAt c ≤ L + d) ∨
  (∃ i rest, s.spawned[i]? = some (.beat c :: rest) ∧ s.t.w.threads (2 * i + 1) = ⟨.idle, .beat c :: rest⟩ ∧
    s.spAt (2 * i + 1) ≤ L + 2 * d)

/-- What holds of a connection whose client sends heartbeats every `g`, as long as it is open. -/
structure SentOk (kind : Nat → Bool) (g d c : Nat) (s : SState) : Prop where
  sent : ∀ t, lastSent kind c s.ev = some t → t ≤ s.t.now
  calls : s.loops c ≠ .off → ¬ ShutIn c s.ev → (s.loops c = .read ∨ ∃ m, s.loops c = .go m) ∧
    ∃ L a, lastCall c s.t.log = some L ∧ lastSent kind c s.ev = some a ∧ (Pend kind d c (L + g) s ∨ a ≤ L)

theorem sentok_calls {kind : Nat → Bool} {g d c : Nat} {s : SState} (h : SentOk kind g d c s) (hloop : PromptLoop d c s)
    (hstart : PromptStart d c s) (hsent : SentEvery g kind c s) (hok : SOk s) (hl : s.loops c ≠ .off) : CallsEvery (g + 3 * d) c s.t := by
  intro t ht hc
  have hn : ¬ ShutIn c s.ev := by rw [shutIn_iff, hok.ev]; exact hc
  obtain ⟨hlo, L, a, h1, h2, h3⟩ := h.calls hl hn
  rw [h1] at ht
  cases ht
  rcases h3 with (⟨a', m, hm, -, ha⟩ | ⟨m, hgo, -, ha⟩ | ⟨i, rest, hi, hth, ha⟩) | h3
  · unfold PromptLoop at hloop
    rcases hlo with hlo | ⟨m', hlo⟩
    · rw [hlo] at hloop; have := hloop.2.2 hn a' m hm; omega
    · rw [hlo] at hloop; have := hloop.2 hn a' m hm; omega
  · unfold PromptLoop at hloop
    rw [hgo] at hloop
    have := hloop.1
    omega
  · have := hstart i rest hi hth
    omega
  · have := hsent a h2 hn
    omega

theorem newConn_step {cfg : TCfg} {t t' : TState} {a : TLabel} {c : Nat} (hs : t.step cfg a = some t') (h : .newConn c ∈ newEvents t.w t'.w) :
    c = t.w.n := by
  rcases tstep_cases hs with ⟨d, rfl⟩ | ⟨a, w', rfl, -, hw, rfl⟩
  · simp [newEvents] at h
  · clear hs
    change _ ∈ newEvents t.w w' at h
    cases a <;> wstep hw
    all_goals simp only [newEvents, take_same, take_one, take_two] at h
    all_goals simp_all

theorem beat_user {cfg : TCfg} {t t' : TState} {k c : Nat} {rest : List UCall} (hs : t.step cfg (.act (.user k)) = some t')
    (h : t.w.threads k = ⟨.idle, .beat c :: rest⟩) : .invoke k (.beat c) ∈ newEvents t.w t'.w := by
  simp only [TState.step, TState.due, if_true, WState.step, Option.map_eq_some_iff] at hs
  obtain ⟨w', hw, rfl⟩ := hs
  simp only [userStep, h] at hw
  split at hw
  · simp only [Option.some.injEq] at hw
    subst hw
    show _ ∈ newEvents t.w _
    rw [newEvents_one _ _ _ rfl]
    simp
  · cases hw

theorem sentok_step {cfg : SCfg} {kind : Nat → Bool} {g d c : Nat} (hkind : ∀ m, kind m = true → cfg.takes m = true ∧ ∃ rest, cfg.job c m = .beat c :: rest)
    {s s' : SState} {l : SLabel} (hok : SOk s) (hpast : PastOk c s) (hloop : PromptLoop d c s)
    (hsent : SentEvery g kind c s) (hhung : s'.hung c = false) (htakes : ∀ a m, (a, m) ∈ s.inbox c → cfg.takes m = true)
    (h : SentOk kind g d c s) (hs : s.step cfg l = some s') : SentOk kind g d c s' := by
  cases l with
  | base a =>
    rcases sstep_cases hs with ⟨a', t', ha, ht, e1, e2, esp, ib, hu, ev, hl⟩ | ⟨j, hl, -⟩ | ⟨hl, -⟩
    · obtain ⟨-, hlog⟩ := tlog_step hok.trace ht
      have hn : s.t.now ≤ t'.now := by
        rcases now_tstep ht with ⟨d, -, rfl⟩ | h
        · exact Nat.le_add_right _ _
        · omega
      refine ⟨?_, ?_⟩
      · intro t hls
        rw [ev] at hls
        rw [e1]
        rcases lastSent_w kind c (newEvents s.t.w t'.w) s.t.now s.ev with h0 | ⟨h0, -⟩
        · rw [h0] at hls; have := h.sent t hls; omega
        · rw [h0] at hls; cases hls; exact hn
      · intro hoff' hsh
        by_cases hnew : a' = .act (.accept .tcp) ∧ c = s.t.w.n
        · -- the connection is new
          obtain ⟨rfl, hc⟩ := hnew
          have hlo : s'.loops c = .read := by
            rcases hl with ⟨-, hl, -⟩ | ⟨h0, -⟩
            · rw [hl]; simp [SState.setLoop, hc]
            · exact absurd rfl h0
          have hne : newEvents s.t.w t'.w = [.newConn s.t.w.n] := by
            simp only [TState.step, TState.due, if_true, WState.step, Option.map_some, Option.some.injEq] at ht
            subst ht
            exact newEvents_one _ _ _ rfl
          rw [hne] at hlog ev
          refine ⟨.inl hlo, s.t.now, s.t.now, ?_, ?_, .inr (Nat.le_refl _)⟩
          · rw [e1, hlog]; simp [lastCall, hc]
          · rw [ev]; simp [lastSent, hc]
        · have hloops : s'.loops c = s.loops c ∧ s'.lpAt c = s.lpAt c := by
            rcases hl with ⟨e, hl, hl'⟩ | ⟨-, hl, hl'⟩
            · have hc : c ≠ s.t.w.n := fun h0 => hnew ⟨e, h0⟩
              rw [hl, hl']; simp [SState.setLoop, setAt, hc]
            · rw [hl, hl']; exact ⟨rfl, rfl⟩
          obtain ⟨l1, l2⟩ := hloops
          have hoff : s.loops c ≠ .off := by rw [← l1]; exact hoff'
          have hnsh : ¬ ShutIn c s.ev := fun h0 => hsh (by rw [ev]; exact shutIn_append _ h0)
          obtain ⟨hlo, L, a0, h1, h2, h3⟩ := h.calls hoff hnsh
          have hls : lastSent kind c s'.ev = some a0 := by
            rw [ev]
            rcases lastSent_w kind c (newEvents s.t.w t'.w) s.t.now s.ev with h0 | ⟨-, h0⟩
            · rw [h0, h2]
            · have := newConn_step ht h0
              have := (hok.conn c hoff).1
              omega
          refine ⟨by rw [l1]; exact hlo, ?_⟩
          rcases lastCall_w c (newEvents s.t.w t'.w) s.t.now s.t.log with ⟨h0, h0'⟩ | h0
          · refine ⟨L, a0, by rw [e1, hlog, h0, h1], hls, h3.imp (fun hp => ?_) id⟩
            rcases hp with ⟨a, m, hm, hk, ha⟩ | ⟨m, hm, hk, ha⟩ | ⟨i, rest, hi, hth, ha⟩
            · exact .inl ⟨a, m, by rw [ib]; exact hm, hk, ha⟩
            · exact .inr (.inl ⟨m, by rw [l1]; exact hm, hk, by rw [l2]; exact ha⟩)
            · refine .inr (.inr ⟨i, rest, by rw [e2]; exact hi, ?_, by rw [esp]; exact ha⟩)
              rw [e1]
              by_cases hu : a' = .act (.user (2 * i + 1))
              · subst hu
                exact absurd (beat_user ht hth) (h0' _)
              · rw [threads_step ht _ hu]; exact hth
          · have := h.sent a0 h2
            exact ⟨s.t.now, a0, by rw [e1, hlog, h0], hls, .inr this⟩
    · exact absurd rfl (hl a)
    · exact absurd rfl (hl a)
  | arrive c' m =>
    lstep hs
    rename_i hn
    refine ⟨?_, ?_⟩
    · intro t ht
      simp only [lastSent] at ht
      split at ht
      · cases ht; exact Nat.le_refl _
      · exact h.sent t ht
    · intro hoff hsh
      have hnsh : ¬ ShutIn c s.ev := fun h0 => hsh (shutIn_append [_] h0)
      obtain ⟨hlo, L, a0, h1, h2, h3⟩ := h.calls hoff hnsh
      refine ⟨hlo, ?_⟩
      by_cases hc : c' = c ∧ kind m = true
      · refine ⟨L, s.t.now, h1, by simp only [lastSent, hc, and_self, if_true], .inl ?_⟩
        obtain ⟨rfl, hk⟩ := hc
        rcases h3 with (⟨a, m', hm, hk', ha⟩ | hp | hp) | h3
        · exact .inl ⟨a, m', by simp [hm], hk', ha⟩
        · exact .inr (.inl hp)
        · exact .inr (.inr hp)
        · have := hsent a0 h2 hnsh
          exact .inl ⟨s.t.now, m, by simp, hk, by omega⟩
      · refine ⟨L, a0, h1, by simp only [lastSent, hc, if_false, h2], h3.imp (fun hp => ?_) id⟩
        rcases hp with ⟨a, m', hm, hk', ha⟩ | hp | hp
        · refine .inl ⟨a, m', ?_, hk', ha⟩
          show _ ∈ (if c = c' then s.inbox c' ++ [(s.t.now, m)] else s.inbox c)
          by_cases hcc : c = c'
          · subst hcc; simp [hm]
          · simp [hcc, hm]
        · exact .inr (.inl hp)
        · exact .inr (.inr hp)
  | hangup c' =>
    lstep hs
    refine ⟨fun t ht => h.sent t ht, fun hoff hsh => ?_⟩
    have hnsh : ¬ ShutIn c s.ev := fun h0 => hsh (shutIn_append [_] h0)
    obtain ⟨hlo, L, a0, h1, h2, h3⟩ := h.calls hoff hnsh
    exact ⟨hlo, L, a0, h1, h2, h3⟩
  | reset c' =>
    lstep hs
    simp only at hhung
    split at hhung
    · cases hhung
    · rename_i hc
      refine ⟨fun t ht => h.sent t ht, fun hoff hsh => ?_⟩
      have hnsh : ¬ ShutIn c s.ev := fun h0 => hsh (shutIn_append [_] h0)
      obtain ⟨hlo, L, a0, h1, h2, h3⟩ := h.calls hoff hnsh
      refine ⟨hlo, L, a0, h1, h2, h3.imp (fun hp => ?_) id⟩
      rcases hp with ⟨a, m', hm, hk', ha⟩ | hp | hp
      · exact .inl ⟨a, m', by simpa [hc] using hm, hk', ha⟩
      · exact .inr (.inl hp)
      · exact .inr (.inr hp)
  | loop c' x =>
    by_cases hc : c = c'
    · subst hc
      cases hl : s.loops c with
      | off => simp only [SState.step, SState.loopStep, hl] at hs; cases hs
      | last k => simp only [SState.step, SState.loopStep, hl] at hs; cases x <;> cases hs
      | read =>
        have hsh := shut_iff hok (c := c) (by rw [hl]; simp)
        have hpl := hloop
        unfold PromptLoop at hpl
        rw [hl] at hpl
        obtain ⟨p1, p2, p3⟩ := hpl
        cases x with
        | go =>
          simp only [SState.step, SState.loopStep, hl] at hs
          cases hi : s.inbox c with
          | nil => rw [hi] at hs; cases hs
          | cons am rest =>
            obtain ⟨a, m⟩ := am
            have htk := htakes a m (by rw [hi]; exact List.mem_cons_self)
            rw [hi] at hs
            simp only [htk, if_true] at hs
            split at hs
            · cases hs
            · rename_i hn
              have hnot : ¬ ShutIn c s.ev := fun h0 => hn (hsh.2 h0)
              have hnow := p3 hnot a m (by rw [hi]; exact List.mem_cons_self)
              simp only [Option.some.injEq] at hs
              subst hs
              refine ⟨fun t ht => h.sent t ht, fun hoff _ => ?_⟩
              obtain ⟨hlo, L, a0, h1, h2, h3⟩ := h.calls (by rw [hl]; simp) hnot
              refine ⟨.inr ⟨m, by simp [SState.log, SState.setLoop]⟩, L, a0, h1, h2, h3.imp (fun hp => ?_) id⟩
              rcases hp with ⟨a', m', hm, hk', ha⟩ | ⟨m', hm, -⟩ | hp
              · rw [hi] at hm
                rcases List.mem_cons.1 hm with hm | hm
                · cases hm
                  exact .inr (.inl ⟨m, by simp [SState.log, SState.setLoop], hk', by simp only [SState.log, SState.setLoop, setAt, if_true]; omega⟩)
                · exact .inl ⟨a', m', by simpa [SState.log, SState.setLoop] using hm, hk', ha⟩
              · rw [hl] at hm; cases hm
              · exact .inr (.inr hp)
        | fail =>
          simp only [SState.step, SState.loopStep, hl] at hs
          split at hs
          · rename_i hcond
            simp only [Option.some.injEq] at hs
            subst hs
            refine ⟨h.sent, fun hoff hns => ?_⟩
            exfalso
            simp only [Bool.or_eq_true, Bool.and_eq_true] at hcond
            rcases hcond with h0 | ⟨h0, -⟩
            · exact hns (hsh.1 h0)
            · rw [show s.hung c = false from hhung] at h0; cases h0
          · cases hs
      | go m =>
        have hpl := hloop
        unfold PromptLoop at hpl
        rw [hl] at hpl
        cases x with
        | fail => simp only [SState.step, SState.loopStep, hl] at hs; cases hs
        | go =>
          simp only [SState.step, SState.loopStep, hl, Option.some.injEq] at hs
          subst hs
          refine ⟨fun t ht => h.sent t ht, fun hoff hns => ?_⟩
          have hnsh : ¬ ShutIn c s.ev := fun h0 => hns (shutIn_append [_] h0)
          obtain ⟨hlo, L, a0, h1, h2, h3⟩ := h.calls (by rw [hl]; simp) hnsh
          refine ⟨.inl (by simp [SState.log, SState.setLoop]), L, a0, h1, h2, h3.imp (fun hp => ?_) id⟩
          rcases hp with hp | ⟨m', hm, hk, ha⟩ | ⟨i, rest, hi, hth, ha⟩
          · exact .inl hp
          · rw [hl] at hm; cases hm
            obtain ⟨rest, hr⟩ := (hkind m hk).2
            refine .inr (.inr ⟨s.spawned.length, rest, ?_, ?_, ?_⟩)
            · simp [SState.log, SState.setLoop, SState.spawn, hr]
            · simp [SState.log, SState.setLoop, SState.spawn, WState.setThread, SState.next, hr]
            · have := hpl.1
              simp only [SState.log, SState.setLoop, SState.spawn, SState.next, setAt, if_true]
              omega
          · have hlt : i < s.spawned.length := by
              rcases Nat.lt_or_ge i s.spawned.length with h | h
              · exact h
              · rw [List.getElem?_eq_none h] at hi; cases hi
            have hne : 2 * i + 1 ≠ s.next := by simp only [SState.next]; omega
            refine .inr (.inr ⟨i, rest, ?_, ?_, ?_⟩)
            · simp only [SState.log, SState.setLoop, SState.spawn]
              rw [List.getElem?_append_left hlt]; exact hi
            · simp only [SState.log, SState.setLoop, SState.spawn, WState.setThread]
              rw [if_neg hne]; exact hth
            · simp only [SState.log, SState.setLoop, SState.spawn, setAt]
              rw [if_neg hne]; exact ha
      | leaving =>
        cases x with
        | fail => simp only [SState.step, SState.loopStep, hl] at hs; cases hs
        | go =>
          have hgone : ShutIn c s.ev := by
            apply Classical.byContradiction
            intro h0
            obtain ⟨hlo, -⟩ := h.calls (by rw [hl]; simp) h0
            rw [hl] at hlo
            rcases hlo with h | ⟨m, h⟩ <;> cases h
          simp only [SState.step, SState.loopStep, hl] at hs
          split at hs
          · simp only [Option.some.injEq] at hs
            subst hs
            exact ⟨h.sent, fun _ hns => absurd hgone hns⟩
          · simp only [Option.some.injEq] at hs
            subst hs
            exact ⟨h.sent, fun _ hns => absurd (shutIn_append [_] hgone) hns⟩
    · have hc' : c' ≠ c := Ne.symm hc
      have h1 : s'.loops c = s.loops c ∧ s'.lpAt c = s.lpAt c ∧ s'.inbox c = s.inbox c ∧ s'.t.now = s.t.now ∧ s'.t.log = s.t.log ∧
          lastSent kind c s'.ev = lastSent kind c s.ev ∧ (ShutIn c s.ev → ShutIn c s'.ev) ∧
          ∀ i rest, s.spawned[i]? = some (.beat c :: rest) → s'.spawned[i]? = some (.beat c :: rest) ∧
            s'.t.w.threads (2 * i + 1) = s.t.w.threads (2 * i + 1) ∧ s'.spAt (2 * i + 1) = s.spAt (2 * i + 1) := by
        have hsp : ∀ j i rest, s.spawned[i]? = some (.beat c :: rest) → (s.spawn j).spawned[i]? = some (.beat c :: rest) ∧
            (s.spawn j).t.w.threads (2 * i + 1) = s.t.w.threads (2 * i + 1) ∧ (s.spawn j).spAt (2 * i + 1) = s.spAt (2 * i + 1) := by
          intro j i rest hi
          have hlt : i < s.spawned.length := by
            rcases Nat.lt_or_ge i s.spawned.length with h | h
            · exact h
            · rw [List.getElem?_eq_none h] at hi; cases hi
          have hne : 2 * i + 1 ≠ s.next := by simp only [SState.next]; omega
          refine ⟨?_, ?_, ?_⟩
          · simp only [SState.spawn]
            rw [List.getElem?_append_left hlt]; exact hi
          · simp only [SState.spawn, WState.setThread]
            rw [if_neg hne]
          · simp only [SState.spawn, setAt]
            rw [if_neg hne]
        have hid : ∀ i rest, s.spawned[i]? = some (.beat c :: rest) → s.spawned[i]? = some (.beat c :: rest) ∧
            s.t.w.threads (2 * i + 1) = s.t.w.threads (2 * i + 1) ∧ s.spAt (2 * i + 1) = s.spAt (2 * i + 1) := fun i rest h => ⟨h, rfl, rfl⟩
        lstep hs
        all_goals refine ⟨by simp [hc], by simp [setAt, hc], by simp [hc], rfl, rfl, rfl, ?_, ?_⟩
        all_goals first
          | exact shutIn_append [_]
          | exact fun h => h
          | exact hsp _
          | exact hid
      obtain ⟨i1, i2, i3, i4, i5, i6, i7, i8⟩ := h1
      refine ⟨fun t ht => ?_, fun hoff hns => ?_⟩
      · rw [i6] at ht; rw [i4]; exact h.sent t ht
      · obtain ⟨hlo, L, a0, h1, h2, h3⟩ := h.calls (by rw [← i1]; exact hoff) (fun h0 => hns (i7 h0))
        refine ⟨by rw [i1]; exact hlo, L, a0, by rw [i5]; exact h1, by rw [i6]; exact h2, h3.imp (fun hp => ?_) id⟩
        rcases hp with ⟨a, m, hm, hk, ha⟩ | ⟨m, hm, hk, ha⟩ | ⟨i, rest, hi, hth, ha⟩
        · exact .inl ⟨a, m, by rw [i3]; exact hm, hk, ha⟩
        · exact .inr (.inl ⟨m, by rw [i1]; exact hm, hk, by rw [i2]; exact ha⟩)
        · obtain ⟨j1, j2, j3⟩ := i8 i rest hi
          exact .inr (.inr ⟨i, rest, j1, by rw [j2]; exact hth, by rw [j3]; exact ha⟩)

theorem sentok_start (kind : Nat → Bool) (g d c : Nat) (life : Life) (jobs : Nat → List UCall) :
    SentOk kind g d c (.start life jobs) := ⟨fun _ h => (by cases h), fun h => absurd rfl h⟩

end Tcpx
