import Verif.Lemmas.Watch
import Verif.Spec.Beat
/-! # Where heartbeats come from (C115) -/
namespace Tcpx
open Spec

/-- The signals waiting in the channels of `c` below `n`, if channel `ch` belongs to `o ch`. -/
def beatPending (o : Nat → Nat) (buf : Nat → Bool) (c : Nat) : Nat → Nat
  | 0 => 0
  | n + 1 => beatPending o buf c n + (if o n = c ∧ buf n = true then 1 else 0)

theorem pending_congr (o o' : Nat → Nat) (buf buf' : Nat → Bool) (c n : Nat) (h : ∀ m < n, o m = o' m ∧ buf m = buf' m) :
    beatPending o buf c n = beatPending o' buf' c n := by
  induction n with
  | zero => rfl
  | succ n ih =>
    simp only [beatPending]
    rw [ih (fun m hm => h m (by omega)), (h n (by omega)).1, (h n (by omega)).2]

theorem pending_set (o : Nat → Nat) (buf : Nat → Bool) (n c ch : Nat) (b : Bool) (hch : ch < n) (hb : buf ch = !b) :
    beatPending o (fun ch' => if ch' = ch then b else buf ch') c n + (if o ch = c ∧ b = false then 1 else 0) =
      beatPending o buf c n + (if o ch = c ∧ b = true then 1 else 0) := by
  induction n with
  | zero => omega
  | succ n ih =>
    simp only [beatPending]
    by_cases hn : ch = n
    · subst hn
      rw [pending_congr o o (fun ch' => if ch' = ch then b else buf ch') buf c ch
        (fun m hm => ⟨rfl, by rw [if_neg (by omega)]⟩)]
      simp only [if_true, hb]
      cases b <;> by_cases ho : o ch = c <;> simp [ho]
    · have := ih (by omega)
      simp only [if_neg (Ne.symm hn)]
      omega

theorem pending_new (o : Nat → Nat) (buf : Nat → Bool) (n c c' : Nat) (hb : buf n = false) :
    beatPending (fun ch => if ch = n then c' else o ch) buf c (n + 1) = beatPending o buf c n := by
  simp only [beatPending, hb]
  rw [pending_congr _ o _ buf c n (fun m hm => ⟨by rw [if_neg (by omega)], rfl⟩)]
  simp

/-- Channel `ch` belongs to `o ch`. -/
structure Own (o : Nat → Nat) (s : WState) : Prop where
  chan : ∀ c ch, (s.ctxs c).chan = some ch → ch < s.nchan ∧ o ch = c
  sel : ∀ c k ch, (s.ctxs c).hb = .select k ch → ch < s.nchan ∧ o ch = c
  snd : ∀ i c ch, (s.threads i).pc = .beatSend c ch → ch < s.nchan ∧ o ch = c
  buf : ∀ ch, s.nchan ≤ ch → s.buf ch = false
  cnt : ∀ c, takenBeats c s.trace + beatPending o s.buf c s.nchan = beatReturns c s.trace

theorem own_start (life : Life) (jobs : Nat → List UCall) : Own id (.start life jobs) :=
  ⟨fun _ _ h => (by cases h), fun _ _ _ h => (by cases h), fun _ _ _ h => (by cases h), fun _ _ => rfl, fun _ => rfl⟩

/-- A new channel for `c`. -/
theorem own_new {o : Nat → Nat} {s s' : WState} (h : Own o s) (c : Nat) (hn : s'.nchan = s.nchan + 1) (hb : s'.buf = s.buf)
    (htr : s'.trace = s.trace) (hch : ∀ c', (s'.ctxs c').chan = if c' = c then some s.nchan else (s.ctxs c').chan)
    (hsel : ∀ c' k ch, (s'.ctxs c').hb = .select k ch → (s.ctxs c').hb = .select k ch ∨ (c' = c ∧ ch = s.nchan))
    (hsnd : ∀ i c' ch, (s'.threads i).pc = .beatSend c' ch → (s.threads i).pc = .beatSend c' ch ∨ (c' = c ∧ ch = s.nchan)) :
    ∃ o', Own o' s' := by
  refine ⟨fun ch => if ch = s.nchan then c else o ch, ?_, ?_, ?_, ?_, ?_⟩
  · intro c' ch hc
    rw [hch] at hc
    have := h.chan c' ch
    grind
  · intro c' k ch hc
    have := h.sel c' k ch
    have := hsel c' k ch hc
    grind
  · intro i c' ch hc
    have := h.snd i c' ch
    have := hsnd i c' ch hc
    grind
  · intro ch hc
    rw [hb]; exact h.buf ch (by omega)
  · intro c'
    rw [hb, hn, htr, pending_new _ _ _ _ _ (h.buf _ (Nat.le_refl _))]
    exact h.cnt c'

/-- Nothing happens to channels. -/
theorem own_frame {o : Nat → Nat} {s s' : WState} (h : Own o s) (hn : s'.nchan = s.nchan) (hb : s'.buf = s.buf)
    (htk : ∀ c, takenBeats c s'.trace = takenBeats c s.trace) (hret : ∀ c, beatReturns c s'.trace = beatReturns c s.trace)
    (hch : ∀ c' ch, (s'.ctxs c').chan = some ch → (s.ctxs c').chan = some ch)
    (hsel : ∀ c' k ch, (s'.ctxs c').hb = .select k ch → (∃ k, (s.ctxs c').hb = .select k ch) ∨ (s.ctxs c').chan = some ch)
    (hsnd : ∀ i c' ch, (s'.threads i).pc = .beatSend c' ch → (s.threads i).pc = .beatSend c' ch ∨ (s.ctxs c').chan = some ch) :
    Own o s' := by
  refine ⟨?_, ?_, ?_, ?_, ?_⟩
  · intro c ch hc; rw [hn]; exact h.chan c ch (hch c ch hc)
  · intro c k ch hc
    rw [hn]
    rcases hsel c k ch hc with ⟨k, hk⟩ | hk
    · exact h.sel c k ch hk
    · exact h.chan c ch hk
  · intro i c ch hc
    rw [hn]
    rcases hsnd i c ch hc with hk | hk
    · exact h.snd i c ch hk
    · exact h.chan c ch hk
  · intro ch hc; rw [hb]; exact h.buf ch (by omega)
  · intro c; rw [htk, hret, hb, hn]; exact h.cnt c

theorem own_step {o : Nat → Nat} {cfg : WCfg} {s s' : WState} {l : WLabel} (h : Own o s) (hs : s.step cfg l = some s') :
    ∃ o', Own o' s' := by
  have fr := @own_frame o s s' h
  have nw := @own_new o s s' h
  cases l with
  | hb c x =>
    wstep hs
    case h_3 => exact nw c rfl rfl rfl (by grind) (by grind) (by grind)
    case h_4 _ _ k ch hsel hbuf =>
      obtain ⟨h1, h2⟩ := h.sel _ _ _ hsel
      refine ⟨o, ?_, ?_, h.snd, ?_, ?_⟩
      · have := h.chan; grind
      · have := h.sel; grind
      · have := h.buf; grind
      · intro c'
        have hp := pending_set o s.buf s.nchan c' ch false h1 (by simpa using hbuf)
        have hc := h.cnt c'
        simp only [takenBeats, beatReturns] at hp ⊢
        simp only [h2, and_true, Bool.false_eq_true, and_false, if_false, Nat.add_zero] at hp
        omega
    all_goals exact ⟨o, fr rfl rfl (by simp [takenBeats]) (by simp [beatReturns]) (by grind) (by grind) (by grind)⟩
  | bc c x =>
    wstep hs
    all_goals exact ⟨o, fr rfl rfl (by simp [takenBeats]) (by simp [beatReturns]) (by grind) (by grind) (by grind)⟩
  | au c x =>
    wstep hs
    all_goals exact ⟨o, fr rfl rfl (by simp [takenBeats]) (by simp [beatReturns]) (by grind) (by grind) (by grind)⟩
  | user i =>
    cases hpc : (s.threads i).pc with
    | beatCreate c =>
      simp only [WState.step, userStep, hpc, WState.setCtx, WState.setThread, Option.some.injEq] at hs
      subst hs
      exact nw c rfl rfl rfl (by grind) (by grind) (by grind)
    | beatSend c ch =>
      simp only [WState.step, userStep, hpc, WState.setBuf, WState.setThread, WState.log] at hs
      split at hs
      · cases hs
      · next hbuf =>
        simp only [Option.some.injEq] at hs
        subst hs
        obtain ⟨h1, h2⟩ := h.snd _ _ _ hpc
        refine ⟨o, h.chan, h.sel, ?_, ?_, ?_⟩
        · have := h.snd; grind
        · have := h.buf; grind
        · intro c'
          have hp := pending_set o s.buf s.nchan c' ch true h1 (by simpa using hbuf)
          have hc := h.cnt c'
          simp only [takenBeats, beatReturns] at hp ⊢
          simp only [h2, and_true, Bool.true_eq_false, and_false, if_false, Nat.add_zero] at hp
          omega
    | idle =>
      simp only [WState.step, userStep, hpc, WState.setThread, WState.log] at hs
      repeat' split at hs
      all_goals first | (cases hs; done) | (simp only [Option.some.injEq] at hs; subst hs)
      all_goals exact ⟨o, fr rfl rfl (by simp [takenBeats]) (by simp [beatReturns]) (by grind) (by grind) (by grind)⟩
    | beatLoad c =>
      simp only [WState.step, userStep, hpc, WState.setThread, Option.some.injEq] at hs
      subst hs
      exact ⟨o, fr rfl rfl (by simp) (by simp) (by grind) (by grind) (by grind)⟩
    | authSend c v =>
      simp only [WState.step, userStep, hpc, WState.setThread, WState.setCtx, WState.log] at hs
      split at hs
      · cases hs
      · simp only [Option.some.injEq] at hs
        subst hs
        exact ⟨o, fr rfl rfl (by simp [takenBeats]) (by simp [beatReturns]) (by grind) (by grind) (by grind)⟩
    | closing c =>
      simp only [WState.step, userStep, hpc, WState.setThread, WState.setCtx, WState.log, WState.closeConn, Option.some.injEq] at hs
      subst hs
      exact ⟨o, fr rfl rfl (by simp [takenBeats]) (by simp [beatReturns]) (by grind) (by grind) (by grind)⟩
  | accept k =>
    wstep hs
    all_goals exact ⟨o, fr rfl rfl (by simp [takenBeats]) (by simp [beatReturns]) (by grind) (by grind) (by grind)⟩
  | stop b =>
    wstep hs
    all_goals exact ⟨o, fr rfl rfl (by simp [takenBeats]) (by simp [beatReturns]) (by grind) (by grind) (by grind)⟩
  | listen a b c =>
    wstep hs
    all_goals exact ⟨o, fr rfl rfl (by simp) (by simp) (by grind) (by grind) (by grind)⟩

theorem own_run (cfg : WCfg) (life : Life) (jobs : Nat → List UCall) (ls : List WLabel) :
    ∃ o, Own o ((WState.start life jobs).run cfg ls) :=
  WState.run_induct (P := fun s => ∃ o, Own o s) ⟨_, own_start life jobs⟩ (fun _ _ _ h hs => h.elim fun _ h => own_step h hs) ls

theorem takenBeats_zero {c : Nat} {tr : List WatchEv} : takenBeats c tr = 0 ↔ .beatTaken c ∉ tr := by
  induction tr with
  | nil => simp [takenBeats]
  | cons e tr ih => cases e <;> simp_all [takenBeats] <;> grind

theorem beatReturns_zero {c : Nat} {tr : List WatchEv} : beatReturns c tr = 0 ↔ ∀ i, .ret i (.beat c) ∉ tr := by
  induction tr with
  | nil => simp [beatReturns]
  | cons e tr ih =>
    cases e with
    | ret i u => cases u <;> simp_all [beatReturns] <;> grind
    | _ => simp_all [beatReturns]

theorem lastHeard_accepted {c : Nat} {log : List (Nat × WatchEv)} (h : ∀ t, (t, .beatTaken c) ∉ log) :
    lastHeard c log = acceptedAt c log := by
  induction log with
  | nil => rfl
  | cons e log ih =>
    obtain ⟨t, e⟩ := e
    have := ih fun t ht => h t (List.mem_cons_of_mem _ ht)
    cases e with
    | beatTaken c' =>
      have hc : c' ≠ c := fun hc => h t (hc ▸ List.mem_cons_self)
      simp [lastHeard, acceptedAt, hc, this]
    | _ => simp [lastHeard, acceptedAt, this]

theorem acceptedAt_mem {c a : Nat} {log : List (Nat × WatchEv)} (h : acceptedAt c log = some a) : (a, .newConn c) ∈ log := by
  induction log with
  | nil => cases h
  | cons e log ih =>
    obtain ⟨t, e⟩ := e
    cases e with
    | newConn c' =>
      simp only [acceptedAt] at h
      split at h
      · next hc => simp at h; subst hc; subst h; simp
      · exact List.mem_cons_of_mem _ (ih h)
    | _ => exact List.mem_cons_of_mem _ (ih h)

/-- Goroutines that make no heartbeat calls for `c`. -/
structure NoBeat (c : Nat) (s : WState) : Prop where
  rest : ∀ i, .beat c ∉ (s.threads i).rest
  load : ∀ i, (s.threads i).pc ≠ .beatLoad c
  create : ∀ i, (s.threads i).pc ≠ .beatCreate c
  send : ∀ i ch, (s.threads i).pc ≠ .beatSend c ch
  none : ∀ i, .ret i (.beat c) ∉ s.trace

theorem nobeat_step {c : Nat} {cfg : WCfg} {s s' : WState} {l : WLabel} (h : NoBeat c s) (hs : s.step cfg l = some s') : NoBeat c s' := by
  obtain ⟨h1, h2, h3, h4, h5⟩ := h
  cases l with
  | user i =>
    refine ⟨?_, ?_, ?_, ?_, ?_⟩ <;> (wstep hs <;> grind)
  | _ => wstep hs <;> exact ⟨h1, h2, h3, h4, by simpa using h5⟩

theorem nobeat_run (cfg : WCfg) (life : Life) (jobs : Nat → List UCall) (c : Nat) (hj : ∀ i, .beat c ∉ jobs i) (ls : List WLabel) :
    NoBeat c ((WState.start life jobs).run cfg ls) :=
  WState.run_induct (P := NoBeat c)
    ⟨hj, fun _ h => (by cases h), fun _ h => (by cases h), fun _ _ h => (by cases h), fun _ h => (by cases h)⟩
    (fun _ _ _ h hs => nobeat_step h hs) ls

/-- Without a loss callback none is called. -/
theorem nocallback_run (cfg : WCfg) (hcb : cfg.hasOnLoss = false) (life : Life) (jobs : Nat → List UCall) (c : Nat) (b : Bool)
    (ls : List WLabel) : .lossCallback c b ∉ ((WState.start life jobs).run cfg ls).trace :=
  WState.run_induct (P := fun s => .lossCallback c b ∉ s.trace) (fun h => by cases h)
    (fun s l s' h hs => by cases l <;> wstep hs <;> grind) ls

end Tcpx
