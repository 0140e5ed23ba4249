import Verif.Lemmas.SessionTail
import Verif.Lemmas.SessionBeat
import Verif.Props.Kept
import Verif.Props.Ends
import Verif.Props.Beat
/-! # Connections as a whole: runs and their beginnings -/
namespace Tcpx
open Spec

theorem n_sstep {cfg : SCfg} {s s' : SState} {l : SLabel} (hs : s.step cfg l = some s') : s.t.w.n ≤ s'.t.w.n := by
  rcases sstep_cases hs with ⟨a', t', -, ht, e, -⟩ | ⟨j, -, e, -⟩ | ⟨-, e, -⟩
  · rw [e]; exact n_tstep ht
  · rw [e]; exact Nat.le_refl _
  · rw [e]; exact Nat.le_refl _

theorem now_sstep {cfg : SCfg} {s s' : SState} {l : SLabel} (hs : s.step cfg l = some s') : s.t.now ≤ s'.t.now := by
  rcases sstep_cases hs with ⟨a', t', -, ht, e, -⟩ | ⟨j, -, e, -⟩ | ⟨-, e, -⟩
  · rw [e]
    rcases now_tstep ht with ⟨d, -, rfl⟩ | h
    · exact Nat.le_add_right _ _
    · exact Nat.le_of_eq h.symm
  · rw [e]; exact Nat.le_refl _
  · rw [e]; exact Nat.le_refl _

theorem evnow_sstep {cfg : SCfg} {s s' : SState} {l : SLabel} (hs : s.step cfg l = some s') :
    ∃ es, s'.ev = es ++ s.ev ∧ ∀ x ∈ es, x.1 = s.t.now := by
  cases l with
  | base a =>
    rcases sstep_cases hs with ⟨a', t', -, -, -, -, -, -, -, ev, -⟩ | ⟨j, hl, -⟩ | ⟨hl, -⟩
    · refine ⟨_, ev, fun x hx => ?_⟩
      obtain ⟨e, -, rfl⟩ := List.mem_map.1 hx
      rfl
    · exact absurd rfl (hl a)
    · exact absurd rfl (hl a)
  | arrive c' m => lstep hs; exact ⟨[_], rfl, by simp⟩
  | hangup c' => lstep hs; exact ⟨[_], rfl, by simp⟩
  | reset c' => lstep hs; exact ⟨[_], rfl, by simp⟩
  | loop c' x =>
    lstep hs
    all_goals first
      | exact ⟨[], rfl, by simp⟩
      | exact ⟨[_], rfl, fun x hx => by rw [List.mem_singleton.1 hx]⟩

/-- What a run adds to what has happened is not earlier than its beginning. -/
theorem ev_run (cfg : SCfg) (s : SState) (ls : List SLabel) :
    s.t.now ≤ (s.run cfg ls).t.now ∧ s.t.w.n ≤ (s.run cfg ls).t.w.n ∧ ∃ es, (s.run cfg ls).ev = es ++ s.ev ∧ ∀ x ∈ es, s.t.now ≤ x.1 := by
  refine SState.run_induct (P := fun s' => s.t.now ≤ s'.t.now ∧ s.t.w.n ≤ s'.t.w.n ∧ ∃ es, s'.ev = es ++ s.ev ∧ ∀ x ∈ es, s.t.now ≤ x.1)
    (sthroughout_true _ _ _) ⟨Nat.le_refl _, Nat.le_refl _, [], rfl, by simp⟩ ?_
  intro s1 l s2 h _ _ hs
  obtain ⟨h1, h2, es, h3, h4⟩ := h
  obtain ⟨es', h5, h6⟩ := evnow_sstep hs
  refine ⟨Nat.le_trans h1 (now_sstep hs), Nat.le_trans h2 (n_sstep hs), es' ++ es, by rw [h5, h3, List.append_assoc], ?_⟩
  intro x hx
  rcases List.mem_append.1 hx with hx | hx
  · rw [h6 x hx]; exact h1
  · exact h4 x hx

theorem srun_take (cfg : SCfg) (life : Life) (jobs : Nat → List UCall) (ls : List SLabel) (k : Nat) :
    srun cfg life jobs ls = (srun cfg life jobs (ls.take k)).run cfg (ls.drop k) := by
  rw [srun, srun, ← SState.run_append, List.take_append_drop]

/-- What has happened at some time, has happened later. -/
theorem mem_take {cfg : SCfg} {life : Life} {jobs : Nat → List UCall} {ls : List SLabel} {k : Nat} {x : Nat × SEv}
    (h : x ∈ (srun cfg life jobs (ls.take k)).ev) : x ∈ (srun cfg life jobs ls).ev := by
  rw [srun_take cfg life jobs ls k]
  obtain ⟨-, -, es, h1, -⟩ := ev_run cfg (srun cfg life jobs (ls.take k)) (ls.drop k)
  rw [h1]
  exact List.mem_append_right _ h

/-- Before a context exists nothing is called for it. -/
theorem uncalled_tstep {cfg : TCfg} {c : Nat} {s s' : TState} {l : TLabel} (h : s.w.n ≤ c → lastCall c s.log = none)
    (hs : s.step cfg l = some s') : s'.w.n ≤ c → lastCall c s'.log = none := by
  rcases tstep_cases hs with ⟨d, rfl⟩ | ⟨b, w', rfl, hdue, hst, rfl⟩
  · exact h
  · clear hs hdue
    cases b <;> tstep hst
    all_goals try simp only [lastCall]
    all_goals grind [UCall.ctx]

theorem uncalled_run (cfg : SCfg) (c : Nat) (life : Life) (jobs : Nat → List UCall) (ls : List SLabel) :
    (srun cfg life jobs ls).t.w.n ≤ c → lastCall c (srun cfg life jobs ls).t.log = none :=
  SState.run_induct (P := fun s => s.t.w.n ≤ c → lastCall c s.t.log = none) (sthroughout_true _ _ _) (fun _ => rfl) fun s l s' h _ _ hs => by
    rcases sstep_cases hs with ⟨a', t', -, ht, e, -⟩ | ⟨j, -, e, -⟩ | ⟨-, e, -⟩
    · rw [e]; exact uncalled_tstep h ht
    · rw [e]; exact h
    · rw [e]; exact h

/-- The states of a run: before connection `c` is accepted, or after. -/
theorem take_accept (cfg : SCfg) (life : Life) (jobs : Nat → List UCall) (ls ls' : List SLabel) (k : Nat) :
    (srun cfg life jobs ((ls ++ .base (.act (.accept .tcp)) :: ls').take k)).t.w.n ≤ (srun cfg life jobs ls).t.w.n ∧
      (srun cfg life jobs ((ls ++ .base (.act (.accept .tcp)) :: ls').take k)).t.now ≤ (srun cfg life jobs ls).t.now ∨
    ∃ j, (ls ++ .base (.act (.accept .tcp)) :: ls').take k = ls ++ .base (.act (.accept .tcp)) :: ls'.take j := by
  by_cases hkl : k ≤ ls.length
  · left
    rw [List.take_append_of_le_length hkl]
    have := ev_run cfg (srun cfg life jobs (ls.take k)) (ls.drop k)
    rw [← srun_take] at this
    exact ⟨this.2.1, this.1⟩
  · right
    obtain ⟨j, rfl⟩ : ∃ j, k = ls.length + (j + 1) := ⟨k - ls.length - 1, by omega⟩
    exact ⟨j, by rw [List.take_length_add_append, List.take_succ_cons]⟩

theorem joined_step {cfg : SCfg} {c : Nat} {s s' : SState} {l : SLabel} (hlt : c < s.t.w.n) (hs : s.step cfg l = some s') :
    acceptedAt c s'.t.log = acceptedAt c s.t.log := by
  rcases sstep_cases hs with ⟨a', t', -, ht, e, -⟩ | ⟨j, -, e, -⟩ | ⟨-, e, -⟩
  · rw [e]; exact acceptedAt_tstep hlt ht
  · rw [e]; rfl
  · rw [e]

/-- When a connection was accepted. -/
theorem joined_run (cfg : SCfg) (life : Life) (jobs : Nat → List UCall) (ls ls' : List SLabel) :
    acceptedAt (srun cfg life jobs ls).t.w.n (srun cfg life jobs (ls ++ .base (.act (.accept .tcp)) :: ls')).t.log =
      some (srun cfg life jobs ls).t.now := by
  have he : srun cfg life jobs (ls ++ .base (.act (.accept .tcp)) :: ls') =
      (((srun cfg life jobs ls).step cfg (.base (.act (.accept .tcp)))).getD (srun cfg life jobs ls)).run cfg ls' :=
    SState.run_append cfg _ ls _
  rw [he]
  refine (SState.run_induct (s := (((SState.start life jobs).run cfg ls).step cfg (.base (.act (.accept .tcp)))).getD _)
    (P := fun s => ((SState.start life jobs).run cfg ls).t.w.n < s.t.w.n ∧
      acceptedAt ((SState.start life jobs).run cfg ls).t.w.n s.t.log = some (srun cfg life jobs ls).t.now) (sthroughout_true _ _ _) ?_
    fun _ _ _ h _ _ hs => ⟨Nat.lt_of_lt_of_le h.1 (n_sstep hs), (joined_step h.1 hs).trans h.2⟩).2
  have hlen : ∀ s : SState, ∃ t', s.t.step cfg.t (.act (.accept .tcp)) = some t' ∧ s.t.w.n < t'.w.n ∧
      acceptedAt s.t.w.n t'.log = some s.t.now := by
    intro s
    refine ⟨_, rfl, ?_, ?_⟩
    · simp [TState.after, WState.log]
    · simp only [TState.after]
      rw [newEvents_one _ _ _ rfl]
      simp [acceptedAt]
  obtain ⟨t', h1, h2, h3⟩ := hlen ((SState.start life jobs).run cfg ls)
  simp only [SState.step, h1, Option.map_some, Option.getD_some, SState.setLoop]
  exact ⟨h2, h3⟩

/-- If no call of `RecvHeartBeat` has returned, no heartbeat was received. -/
theorem untaken (cfg : TCfg) (life : Life) (jobs : Nat → List UCall) (ls : List TLabel) (c : Nat)
    (hno : ∀ t i, (t, .ret i (.beat c)) ∉ (trun cfg life jobs ls).log) (t : Nat) : (t, .beatTaken c) ∉ (trun cfg life jobs ls).log := by
  obtain ⟨ls', hls⟩ := C84_is_untimed cfg life jobs ls
  have hz : beatReturns c (wrun cfg.w life jobs ls').trace = 0 := by
    rw [beatReturns_zero]
    intro i hi
    rw [← hls] at hi
    obtain ⟨⟨t, e⟩, h1, rfl⟩ := List.mem_map.1 hi
    exact hno t i h1
  have ht : takenBeats c (wrun cfg.w life jobs ls').trace = 0 := by
    have := C115_own cfg.w life jobs ls' c
    omega
  intro h
  refine takenBeats_zero.1 ht ?_
  rw [← hls]
  exact List.mem_map.2 ⟨_, h, rfl⟩

theorem mem_arrivals {c m : Nat} {ev : List (Nat × SEv)} (h : m ∈ arrivals c ev) : ∃ t, (t, .arrived c m) ∈ ev := by
  induction ev with
  | nil => cases h
  | cons x ev ih =>
    obtain ⟨u, x⟩ := x
    have hm : m ∈ arrivals c ev → ∃ t, (t, SEv.arrived c m) ∈ (u, x) :: ev := fun h =>
      (ih h).imp fun t h => List.mem_cons_of_mem _ h
    cases x with
    | arrived c' m' =>
      simp only [arrivals] at h
      split at h
      · next hc =>
        subst hc
        rcases List.mem_append.1 h with h | h
        · exact hm h
        · cases List.mem_singleton.1 h; exact ⟨u, List.mem_cons_self ..⟩
      · exact hm h
    | _ => exact hm h

/-- A client that has hung up was seen to do so. -/
theorem hung_ev (cfg : SCfg) (c : Nat) (life : Life) (jobs : Nat → List UCall) (ls : List SLabel) :
    (srun cfg life jobs ls).hung c = true → ∃ t, (t, .hungUp c) ∈ (srun cfg life jobs ls).ev := by
  refine SState.run_induct (s := .start life jobs) (P := fun s => s.hung c = true → ∃ t, (t, .hungUp c) ∈ s.ev)
    (sthroughout_true _ _ _) (fun h => absurd h (by simp [SState.start])) ?_
  intro s l s' h _ _ hs hh
  obtain ⟨es, he⟩ := ev_step hs
  have key : s.hung c = true → ∃ t, (t, .hungUp c) ∈ s'.ev := fun h0 => (h h0).imp fun t ht => by rw [he]; exact List.mem_append_right _ ht
  by_cases h0 : s.hung c = true
  · exact key h0
  clear key h he
  cases l with
  | base a =>
    rcases sstep_cases hs with ⟨a', t', -, -, -, -, -, -, hu, -, -⟩ | ⟨j, hl, -⟩ | ⟨hl, -⟩
    · rw [hu] at hh; exact absurd hh h0
    · exact absurd rfl (hl a)
    · exact absurd rfl (hl a)
  | arrive c' m => lstep hs; exact absurd hh h0
  | hangup c' =>
    lstep hs
    by_cases hc : c = c'
    · subst hc; exact ⟨_, List.mem_cons_self ..⟩
    · simp [hc] at hh; exact absurd hh h0
  | reset c' =>
    lstep hs
    by_cases hc : c = c'
    · subst hc; exact ⟨_, List.mem_cons_self ..⟩
    · simp [hc] at hh; exact absurd hh h0
  | loop c' x => lstep hs; all_goals exact absurd hh h0

theorem ev_hung (cfg : SCfg) (c : Nat) (life : Life) (jobs : Nat → List UCall) (ls : List SLabel) :
    (∃ t, (t, .hungUp c) ∈ (srun cfg life jobs ls).ev) → (srun cfg life jobs ls).hung c = true := by
  refine SState.run_induct (s := .start life jobs) (P := fun s => (∃ t, (t, .hungUp c) ∈ s.ev) → s.hung c = true)
    (sthroughout_true _ _ _) (fun ⟨t, h⟩ => by cases h) ?_
  intro s l s' h _ _ hs
  rintro ⟨t, ht⟩
  cases l with
  | base a =>
    rcases sstep_cases hs with ⟨a', t', -, -, -, -, -, -, hu, ev, -⟩ | ⟨j, hl, -⟩ | ⟨hl, -⟩
    · rw [hu]
      rw [ev] at ht
      rcases List.mem_append.1 ht with ht | ht
      · obtain ⟨e, -, he⟩ := List.mem_map.1 ht; cases he
      · exact h ⟨t, ht⟩
    · exact absurd rfl (hl a)
    · exact absurd rfl (hl a)
  | arrive c' m =>
    lstep hs
    rcases List.mem_cons.1 ht with he | ht
    · cases he
    · exact h ⟨t, ht⟩
  | hangup c' =>
    lstep hs
    by_cases hc : c = c'
    · simp [hc]
    · rcases List.mem_cons.1 ht with he | ht
      · cases he; exact absurd rfl hc
      · simp only [if_neg hc]; exact h ⟨t, ht⟩
  | reset c' =>
    lstep hs
    by_cases hc : c = c'
    · simp [hc]
    · rcases List.mem_cons.1 ht with he | ht
      · cases he; exact absurd rfl hc
      · simp only [if_neg hc]; exact h ⟨t, ht⟩
  | loop c' x =>
    lstep hs
    all_goals first
      | exact h ⟨t, ht⟩
      | (rcases List.mem_cons.1 ht with he | ht
         · cases he
         · exact h ⟨t, ht⟩)

/-- Who closed a connection, as seen in what happens to connections as a whole. -/
theorem atEachS_of {e : WatchEv} {P : Nat → List (Nat × WatchEv) → Prop} {ev : List (Nat × SEv)} (h : AtEachT e P (wlog ev)) :
    AtEachS (.w e) (fun t before => P t (wlog before)) ev := by
  intro post pre t he
  refine h (wlog post) (wlog pre) t ?_
  rw [he]
  clear he h
  induction post with
  | nil => rfl
  | cons x post ih =>
    obtain ⟨u, x⟩ := x
    cases x <;> simp [wlog, ih]

end Tcpx
