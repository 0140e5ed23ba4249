import Verif.Lemmas.SessionRun
/-! # Connections as a whole: when messages are handled -/
namespace Tcpx
open Spec

/-- Messages that arrived on `c`, with the time, oldest first. -/
def timedArrivals (c : Nat) : List (Nat × SEv) → List (Nat × Nat)
  | [] => []
  | (t, .arrived c' m) :: ev => if c' = c then timedArrivals c ev ++ [(t, m)] else timedArrivals c ev
  | _ :: ev => timedArrivals c ev

theorem arrivedBy_eq (T c : Nat) (ev : List (Nat × SEv)) :
    arrivedBy T c ev = ((timedArrivals c ev).filter fun x => decide (x.1 ≤ T)).map Prod.snd := by
  induction ev with
  | nil => rfl
  | cons x ev ih =>
    obtain ⟨u, x⟩ := x
    cases x with
    | arrived c' m =>
      simp only [arrivedBy, timedArrivals]
      by_cases hc : c' = c
      · by_cases hu : u ≤ T <;> simp [hc, hu, ih]
      · simp [hc, ih]
    | _ => exact ih

theorem timedArrivals_w (c : Nat) (es : List WatchEv) (now : Nat) (ev : List (Nat × SEv)) :
    timedArrivals c (es.map (fun e => (now, .w e)) ++ ev) = timedArrivals c ev := by
  induction es with
  | nil => rfl
  | cons e es ih => exact ih

/-- Of what has arrived, something has been read and the rest waits; what is about to be handled was read no more than `d` after it
arrived. -/
structure HandOk (cfg : SCfg) (d c : Nat) (s : SState) : Prop where
  live : s.loops c ≠ .off → ¬ ShutIn c s.ev → s.loops c = .read ∨ ∃ m, s.loops c = .go m
  all : ∃ r, timedArrivals c s.ev = r ++ s.inbox c ∧ r.map Prod.snd = reads c s.ev ∧
    ∀ m, s.loops c = .go m → ¬ ShutIn c s.ev → ∃ r' a, r = r' ++ [(a, m)] ∧ s.lpAt c ≤ a + d

theorem handok_step {cfg : SCfg} {d c : Nat} {s s' : SState} {l : SLabel} (hok : SOk s) (hloop : PromptLoop d c s)
    (hhung : s'.hung c = false) (htakes : ∀ a m, (a, m) ∈ s.inbox c → cfg.takes m = true)
    (h : HandOk cfg d c s) (hs : s.step cfg l = some s') : HandOk cfg d c s' := by
  obtain ⟨g1, r, g2, g3, g4⟩ := h
  cases l with
  | base a =>
    rcases sstep_cases hs with ⟨a', t', ha, ht, e1, e2, -, ib, hu, ev, hl⟩ | ⟨j, hl, -⟩ | ⟨hl, -⟩
    · obtain ⟨q1, q2, q3, q4, -⟩ := quiet_w c (newEvents s.t.w t'.w) s.t.now s.ev
      have hsh : ¬ ShutIn c s'.ev → ¬ ShutIn c s.ev := by
        rintro h0 ⟨t, why, hm⟩
        exact h0 ⟨t, why, by rw [ev]; exact List.mem_append_right _ hm⟩
      by_cases hnew : a' = .act (.accept .tcp) ∧ c = s.t.w.n
      · have hlo : s'.loops c = .read := by
          rcases hl with ⟨-, hl, -⟩ | ⟨h0, -⟩
          · rw [hl]; simp [SState.setLoop, hnew.2]
          · exact absurd hnew.1 h0
        exact ⟨fun _ _ => .inl hlo, r, by rw [ev, timedArrivals_w, ib]; exact g2, by rw [ev, q3]; exact g3,
          fun m hm => by rw [hlo] at hm; cases hm⟩
      · have hloops : s'.loops c = s.loops c ∧ s'.lpAt c = s.lpAt c := by
          rcases hl with ⟨e, hl, hl'⟩ | ⟨-, hl, hl'⟩
          · have hc : c ≠ s.t.w.n := fun h0 => hnew ⟨e, h0⟩
            rw [hl, hl']; simp [SState.setLoop, setAt, hc]
          · rw [hl, hl']; exact ⟨rfl, rfl⟩
        refine ⟨fun h1 h2 => ?_, r, by rw [ev, timedArrivals_w, ib]; exact g2, by rw [ev, q3]; exact g3, fun m hm h2 => ?_⟩
        · rw [hloops.1] at h1 ⊢; exact g1 h1 (hsh h2)
        · rw [hloops.1] at hm; rw [hloops.2]; exact g4 m hm (hsh h2)
    · exact absurd rfl (hl a)
    · exact absurd rfl (hl a)
  | arrive c' m =>
    lstep hs
    have hsh : ¬ ShutIn c ((s.t.now, SEv.arrived c' m) :: s.ev) → ¬ ShutIn c s.ev := by
      rintro h0 ⟨t, why, hm⟩; exact h0 ⟨t, why, List.mem_cons_of_mem _ hm⟩
    refine ⟨fun h1 h2 => g1 h1 (hsh h2), r, ?_, g3, fun m hm h2 => g4 m hm (hsh h2)⟩
    by_cases hc : c = c'
    · subst hc
      simp [timedArrivals, g2]
    · simp [timedArrivals, g2, hc, Ne.symm hc]
  | hangup c' =>
    lstep hs
    have hsh : ¬ ShutIn c ((s.t.now, SEv.hungUp c') :: s.ev) → ¬ ShutIn c s.ev := by
      rintro h0 ⟨t, why, hm⟩; exact h0 ⟨t, why, List.mem_cons_of_mem _ hm⟩
    exact ⟨fun h1 h2 => g1 h1 (hsh h2), r, g2, g3, fun m hm h2 => g4 m hm (hsh h2)⟩
  | reset c' =>
    lstep hs
    have hc : c ≠ c' := by rintro rfl; simp at hhung
    have hsh : ¬ ShutIn c ((s.t.now, SEv.hungUp c') :: s.ev) → ¬ ShutIn c s.ev := by
      rintro h0 ⟨t, why, hm⟩; exact h0 ⟨t, why, List.mem_cons_of_mem _ hm⟩
    exact ⟨fun h1 h2 => g1 h1 (hsh h2), r, by simpa [timedArrivals, hc] using g2, g3, fun m hm h2 => g4 m hm (hsh h2)⟩
  | loop c' x =>
    have hoff : s.loops c' ≠ .off := by
      intro h0
      simp only [SState.step, SState.loopStep, h0] at hs
      cases hs
    have hshut := shut_iff hok hoff
    have hh : s.hung c = false := by
      cases hb : s.hung c with
      | false => rfl
      | true => exfalso; lstep hs; all_goals exact absurd hhung (by simp [hb])
    have hsh : ∀ e, ¬ ShutIn c ((s.t.now, e) :: s.ev) → ¬ ShutIn c s.ev := by
      rintro e h0 ⟨t, why, hm⟩; exact h0 ⟨t, why, List.mem_cons_of_mem _ hm⟩
    by_cases hc : c = c'
    · subst hc
      cases hl : s.loops c with
      | off => exact absurd hl hoff
      | last k =>
        simp only [SState.step, SState.loopStep, hl] at hs
        cases x <;> cases hs
      | leaving =>
        have hS : ShutIn c s.ev := by
          apply Classical.byContradiction
          intro h0
          rcases g1 hoff h0 with h1 | ⟨m, h1⟩ <;> rw [hl] at h1 <;> cases h1
        cases x with
        | fail => simp only [SState.step, SState.loopStep, hl] at hs; cases hs
        | go =>
          simp only [SState.step, SState.loopStep, hl] at hs
          split at hs
          · simp only [Option.some.injEq] at hs
            subst hs
            exact ⟨fun _ h2 => absurd hS h2, r, g2, g3, fun m hm => by simp [SState.setLoop] at hm⟩
          · simp only [Option.some.injEq] at hs
            subst hs
            refine ⟨fun _ h2 => absurd hS (hsh _ h2), r, g2, g3, fun m hm => by simp [SState.setLoop, SState.log] at hm⟩
      | go m =>
        cases x with
        | fail => simp only [SState.step, SState.loopStep, hl] at hs; cases hs
        | go =>
          simp only [SState.step, SState.loopStep, hl, Option.some.injEq] at hs
          subst hs
          refine ⟨fun _ _ => .inl (by simp [SState.log, SState.setLoop]), r, ?_, ?_, fun m hm => ?_⟩
          · simpa [SState.log, SState.setLoop, SState.spawn, timedArrivals] using g2
          · simpa [SState.log, SState.setLoop, SState.spawn, reads] using g3
          · simp [SState.log, SState.setLoop] at hm
      | read =>
        cases x with
        | fail =>
          simp only [SState.step, SState.loopStep, hl] at hs
          split at hs
          · next hcond =>
            simp only [Option.some.injEq] at hs
            subst hs
            have hS : ShutIn c s.ev := by
              rw [hh] at hcond
              exact hshut.1 (by simpa using hcond)
            exact ⟨fun _ h2 => absurd hS h2, r, g2, g3, fun m hm => by simp [SState.setLoop] at hm⟩
          · cases hs
        | go =>
          simp only [SState.step, SState.loopStep, hl] at hs
          cases hi : s.inbox c with
          | nil => rw [hi] at hs; cases hs
          | cons am rest =>
            obtain ⟨a, m⟩ := am
            rw [hi] at hs
            simp only [] at hs
            split at hs
            · cases hs
            · next hn =>
              have hm0 : (a, m) ∈ s.inbox c := by rw [hi]; exact List.mem_cons_self ..
              have htk := htakes a m hm0
              simp only [htk, if_true, Option.some.injEq] at hs
              subst hs
              have hno : ¬ ShutIn c s.ev := fun h0 => hn (hshut.2 h0)
              unfold PromptLoop at hloop
              rw [hl] at hloop
              have hat := hloop.2.2 hno a m hm0
              refine ⟨fun _ _ => .inr ⟨m, by simp [SState.log, SState.setLoop]⟩, r ++ [(a, m)], ?_, ?_, fun m' hm' _ => ?_⟩
              · simpa [SState.log, SState.setLoop, timedArrivals, hi] using g2
              · simp [SState.log, SState.setLoop, reads, g3]
              · simp only [SState.log, SState.setLoop, if_true, LPc.go.injEq] at hm'
                subst hm'
                exact ⟨r, a, rfl, by simpa [SState.log, SState.setLoop, setAt] using hat⟩
    · have hne : ∀ p : LPc, (if c = c' then p else s.loops c) = s.loops c := fun p => if_neg hc
      have hat : ∀ t, setAt s.lpAt c' t c = s.lpAt c := fun t => by simp [setAt, hc]
      lstep hs
      all_goals refine ⟨?_, r, ?_, ?_, ?_⟩
      all_goals simp only [hne, hat, if_neg hc, timedArrivals, reads, if_neg (Ne.symm hc)]
      all_goals first
        | exact g2
        | exact g3
        | exact fun h1 h2 => g1 h1 h2
        | exact fun h1 h2 => g1 h1 (hsh _ h2)
        | exact fun m h1 h2 => g4 m h1 h2
        | exact fun m h1 h2 => g4 m h1 (hsh _ h2)

theorem handok_start (cfg : SCfg) (d c : Nat) (life : Life) (jobs : Nat → List UCall) : HandOk cfg d c (.start life jobs) :=
  ⟨fun h => absurd rfl h, [], rfl, rfl, fun m h => by simp [SState.start] at h⟩

/-- What has happened is in order of time. -/
theorem sorted_run (cfg : SCfg) (life : Life) (jobs : Nat → List UCall) (ls : List SLabel) :
    (srun cfg life jobs ls).ev.Pairwise fun x y => y.1 ≤ x.1 := by
  refine (SState.run_induct (s := .start life jobs) (P := fun s => PastOk 0 s ∧ s.ev.Pairwise fun x y => y.1 ≤ x.1)
    (sthroughout_true _ _ _) ⟨pastok_start 0 life jobs, .nil⟩ ?_).2
  intro s l s' h _ _ hs
  refine ⟨pastok_step h.1 hs, ?_⟩
  obtain ⟨es, h1, h2⟩ := evnow_sstep hs
  rw [h1, List.pairwise_append]
  refine ⟨List.pairwise_of_forall_mem_list fun x hx y hy => ?_, h.2, fun x hx y hy => ?_⟩
  · rw [h2 x hx, h2 y hy]; exact Nat.le_refl _
  · rw [h2 x hx]; exact h.1.ev y.1 y.2 hy

theorem timedArrivals_mem {c : Nat} {ev : List (Nat × SEv)} {x : Nat × Nat} (h : x ∈ timedArrivals c ev) : (x.1, .arrived c x.2) ∈ ev := by
  induction ev with
  | nil => cases h
  | cons y ev ih =>
    obtain ⟨u, y⟩ := y
    cases y with
    | arrived c' m' =>
      simp only [timedArrivals] at h
      split at h
      · next hc =>
        subst hc
        rcases List.mem_append.1 h with h | h
        · exact List.mem_cons_of_mem _ (ih h)
        · cases List.mem_singleton.1 h; exact List.mem_cons_self ..
      · exact List.mem_cons_of_mem _ (ih h)
    | _ => exact List.mem_cons_of_mem _ (ih h)

theorem timedArrivals_sorted {c : Nat} {ev : List (Nat × SEv)} (h : ev.Pairwise fun x y => y.1 ≤ x.1) :
    (timedArrivals c ev).Pairwise fun x y => x.1 ≤ y.1 := by
  induction ev with
  | nil => exact .nil
  | cons y ev ih =>
    obtain ⟨u, y⟩ := y
    rw [List.pairwise_cons] at h
    cases y with
    | arrived c' m' =>
      simp only [timedArrivals]
      split
      · rw [List.pairwise_append]
        refine ⟨ih h.2, List.pairwise_singleton .., fun x hx z hz => ?_⟩
        rw [List.mem_singleton.1 hz]
        exact h.1 _ (timedArrivals_mem hx)
      · exact ih h.2
    | _ => exact ih h.2

/-- What came by `T` is a first part of what came. -/
theorem filter_prefix {T : Nat} {r i : List (Nat × Nat)} (hs : (r ++ i).Pairwise fun x y => x.1 ≤ y.1) (h : ∀ x ∈ i, T < x.1) :
    (r ++ i).filter (fun x => decide (x.1 ≤ T)) <+: r := by
  induction r with
  | nil =>
    have : i.filter (fun x => decide (x.1 ≤ T)) = [] := by
      rw [List.filter_eq_nil_iff]
      intro x hx
      have := h x hx
      simp; omega
    rw [List.nil_append, this]
    exact List.prefix_refl _
  | cons y r ih =>
    rw [List.cons_append, List.pairwise_cons] at hs
    by_cases hy : y.1 ≤ T
    · rw [List.cons_append, List.filter_cons_of_pos (by simpa using hy)]
      exact List.prefix_cons_inj y |>.2 (ih hs.2)
    · have : (y :: r ++ i).filter (fun x => decide (x.1 ≤ T)) = [] := by
        rw [List.filter_eq_nil_iff]
        intro x hx
        rcases List.mem_cons.1 hx with rfl | hx
        · simpa using hy
        · have := hs.1 x hx
          simp; omega
      rw [this]
      exact List.nil_prefix

end Tcpx
