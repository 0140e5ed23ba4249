import Verif.Lemmas.Graceful
/-!
# Lemmas on the goroutines of a server: refused after `Stop`, let in while none is called
-/
namespace Tcpx.Graceful
open Spec

/-- The listening call has not opened the state yet. -/
def Early : Thread → Prop
  | .spawned _ | .listen _ | .record _ _ | .opening _ _ => True
  | _ => False

/-- What one step does to the listeners: none is opened at `a` without an event saying so. -/
theorem bound_step (s : GState) (lab : Label) (a : String) (l : Nat) (h : (s.step lab).bound a = some l) :
    s.bound a = some l ∨ ∃ i, (s.step lab).trace = .listening i a l :: s.trace := by
  cases lab with
  | connect b =>
    simp only [GState.step, GState.connect] at h
    split at h <;> exact .inl h
  | run i works =>
    simp only [GState.step] at h ⊢
    split at h
    · next t hi =>
      cases t with
      | spawned k => simp only [GState.thread, GState.put] at h; split at h <;> exact .inl h
      | listen b =>
        simp only [GState.thread, GState.listenAt, GState.put, GState.log] at h ⊢
        split at h
        · next hw =>
          simp only at h
          split at h
          · next he => subst he; cases h; exact .inr ⟨i, by rw [if_pos hw]⟩
          · exact .inl h
        · exact .inl h
      | record b m => exact .inl h
      | opening b m => exact .inl h
      | check b m => simp only [GState.thread, GState.put] at h; split at h <;> exact .inl h
      | accept b m =>
        simp only [GState.thread, GState.acceptAt, GState.put, GState.log] at h
        split at h
        · split at h
          · split at h <;> exact .inl h
          · exact .inl h
        · exact .inl h
      | closing b m =>
        simp only [GState.thread, GState.put, GState.log] at h
        split at h
        · cases h
        · exact .inl h
      | done => exact .inl h
      | user u =>
        cases u with
        | ret => exact .inl h
        | serve b k => exact .inl h
        | stop ok err => simp only [GState.thread, GState.call, GState.put, GState.log] at h; split at h <;> exact .inl h
        | start ok err => simp only [GState.thread, GState.call, GState.put, GState.log] at h; split at h <;> exact .inl h
      | stopSet ok => exact .inl h
      | sweep ok =>
        simp only [GState.thread, GState.put, GState.log] at h
        split at h
        · cases h
        · exact .inl h
      | startEval ok => exact .inl h
      | startLoop k rest ok => cases rest <;> exact .inl h
    · exact .inl h

/-- What one step adds to the log: nothing, one event, or the end of a `Stop`. -/
theorem trace_step (s : GState) (lab : Label) :
    (s.step lab).trace = s.trace ∨ (∃ e, (s.step lab).trace = e :: s.trace ∧ e ≠ .swept) ∨
    ((s.step lab).trace = .stopRet true :: .swept :: s.trace ∧
      (s.step lab).bound = fun x => if (∃ r ∈ s.recs, r.port = x ∧ s.bound x = some r.listener) then none else s.bound x) := by
  cases lab with
  | connect b =>
    simp only [GState.step, GState.connect]
    split <;> exact .inr (.inl ⟨_, rfl, by simp⟩)
  | run i works =>
    simp only [GState.step]
    split
    · next t hi =>
      cases t with
      | spawned k => simp only [GState.thread, GState.put]; split <;> exact .inl rfl
      | listen b =>
        simp only [GState.thread, GState.listenAt, GState.put, GState.log]
        split <;> exact .inr (.inl ⟨_, rfl, by simp⟩)
      | record b m => exact .inr (.inl ⟨_, rfl, by simp⟩)
      | opening b m => exact .inr (.inl ⟨_, rfl, by simp⟩)
      | check b m => simp only [GState.thread, GState.put]; split <;> exact .inl rfl
      | accept b m =>
        simp only [GState.thread, GState.acceptAt, GState.put, GState.log]
        split
        · split
          · split
            · exact .inr (.inl ⟨_, rfl, by simp⟩)
            · exact .inl rfl
          · exact .inr (.inl ⟨_, rfl, by simp⟩)
        · exact .inl rfl
      | closing b m => exact .inr (.inl ⟨_, rfl, by simp⟩)
      | done => exact .inl rfl
      | user u =>
        cases u with
        | ret => exact .inl rfl
        | serve b k => exact .inr (.inl ⟨_, rfl, by simp⟩)
        | stop ok err =>
          simp only [GState.thread, GState.call, GState.put, GState.log]
          split
          · exact .inr (.inl ⟨_, rfl, by simp⟩)
          · exact .inl rfl
        | start ok err =>
          simp only [GState.thread, GState.call, GState.put, GState.log]
          split
          · exact .inr (.inl ⟨_, rfl, by simp⟩)
          · exact .inl rfl
      | stopSet ok => exact .inr (.inl ⟨_, rfl, by simp⟩)
      | sweep ok => exact .inr (.inr ⟨rfl, rfl⟩)
      | startEval ok => exact .inl rfl
      | startLoop k rest ok =>
        cases rest with
        | nil => exact .inr (.inl ⟨_, rfl, by simp⟩)
        | cons => exact .inr (.inl ⟨_, rfl, by simp⟩)
    · exact .inl rfl

/-- Induction over a run. -/
theorem run_induction {P : GState → Prop} (users : List User) (h0 : P (start users))
    (hs : ∀ s lab, Inv s → P s → P (s.step lab)) (ls : List Label) : P (run users ls) := by
  suffices H : ∀ s, Inv s → P s → P (ls.foldl GState.step s) from H _ (inv_start users) h0
  induction ls with
  | nil => exact fun s _ h => h
  | cons l ls ih => exact fun s hi h => ih _ (inv_step hi l) (hs s l hi h)

theorem swept_none {s : GState} (h : Inv s) (a : String) (ha : AllRecorded a s.trace) :
    (if (∃ r ∈ s.recs, r.port = a ∧ s.bound a = some r.listener) then none else s.bound a) = none := by
  rw [Option.eq_none_iff_forall_ne_some]
  intro l hl
  obtain ⟨h1, h2⟩ := (swept_bound h a l).1 hl
  obtain ⟨i, hi⟩ := h.bl a l h1
  exact h2 (ha i l hi)

/-- After a `Stop` that found every listener at `a` in its record, and while none is opened, none is open at `a`. -/
theorem sweptAt_run (users : List User) (ls : List Label) (a : String) (h : SweptAt a (run users ls).trace) :
    (run users ls).bound a = none := by
  revert h
  refine run_induction (P := fun s => SweptAt a s.trace → s.bound a = none) users (fun h => absurd h (by simp [start, SweptAt])) ?_ ls
  intro s lab hi ih h
  rcases trace_step s lab with ht | ⟨e, ht, hne⟩ | ⟨ht, hb⟩
  · rw [ht] at h
    have := ih h
    rw [Option.eq_none_iff_forall_ne_some]
    intro l hl
    rcases bound_step s lab a l hl with h1 | ⟨i, h1⟩
    · rw [this] at h1; cases h1
    · rw [ht] at h1; exact absurd (congrArg List.length h1) (by simp)
  · rw [ht] at h
    rcases h with ⟨h, -⟩ | ⟨hnl, h⟩
    · exact absurd h hne
    have := ih h
    rw [Option.eq_none_iff_forall_ne_some]
    intro l hl
    rcases bound_step s lab a l hl with h1 | ⟨i, h1⟩
    · rw [this] at h1; cases h1
    · rw [ht] at h1; exact absurd (List.cons.inj h1).1 (hnl i l)
  · rw [hb]
    rw [ht] at h
    rcases h with ⟨h, -⟩ | ⟨-, ⟨-, h⟩ | ⟨-, h⟩⟩
    · cases h
    · exact swept_none hi a h
    · have := ih h
      simp [this]

/-- A listening call that has its listener and whose server was not told to stop since: the listener is open. -/
def Alive (s : GState) (i : Nat) (a : String) (l : Nat) : Prop :=
  s.bound a = some l ∧ (s.threads[i]? = some (.record a l) ∨ s.threads[i]? = some (.opening a l) ∨
    (s.threads[i]? = some (.check a l) ∨ s.threads[i]? = some (.accept a l)) ∧ s.state = .running)

theorem alive_step {s : GState} (hinv : Inv s) (lab : Label) (i : Nat) (a : String) (l : Nat)
    (h : Alive s i a l) (hs : (∃ es, (s.step lab).trace = es ++ s.trace ∧ ∀ e ∈ es, NoStop l e)) : Alive (s.step lab) i a l := by
  obtain ⟨hb, ht⟩ := h
  obtain ⟨es, he, hns⟩ := hs
  have hl : .listening i a l ∈ s.trace := by
    rcases ht with h | h | ⟨h | h, -⟩
    · exact (hinv.thR i a l h).1
    · exact (hinv.thO i a l (.inl h)).1
    · exact (hinv.thO i a l (.inr (.inl h))).1
    · exact (hinv.thO i a l (.inr (.inr (.inl h)))).1
  cases lab with
  | connect b =>
    simp only [GState.step, GState.connect]
    split <;> exact ⟨hb, ht⟩
  | run j works =>
    simp only [GState.step] at he ⊢
    split at he
    · next t hj =>
      cases t with
      | spawned k =>
        simp only [GState.thread, GState.put]
        split
        · simp only [Alive]; grind
        · exact ⟨hb, ht⟩
      | listen b =>
        simp only [GState.thread, GState.listenAt, GState.put, GState.log]
        split
        · simp only [Alive]; grind
        · simp only [Alive]; grind
      | record b m => simp only [GState.thread, GState.put, GState.log, Alive]; grind
      | opening b m => simp only [GState.thread, GState.put, GState.log, Alive]; grind
      | check b m =>
        simp only [GState.thread, GState.put]
        split
        · simp only [Alive]; grind
        · next hr =>
          have hr : s.state = .running := by cases h : s.state <;> simp_all
          simp only [Alive]; grind
      | accept b m =>
        have hu := hinv.uniq i j a b l hl
        have hm := (hinv.thO j b m (.inr (.inr (.inl hj)))).1
        simp only [GState.thread, GState.acceptAt, GState.put, GState.log] at he ⊢
        split
        · next hbm =>
          rw [if_pos hbm] at he
          split
          · split
            · simp only [Alive]; grind
            · exact ⟨hb, ht⟩
          · next hw =>
            rw [if_neg hw] at he
            have hes : es = [.acceptFailed m] := by
              have : [Ev.acceptFailed m] ++ s.trace = es ++ s.trace := he
              exact (List.append_cancel_right this).symm
            have hne : m ≠ l := by
              rintro rfl
              exact (hns (.acceptFailed m) (by rw [hes]; simp)).2.2 rfl
            simp only [Alive]
            grind
        · simp only [Alive]; grind
      | closing b m =>
        have hm := (hinv.thO j b m (.inr (.inr (.inr hj)))).1
        have hne : m ≠ l := by
          rintro rfl
          obtain ⟨rfl, rfl⟩ := hinv.uniq i j a b m hl hm
          rw [hj] at ht
          simp at ht
        simp only [GState.thread, GState.put, GState.log, Alive]
        grind
      | done => exact ⟨hb, ht⟩
      | user u =>
        cases u with
        | ret => exact ⟨hb, ht⟩
        | serve b k => simp only [GState.thread, GState.call, GState.spawn, GState.put, GState.log, Alive]; grind
        | stop ok err =>
          simp only [GState.thread, GState.call, GState.put, GState.log]
          split <;> (simp only [Alive]; grind)
        | start ok err =>
          simp only [GState.thread, GState.call, GState.put, GState.log]
          split <;> (simp only [Alive]; grind)
      | stopSet ok =>
        exfalso
        have hes : es = [.stopping] := by
          have : [Ev.stopping] ++ s.trace = es ++ s.trace := he
          exact (List.append_cancel_right this).symm
        exact (hns .stopping (by rw [hes]; simp)).1 rfl
      | sweep ok =>
        exfalso
        have hes : es = [.stopRet true, .swept] := by
          have : [Ev.stopRet true, Ev.swept] ++ s.trace = es ++ s.trace := he
          exact (List.append_cancel_right this).symm
        exact (hns .swept (by rw [hes]; simp)).2.1 rfl
      | startEval ok => simp only [GState.thread, GState.put, Alive]; grind
      | startLoop k rest ok =>
        cases rest with
        | nil => simp only [GState.thread, GState.put, GState.log, Alive]; grind
        | cons b rest => simp only [GState.thread, GState.spawn, GState.put, GState.log, Alive]; grind
    · exact ⟨hb, ht⟩

theorem alive_new (s : GState) (lab : Label) (i : Nat) (a : String) (l : Nat)
    (h : (s.step lab).trace = .listening i a l :: s.trace) : Alive (s.step lab) i a l := by
  cases lab with
  | connect b =>
    simp only [GState.step, GState.connect] at h
    split at h <;> simp [GState.log] at h
  | run j works =>
    simp only [GState.step] at h ⊢
    split at h
    · next t hj =>
      cases t with
      | spawned k => simp only [GState.thread, GState.put] at h; split at h <;> simp at h
      | listen b =>
        simp only [GState.thread, GState.listenAt, GState.put, GState.log] at h ⊢
        split at h
        · next hw =>
          simp only [List.cons.injEq, Ev.listening.injEq, and_true] at h
          obtain ⟨rfl, rfl, rfl⟩ := h
          rw [if_pos hw]
          have hlt : j < s.threads.length := (List.getElem?_eq_some_iff.1 hj).1
          exact ⟨by simp, .inl (by simp [hlt])⟩
        · simp at h
      | record b m => simp [GState.thread, GState.put, GState.log] at h
      | opening b m => simp [GState.thread, GState.put, GState.log] at h
      | check b m => simp only [GState.thread, GState.put] at h; split at h <;> simp at h
      | accept b m =>
        simp only [GState.thread, GState.acceptAt, GState.put, GState.log] at h
        split at h
        · split at h
          · split at h <;> simp at h
          · simp at h
        · simp at h
      | closing b m => simp [GState.thread, GState.put, GState.log] at h
      | done => simp [GState.thread] at h
      | user u =>
        cases u with
        | ret => simp [GState.thread, GState.call] at h
        | serve b k => simp [GState.thread, GState.call, GState.spawn, GState.put, GState.log] at h
        | stop ok err => simp only [GState.thread, GState.call, GState.put, GState.log] at h; split at h <;> simp at h
        | start ok err => simp only [GState.thread, GState.call, GState.put, GState.log] at h; split at h <;> simp at h
      | stopSet ok => simp [GState.thread, GState.put, GState.log] at h
      | sweep ok => simp [GState.thread, GState.put, GState.log] at h
      | startEval ok => simp [GState.thread, GState.put] at h
      | startLoop k rest ok => cases rest <;> simp [GState.thread, GState.spawn, GState.put, GState.log] at h
    · simp at h

/-- Since a listener was opened, nothing has happened that could close it: it is open. -/
theorem alive_run (users : List User) (ls : List Label) (i : Nat) (a : String) (l : Nat)
    (h : Since (NoStop l) (.listening i a l) (run users ls).trace) : Alive (run users ls) i a l := by
  revert h
  refine run_induction (P := fun s => Since (NoStop l) (.listening i a l) s.trace → Alive s i a l) users
    (fun h => absurd h (by simp [start, Since])) ?_ ls
  intro s lab hi ih h
  rcases trace_step s lab with ht | ⟨e, ht, hne⟩ | ⟨ht, hb⟩
  · rw [ht] at h
    exact alive_step hi lab i a l (ih h) ⟨[], ht, by simp⟩
  · rw [ht] at h
    rcases h with rfl | ⟨h1, h2⟩
    · exact alive_new s lab i a l ht
    · exact alive_step hi lab i a l (ih h2) ⟨[e], ht, by simpa using h1⟩
  · rw [ht] at h
    rcases h with h | ⟨h1, h | ⟨h2, h3⟩⟩
    · cases h
    · cases h
    · exact absurd rfl h2.2.1

/-! ## Listening calls that have not opened the state yet -/

structure Calls (s : GState) : Prop where
  early : ∀ (i : Nat) t, s.threads[i]? = some t → Early t → .calling i ∈ s.trace ∧ .opened i ∉ s.trace ∧ .failed i ∉ s.trace
  idx : ∀ i, .opened i ∈ s.trace ∨ .failed i ∈ s.trace → i < s.threads.length

theorem calls_move {s s' : GState} (h : Calls s) (hc : ∀ i, .calling i ∈ s.trace → .calling i ∈ s'.trace)
    (ho : ∀ i, .opened i ∈ s'.trace ↔ .opened i ∈ s.trace) (hf : ∀ i, .failed i ∈ s'.trace ↔ .failed i ∈ s.trace)
    (hl : s.threads.length ≤ s'.threads.length)
    (ht : ∀ (i : Nat) t, s'.threads[i]? = some t → Early t → ∃ t', s.threads[i]? = some t' ∧ Early t') : Calls s' := by
  constructor
  · intro i t hi he
    obtain ⟨t', h1, h2⟩ := ht i t hi he
    rw [ho, hf]
    exact ⟨hc i (h.early i t' h1 h2).1, (h.early i t' h1 h2).2⟩
  · intro i hi
    rw [ho, hf] at hi
    exact Nat.lt_of_lt_of_le (h.idx i hi) hl

theorem calls_put {s : GState} (h : Calls s) {i : Nat} {t t₀ : Thread} (hi : s.threads[i]? = some t₀) (he : Early t → Early t₀) :
    Calls (s.put i t) := by
  refine calls_move h (fun _ h => h) (fun _ => Iff.rfl) (fun _ => Iff.rfl) (by simp [GState.put]) ?_
  intro j t' hj hE
  simp only [GState.put] at hj
  rw [List.getElem?_set] at hj
  split at hj
  · split at hj
    · next hij _ => cases hj; exact ⟨t₀, hij ▸ hi, he hE⟩
    · cases hj
  · exact ⟨t', hj, hE⟩

theorem calls_log {s : GState} (h : Calls s) {e : Ev} (h1 : ∀ i, e ≠ .opened i) (h2 : ∀ i, e ≠ .failed i) : Calls (s.log e) :=
  calls_move h (fun i h => List.mem_cons_of_mem _ h) (fun i => by simp [GState.log, (h1 i).symm])
    (fun i => by simp [GState.log, (h2 i).symm]) (Nat.le_refl _) (fun _ t h h' => ⟨t, h, h'⟩)

/-- Opening the state or failing ends the early part of a call. -/
theorem calls_end {s : GState} (h : Calls s) {i : Nat} {t t₀ : Thread} (hi : s.threads[i]? = some t₀) (he : ¬ Early t) {e : Ev}
    (hev : e = .opened i ∨ e = .failed i) : Calls ((s.put i t).log e) := by
  have hlt : i < s.threads.length := (List.getElem?_eq_some_iff.1 hi).1
  constructor
  · intro j t' hj hE
    simp only [GState.put, GState.log] at hj ⊢
    rw [List.getElem?_set] at hj
    split at hj
    · cases hj; exact absurd hE he
    · next hij =>
      have := h.early j t' hj hE
      rcases hev with rfl | rfl
      · simp [this, Ne.symm hij]
      · simp [this, Ne.symm hij]
  · intro j hj
    simp only [GState.put, GState.log, List.length_set] at hj ⊢
    rcases hev with rfl | rfl
    · simp only [List.mem_cons, Ev.opened.injEq, reduceCtorEq, false_or] at hj
      rcases hj with (rfl | hj) | hj
      · exact hlt
      · exact h.idx j (.inl hj)
      · exact h.idx j (.inr hj)
    · simp only [List.mem_cons, Ev.failed.injEq, reduceCtorEq, false_or] at hj
      rcases hj with hj | rfl | hj
      · exact h.idx j (.inl hj)
      · exact hlt
      · exact h.idx j (.inr hj)

theorem calls_spawn {s : GState} (h : Calls s) {t : Thread} : Calls (s.spawn t) := by
  constructor
  · intro j t' hj hE
    simp only [GState.spawn, GState.log] at hj ⊢
    rw [List.getElem?_append] at hj
    split at hj
    · have := h.early j t' hj hE
      simp [this]
    · next hlt =>
      have hj' : j = s.threads.length := by
        have := (List.getElem?_eq_some_iff.1 hj).1
        simp at this
        omega
      subst hj'
      refine ⟨by simp, ?_, ?_⟩
      · intro hm
        have := h.idx s.threads.length (.inl (by simpa using hm))
        omega
      · intro hm
        have := h.idx s.threads.length (.inr (by simpa using hm))
        omega
  · intro j hj
    simp only [GState.spawn, GState.log, List.length_append, List.length_singleton] at hj ⊢
    have := h.idx j (by simpa using hj)
    omega

theorem calls_congr {s s' : GState} (h : Calls s) (h1 : s'.threads = s.threads) (h2 : s'.trace = s.trace) : Calls s' := by
  obtain ⟨a, b⟩ := h
  constructor
  · rw [h1, h2]; exact a
  · rw [h1, h2]; exact b

theorem calls_step {s : GState} (h : Calls s) (lab : Label) : Calls (s.step lab) := by
  cases lab with
  | connect b =>
    simp only [GState.step, GState.connect]
    split
    all_goals
      refine calls_log ?_ ?_ ?_
      · exact calls_congr h rfl rfl
      all_goals simp
  | run i works =>
    simp only [GState.step]
    split
    · next t hi =>
      cases t with
      | spawned k =>
        simp only [GState.thread]
        split
        · exact calls_put h hi (by simp [Early])
        · exact h
      | listen a =>
        simp only [GState.thread, GState.listenAt]
        split
        · refine calls_log (calls_put (t₀ := .listen a) ?_ ?_ ?_) ?_ ?_
          · exact calls_congr h rfl rfl
          · exact hi
          all_goals simp [Early]
        · exact calls_end h hi (by simp [Early]) (.inr rfl)
      | record a l =>
        refine calls_log (calls_put (t₀ := .record a l) ?_ ?_ ?_) ?_ ?_
        · exact calls_congr h rfl rfl
        · exact hi
        all_goals simp [Early]
      | opening a l =>
        refine calls_end (s := { s with state := .running }) (t₀ := .opening a l) (calls_congr h rfl rfl) hi ?_ (.inl rfl)
        simp [Early]
      | check a l =>
        simp only [GState.thread]
        split
        all_goals exact calls_put h hi (by simp [Early])
      | accept a l =>
        simp only [GState.thread, GState.acceptAt]
        split
        · split
          · split
            · refine calls_log (calls_put (t₀ := .accept a l) ?_ ?_ ?_) ?_ ?_
              · exact calls_congr h rfl rfl
              · exact hi
              all_goals simp [Early]
            · exact h
          · exact calls_log (calls_put h hi (by simp [Early])) (by simp) (by simp)
        · exact calls_put h hi (by simp [Early])
      | closing a l =>
        refine calls_log (calls_put (t₀ := .closing a l) ?_ ?_ ?_) ?_ ?_
        · exact calls_congr h rfl rfl
        · exact hi
        all_goals simp [Early]
      | done => exact h
      | user u =>
        simp only [GState.thread]
        cases u with
        | ret => exact h
        | serve a k => exact calls_spawn (calls_put h hi (by simp [Early]))
        | stop ok err =>
          simp only [GState.call]
          split
          · exact calls_log (calls_put h hi (by simp [Early])) (by simp) (by simp)
          · exact calls_put h hi (by simp [Early])
        | start ok err =>
          simp only [GState.call]
          split
          · exact calls_log (calls_put h hi (by simp [Early])) (by simp) (by simp)
          · exact calls_put h hi (by simp [Early])
      | stopSet ok =>
        refine calls_log (calls_put (t₀ := .stopSet ok) ?_ ?_ ?_) ?_ ?_
        · exact calls_congr h rfl rfl
        · exact hi
        all_goals simp [Early]
      | sweep ok =>
        refine calls_log (calls_log (calls_put (t₀ := .sweep ok) ?_ ?_ ?_) ?_ ?_) ?_ ?_
        · exact calls_congr h rfl rfl
        · exact hi
        all_goals simp [Early]
      | startEval ok =>
        refine calls_put (t₀ := .startEval ok) ?_ ?_ ?_
        · exact calls_congr h rfl rfl
        · exact hi
        all_goals simp [Early]
      | startLoop k rest ok =>
        cases rest with
        | nil => exact calls_log (calls_put h hi (by simp [Early])) (by simp) (by simp)
        | cons a rest =>
          refine calls_spawn (calls_put (t₀ := .startLoop k (a :: rest) ok) ?_ ?_ ?_)
          · exact calls_congr h rfl rfl
          · exact hi
          all_goals simp [Early]
    · exact h

theorem calls_start (users : List User) : Calls (start users) := by
  constructor
  · intro i t hi he
    have := List.mem_of_getElem? hi
    simp only [start, List.mem_map] at this
    obtain ⟨u, -, rfl⟩ := this
    exact absurd he (by simp [Early])
  · simp [start]

/-! ## After a quiet `Stop` -/

/-- Nothing is listening or about to. -/
def Down (s : GState) : Prop := s.state = .stopped ∧ ∀ (i : Nat) t, s.threads[i]? = some t → ¬ Early t

theorem down_step {s : GState} (h : Down s) (lab : Label) (hc : ∀ i, (s.step lab).trace ≠ .calling i :: s.trace) : Down (s.step lab) := by
  obtain ⟨hs, ht⟩ := h
  have hput : ∀ {s' : GState} (i : Nat) (t : Thread), s'.state = .stopped → s'.threads = s.threads.set i t → ¬ Early t → Down s' := by
    intro s' i t h1 h2 h3
    refine ⟨h1, ?_⟩
    rw [h2]
    intro j t' hj
    rw [List.getElem?_set] at hj
    split at hj
    · split at hj
      · cases hj; exact h3
      · cases hj
    · exact ht j t' hj
  cases lab with
  | connect b =>
    simp only [GState.step, GState.connect]
    split
    all_goals exact ⟨hs, ht⟩
  | run i works =>
    simp only [GState.step] at hc ⊢
    split at hc
    · next t hi =>
      have hne := ht i t hi
      cases t with
      | spawned k => exact absurd trivial hne
      | listen a => exact absurd trivial hne
      | record a l => exact absurd trivial hne
      | opening a l => exact absurd trivial hne
      | check a l =>
        simp only [GState.thread]
        split
        all_goals exact hput i _ hs rfl (by simp [Early])
      | accept a l =>
        simp only [GState.thread, GState.acceptAt]
        split
        · split
          · split
            · exact hput i _ hs rfl (by simp [Early])
            · exact ⟨hs, ht⟩
          · exact hput i _ hs rfl (by simp [Early])
        · exact hput i _ hs rfl (by simp [Early])
      | closing a l => exact hput i .done hs rfl (by simp [Early])
      | done => exact ⟨hs, ht⟩
      | user u =>
        cases u with
        | ret => exact ⟨hs, ht⟩
        | serve a k => exact absurd rfl (hc _)
        | stop ok err =>
          simp only [GState.thread, GState.call]
          split
          all_goals exact hput i _ hs rfl (by simp [Early])
        | start ok err =>
          simp only [GState.thread, GState.call]
          split
          all_goals exact hput i _ hs rfl (by simp [Early])
      | stopSet ok => exact hput i (.sweep ok) rfl rfl (by simp [Early])
      | sweep ok => exact hput i (.user ok) hs rfl (by simp [Early])
      | startEval ok => exact hput i _ hs rfl (by simp [Early])
      | startLoop k rest ok =>
        cases rest with
        | nil => exact hput i (.user ok) hs rfl (by simp [Early])
        | cons a rest => exact absurd rfl (hc _)
    · exact ⟨hs, ht⟩

/-- `stopState` and nothing else puts `stopping` into the log. -/
theorem stopping_new (s : GState) (lab : Label) (h : (s.step lab).trace = .stopping :: s.trace) :
    ∃ i ok, s.threads[i]? = some (.stopSet ok) ∧ s.step lab = ({ s with state := .stopped }.put i (.sweep ok)).log .stopping := by
  cases lab with
  | connect b =>
    simp only [GState.step, GState.connect] at h
    split at h <;> simp [GState.log] at h
  | run j works =>
    simp only [GState.step] at h ⊢
    split at h
    · next t hj =>
      cases t with
      | spawned k => simp only [GState.thread, GState.put] at h; split at h <;> simp at h
      | listen b =>
        simp only [GState.thread, GState.listenAt, GState.put, GState.log] at h
        split at h <;> simp at h
      | record b m => simp [GState.thread, GState.put, GState.log] at h
      | opening b m => simp [GState.thread, GState.put, GState.log] at h
      | check b m => simp only [GState.thread, GState.put] at h; split at h <;> simp at h
      | accept b m =>
        simp only [GState.thread, GState.acceptAt, GState.put, GState.log] at h
        split at h
        · split at h
          · split at h <;> simp at h
          · simp at h
        · simp at h
      | closing b m => simp [GState.thread, GState.put, GState.log] at h
      | done => simp [GState.thread] at h
      | user u =>
        cases u with
        | ret => simp [GState.thread, GState.call] at h
        | serve b k => simp [GState.thread, GState.call, GState.spawn, GState.put, GState.log] at h
        | stop ok err => simp only [GState.thread, GState.call, GState.put, GState.log] at h; split at h <;> simp at h
        | start ok err => simp only [GState.thread, GState.call, GState.put, GState.log] at h; split at h <;> simp at h
      | stopSet ok => exact ⟨j, ok, hj, rfl⟩
      | sweep ok => simp [GState.thread, GState.put, GState.log] at h
      | startEval ok => simp [GState.thread, GState.put] at h
      | startLoop k rest ok => cases rest <;> simp [GState.thread, GState.spawn, GState.put, GState.log] at h
    · simp at h

theorem stoppedQuietly_step {s : GState} (_hi : Inv s) (lab : Label) (h : Calls s ∧ (StoppedQuietly s.trace → Down s)) :
    Calls (s.step lab) ∧ (StoppedQuietly (s.step lab).trace → Down (s.step lab)) := by
  obtain ⟨hcs, ih⟩ := h
  refine ⟨calls_step hcs lab, fun h => ?_⟩
  rcases trace_step s lab with ht | ⟨e, ht, hne⟩ | ⟨ht, hb⟩
  · rw [ht] at h
    exact down_step (ih h) lab (fun i hi => by rw [ht] at hi; exact absurd (congrArg List.length hi) (by simp))
  · rw [ht] at h
    rcases h with ⟨rfl, h⟩ | ⟨h1, h2⟩
    · obtain ⟨i, ok, h1, h2⟩ := stopping_new s lab ht
      rw [h2]
      refine ⟨rfl, ?_⟩
      intro j t hj hE
      simp only [GState.put, GState.log] at hj
      rw [List.getElem?_set] at hj
      split at hj
      · split at hj
        · cases hj; exact hE
        · cases hj
      · obtain ⟨c1, c2, c3⟩ := hcs.early j t hj hE
        rcases h j c1 with c | c
        · exact c2 c
        · exact c3 c
    · exact down_step (ih h2) lab (fun i hi => by rw [ht] at hi; exact h1 i (List.cons.inj hi).1)
  · rw [ht] at h
    rcases h with ⟨h, -⟩ | ⟨-, ⟨h, -⟩ | ⟨-, h⟩⟩
    · cases h
    · cases h
    · exact down_step (ih h) lab (fun i hi => by rw [ht] at hi; cases hi)

theorem stoppedQuietly_run (users : List User) (ls : List Label) :
    Calls (run users ls) ∧ (StoppedQuietly (run users ls).trace → Down (run users ls)) :=
  run_induction (P := fun s => Calls s ∧ (StoppedQuietly s.trace → Down s)) users
    ⟨calls_start users, fun h => absurd h (by simp [start, StoppedQuietly])⟩ (fun _ lab hi h => stoppedQuietly_step hi lab h) ls

/-- Every listener has come into its record or its goroutine is about to put it there. -/
def Recording (s : GState) : Prop := ∀ i a l, .listening i a l ∈ s.trace → .recorded a l ∈ s.trace ∨ s.threads[i]? = some (.record a l)

theorem recording_step {s : GState} (h : Recording s) (lab : Label) : Recording (s.step lab) := by
  unfold Recording at *
  cases lab with
  | connect b =>
    simp only [GState.step, GState.connect]
    split <;> (simp only [GState.log]; grind)
  | run i works =>
    simp only [GState.step]
    split
    · next t hi =>
      have hlt : i < s.threads.length := (List.getElem?_eq_some_iff.1 hi).1
      cases t with
      | spawned k =>
        simp only [GState.thread, GState.put]
        split
        · grind
        · exact h
      | listen a =>
        simp only [GState.thread, GState.listenAt, GState.put, GState.log]
        split <;> grind
      | record a l => simp only [GState.thread, GState.put, GState.log]; grind
      | opening a l => simp only [GState.thread, GState.put, GState.log]; grind
      | check a l =>
        simp only [GState.thread, GState.put]
        split <;> grind
      | accept a l =>
        simp only [GState.thread, GState.acceptAt, GState.put, GState.log]
        split
        · split
          · split
            · grind
            · exact h
          · grind
        · grind
      | closing a l => simp only [GState.thread, GState.put, GState.log]; grind
      | done => exact h
      | user u =>
        cases u with
        | ret => exact h
        | serve a k => simp only [GState.thread, GState.call, GState.spawn, GState.put, GState.log]; grind
        | stop ok err =>
          simp only [GState.thread, GState.call, GState.put, GState.log]
          split <;> grind
        | start ok err =>
          simp only [GState.thread, GState.call, GState.put, GState.log]
          split <;> grind
      | stopSet ok => simp only [GState.thread, GState.put, GState.log]; grind
      | sweep ok => simp only [GState.thread, GState.put, GState.log]; grind
      | startEval ok => simp only [GState.thread, GState.put]; grind
      | startLoop k rest ok =>
        cases rest with
        | nil => simp only [GState.thread, GState.put, GState.log]; grind
        | cons a rest => simp only [GState.thread, GState.spawn, GState.put, GState.log]; grind
    · exact h

/-- After a quiet `Stop` nothing is open. -/
theorem sweptQuietly_run (users : List User) (ls : List Label) (h : SweptQuietly (run users ls).trace) :
    Down (run users ls) ∧ ∀ a, (run users ls).bound a = none := by
  have key := run_induction (P := fun s => (Calls s ∧ (StoppedQuietly s.trace → Down s)) ∧ Recording s ∧
    (SweptQuietly s.trace → StoppedQuietly s.trace ∧ ∀ a, s.bound a = none)) users
    ⟨⟨calls_start users, fun h => absurd h (by simp [start, StoppedQuietly])⟩, by simp [Recording, start],
      fun h => absurd h (by simp [start, SweptQuietly])⟩ ?_ ls
  · exact ⟨key.1.2 (key.2.2 h).1, (key.2.2 h).2⟩
  rintro s lab hi ⟨hc, hr, ih⟩
  have hc' := stoppedQuietly_step hi lab hc
  refine ⟨hc', recording_step hr lab, fun h => ?_⟩
  have hsub : (∀ a, s.bound a = none) → Down (s.step lab) → ∀ a, (s.step lab).bound a = none := by
    intro hn hdn a
    rw [Option.eq_none_iff_forall_ne_some]
    intro l hl
    rcases bound_step s lab a l hl with h1 | ⟨i, h1⟩
    · rw [hn] at h1; cases h1
    · rcases (alive_new s lab i a l h1).2 with h2 | h2 | ⟨-, h2⟩
      · exact hdn.2 i _ h2 trivial
      · exact hdn.2 i _ h2 trivial
      · rw [hdn.1] at h2; cases h2
  rcases trace_step s lab with ht | ⟨e, ht, hne⟩ | ⟨ht, hb⟩
  · rw [ht] at h
    obtain ⟨h1, h2⟩ := ih h
    have h1' : StoppedQuietly (s.step lab).trace := by rw [ht]; exact h1
    exact ⟨h1', hsub h2 (hc'.2 h1')⟩
  · rw [ht] at h
    rcases h with ⟨rfl, -⟩ | ⟨h1, h2⟩
    · exact absurd rfl hne
    · obtain ⟨h3, h4⟩ := ih h2
      have h1' : StoppedQuietly (s.step lab).trace := by rw [ht]; exact .inr ⟨h1, h3⟩
      exact ⟨h1', hsub h4 (hc'.2 h1')⟩
  · rw [ht] at h
    have hsq : StoppedQuietly s.trace := by
      rcases h with ⟨h, -⟩ | ⟨-, ⟨-, h⟩ | ⟨-, h⟩⟩
      · cases h
      · exact h
      · exact (ih h).1
    refine ⟨by rw [ht]; exact .inr ⟨by simp [NoCall], .inr ⟨by simp [NoCall], hsq⟩⟩, fun a => ?_⟩
    rw [hb]
    refine swept_none hi a (fun i l hl => ?_)
    rcases hr i a l hl with h1 | h1
    · exact h1
    · exact absurd trivial ((hc.2 hsq).2 i _ h1)

end Tcpx.Graceful
