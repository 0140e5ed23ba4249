import Verif.Lemmas.GracefulRun
import Mathlib.Data.List.Induction
/-!
# Lemmas on a server with one endpoint and one goroutine that stops and starts it
-/
namespace Tcpx.Graceful
open Spec

/-- A goroutine serving (or about to serve) address `a`. -/
def Worker (s : GState) (a : String) : Thread → Prop
  | .spawned k => s.vars k = some a
  | .listen b | .record b _ | .opening b _ | .check b _ | .accept b _ | .closing b _ => b = a
  | .done => True
  | _ => False

/-- Events of such goroutines. -/
def WorkEv : Ev → Prop
  | .listening .. | .failed _ | .recorded .. | .opened _ | .served _ | .acceptFailed _ | .ended _ => True
  | _ => False

/-- The goroutine of the user code. -/
def Ctl : Thread → Prop
  | .user _ | .stopSet _ | .sweep _ | .startEval _ | .startLoop .. => True
  | _ => False

/-- What one step of such a goroutine does. -/
structure WorkStep (s s' : GState) (a : String) (j : Nat) (t : Thread) : Prop where
  thr : ∃ t', s'.threads = s.threads.set j t' ∧ Worker s a t' ∧ (Early t' → Early t) ∧
    (s'.state = s.state ∨ Early t ∧ ¬ Early t' ∧ s'.state = .running ∧ ∃ l, .recorded a l ∈ s.trace) ∧
    ((∃ k, t = .spawned k) ∨ t = .listen a → t' = .listen a ∧ s'.trace = s.trace ∨ (∃ l, t' = .record a l ∧ s'.bound a = some l) ∨
      .failed j ∈ s'.trace)
  vars : s'.vars = s.vars
  recs : s'.recs = s.recs ∨ ∃ l, s'.recs = fillProperty "tcp" a l s.recs
  tr : s'.trace = s.trace ∨ ∃ e, s'.trace = e :: s.trace ∧ WorkEv e
  rcd : ∀ b l, .recorded b l ∈ s'.trace → .recorded b l ∈ s.trace ∨ s'.recs = fillProperty "tcp" a l s.recs

theorem set_same {ts : List Thread} {j : Nat} {t : Thread} (h : ts[j]? = some t) : ts = ts.set j t := by
  apply List.ext_getElem?
  intro i
  rw [List.getElem?_set]
  split
  · next he => subst he; rw [h, if_pos (List.getElem?_eq_some_iff.1 h).1]
  · rfl

theorem work_step {s : GState} (hi : Inv s) {a : String} {j : Nat} {t : Thread} (hj : s.threads[j]? = some t) (hw : Worker s a t) (works : Bool) :
    WorkStep s (s.thread j works t) a j t := by
  cases t with
  | spawned k =>
    simp only [Worker] at hw
    simp only [GState.thread, hw, GState.put]
    exact ⟨⟨.listen a, rfl, rfl, by simp [Early], .inl rfl, fun _ => .inl ⟨rfl, rfl⟩⟩, rfl, .inl rfl, .inl rfl, fun _ _ h => .inl h⟩
  | listen b =>
    simp only [Worker] at hw
    subst hw
    simp only [GState.thread, GState.listenAt, GState.put, GState.log]
    split
    · exact ⟨⟨.record b s.n, rfl, rfl, by simp [Early], .inl rfl, fun _ => .inr (.inl ⟨_, rfl, by simp⟩)⟩, rfl, .inl rfl,
        .inr ⟨_, rfl, trivial⟩, fun _ _ h => .inl (by simpa using h)⟩
    · exact ⟨⟨.done, rfl, trivial, by simp [Early], .inl rfl, fun _ => .inr (.inr (by simp))⟩, rfl, .inl rfl,
        .inr ⟨_, rfl, trivial⟩, fun _ _ h => .inl (by simpa using h)⟩
  | record b l =>
    simp only [Worker] at hw
    subst hw
    refine ⟨⟨.opening b l, rfl, rfl, by simp [Early], .inl rfl, by simp⟩, rfl, .inr ⟨l, rfl⟩, .inr ⟨_, rfl, trivial⟩, ?_⟩
    intro c m h
    simp only [GState.thread, GState.put, GState.log, List.mem_cons, Ev.recorded.injEq] at h
    rcases h with ⟨-, rfl⟩ | h
    · exact .inr rfl
    · exact .inl h
  | opening b l =>
    simp only [Worker] at hw
    subst hw
    refine ⟨⟨.check b l, rfl, rfl, by simp [Early], .inr ⟨trivial, by simp [Early], rfl, l, (hi.thO j b l (.inl hj)).2⟩, by simp⟩, rfl, .inl rfl,
      .inr ⟨_, rfl, trivial⟩, ?_⟩
    intro c m h
    exact .inl (by simpa [GState.thread, GState.put, GState.log] using h)
  | check b l =>
    simp only [Worker] at hw
    subst hw
    simp only [GState.thread, GState.put]
    split
    · exact ⟨⟨.closing b l, rfl, rfl, by simp [Early], .inl rfl, by simp⟩, rfl, .inl rfl, .inl rfl, fun _ _ h => .inl h⟩
    · exact ⟨⟨.accept b l, rfl, rfl, by simp [Early], .inl rfl, by simp⟩, rfl, .inl rfl, .inl rfl, fun _ _ h => .inl h⟩
  | accept b l =>
    simp only [Worker] at hw
    subst hw
    simp only [GState.thread, GState.acceptAt, GState.put, GState.log]
    split
    · split
      · split
        · exact ⟨⟨.check b l, rfl, rfl, by simp [Early], .inl rfl, by simp⟩, rfl, .inl rfl, .inr ⟨_, rfl, trivial⟩,
            fun _ _ h => .inl (by simpa using h)⟩
        · exact ⟨⟨.accept b l, set_same hj, rfl, by simp [Early], .inl rfl, by simp⟩, rfl, .inl rfl, .inl rfl, fun _ _ h => .inl h⟩
      · exact ⟨⟨.closing b l, rfl, rfl, by simp [Early], .inl rfl, by simp⟩, rfl, .inl rfl, .inr ⟨_, rfl, trivial⟩,
            fun _ _ h => .inl (by simpa using h)⟩
    · exact ⟨⟨.closing b l, rfl, rfl, by simp [Early], .inl rfl, by simp⟩, rfl, .inl rfl, .inl rfl, fun _ _ h => .inl h⟩
  | closing b l =>
    exact ⟨⟨.done, rfl, trivial, by simp [Early], .inl rfl, by simp⟩, rfl, .inl rfl, .inr ⟨_, rfl, trivial⟩,
      fun _ _ h => .inl (by simpa [GState.thread, GState.put, GState.log] using h)⟩
  | done => exact ⟨⟨.done, set_same hj, trivial, by simp [Early], .inl rfl, by simp⟩, rfl, .inl rfl, .inl rfl, fun _ _ h => .inl h⟩
  | user u => exact absurd hw (by simp [Worker])
  | stopSet ok => exact absurd hw (by simp [Worker])
  | sweep ok => exact absurd hw (by simp [Worker])
  | startEval ok => exact absurd hw (by simp [Worker])
  | startLoop k rest ok => exact absurd hw (by simp [Worker])

/-- The goroutines and records of a server with one endpoint. -/
structure Common (a : String) (s : GState) : Prop where
  work : ∀ (i : Nat) t, 0 < i → s.threads[i]? = some t → Worker s a t
  recs : s.recs = [] ∨ ∃ l, s.recs = [⟨"tcp", a, l⟩]
  rne : ∀ b l, .recorded b l ∈ s.trace → s.recs ≠ []
  recording : Recording s

/-- A listener is open at `a` or a goroutine is about to open one; or something has failed. -/
def Coming (s : GState) (a : String) : Prop :=
  (∃ i t, 0 < i ∧ s.threads[i]? = some t ∧ ((∃ k, t = .spawned k) ∨ t = .listen a) ∧ ∀ b, s.bound b = none) ∨
  (∃ i l, Alive s i a l) ∨ ¬ NothingFailed s.trace

/-- At most one listening call is at its beginning. -/
def OneEarly (s : GState) : Prop := ∀ (i j : Nat) t t', s.threads[i]? = some t → s.threads[j]? = some t' → Early t → Early t' → i = j

def NoneEarly (s : GState) : Prop := ∀ (i : Nat) t, s.threads[i]? = some t → ¬ Early t

/-- Nothing but a `Stop` that returned nil without a listening call since. -/
abbrev JustStopped (t : List Ev) : Prop := Since NoCall (.stopRet true) t

abbrev JustStarted (t : List Ev) : Prop := Since (· ≠ .stopping) (.startRet true) t

/-- Where the controlling goroutine is. -/
inductive Phase (a : String) (s : GState) : Prop
  | init (u : User) (h0 : s.threads = [.user (.serve a u)]) (hu : Alternates true u) (hs : s.state = .stopped) (hr : s.recs = [])
      (hb : ∀ b, s.bound b = none) (ht : ∀ e ∈ s.trace, ∃ b, e = .refused b)
  | up (t : Thread) (h0 : s.threads[0]? = some t)
      (hu : (∃ u, t = .user u ∧ Alternates true u) ∨ ∃ k ok, t = .startLoop k [] ok ∧ Alternates true ok)
      (h1 : OneEarly s) (h2 : s.state = .running → NoneEarly s ∧ s.recs ≠ []) (hc : Coming s a) (ht : ¬ JustStopped s.trace)
  | stopping (ok : User) (h0 : s.threads[0]? = some (.stopSet ok)) (hu : Alternates false ok) (hs : s.state = .running) (he : NoneEarly s)
      (hr : s.recs ≠ []) (hc : Coming s a) (ht : ¬ JustStopped s.trace)
  | sweeping (ok : User) (h0 : s.threads[0]? = some (.sweep ok)) (hu : Alternates false ok) (hs : s.state = .stopped) (he : NoneEarly s)
      (hr : s.recs ≠ []) (ht : ¬ JustStopped s.trace) (ht' : ¬ JustStarted s.trace)
  | down (t : Thread) (h0 : s.threads[0]? = some t)
      (hu : (∃ u, t = .user u ∧ Alternates false u) ∨ (∃ ok, t = .startEval ok ∧ Alternates true ok) ∨
        ∃ k ok, t = .startLoop k [a] ok ∧ Alternates true ok)
      (hs : s.state = .stopped) (he : NoneEarly s) (hr : s.recs ≠ []) (hb : ∀ b, s.bound b = none) (ht' : ¬ JustStarted s.trace)

theorem common_work {s s' : GState} {a : String} {j : Nat} {t : Thread} (h : Common a s) (hst : WorkStep s s' a j t) (hrec : Recording s') : Common a s' := by
  obtain ⟨⟨t', ht', hw, -, -, -⟩, hv, hr, htr, hrc⟩ := hst
  have hWk : ∀ t, Worker s' a t ↔ Worker s a t := by
    intro t
    cases t <;> simp [Worker, hv]
  have hfill : ∀ l, fillProperty "tcp" a l s.recs = [⟨"tcp", a, l⟩] := by
    intro l
    rcases h.recs with h0 | ⟨m, h0⟩
    · simp [h0, fillProperty, replaceListener]
    · simp [h0, fillProperty, replaceListener]
  refine ⟨?_, ?_, ?_, hrec⟩
  · intro i t hi0 hi
    rw [hWk]
    rw [ht', List.getElem?_set] at hi
    split at hi
    · split at hi
      · cases hi; exact hw
      · cases hi
    · exact h.work i t hi0 hi
  · rcases hr with hr | ⟨l, hr⟩
    · rw [hr]; exact h.recs
    · rw [hr, hfill]; exact .inr ⟨l, rfl⟩
  · intro b l hbl
    rcases hrc b l hbl with h1 | h1
    · rcases hr with hr | ⟨m, hr⟩
      · rw [hr]; exact h.rne b l h1
      · rw [hr, hfill]; simp
    · rw [h1, hfill]; simp

theorem alive_addr {s : GState} {a b : String} {i l : Nat} (h : Common a s) (hA : Alive s i b l) (hi : 0 < i) : b = a := by
  rcases hA.2 with h1 | h1 | ⟨h1 | h1, -⟩ <;> exact h.work i _ hi h1

theorem coming_mono {s s' : GState} (h : ∀ e, e ∈ s.trace → e ∈ s'.trace) (hn : ¬ NothingFailed s.trace) : ¬ NothingFailed s'.trace :=
  fun hf => hn ⟨fun i hi => hf.1 i (h _ hi), fun l hl => hf.2 l (h _ hl)⟩

theorem coming_work {s : GState} {a : String} {j : Nat} {t : Thread} {works : Bool} (hinv : Inv s) (hj : s.threads[j]? = some t)
    (hst : WorkStep s (s.thread j works t) a j t) (hcom' : Common a (s.thread j works t)) (h : Coming s a)
    (hj0 : 0 < j) (h0 : ∃ t, s.threads[0]? = some t ∧ Ctl t) : Coming (s.thread j works t) a := by
  have hstep : s.step (.run j works) = s.thread j works t := by simp only [GState.step, hj]
  have hmono : ∀ e, e ∈ s.trace → e ∈ (s.thread j works t).trace := by
    intro e he
    rcases hst.tr with h1 | ⟨e', h1, -⟩
    · rw [h1]; exact he
    · rw [h1]; exact List.mem_cons_of_mem _ he
  rcases h with ⟨i, ti, hi0, hi, hk, hb⟩ | ⟨i, l, hA⟩ | hF
  · -- a listening call at its beginning
    obtain ⟨t', ht', -, -, -, hbeg⟩ := hst.thr
    by_cases hnew : ∃ b l, (s.thread j works t).bound b = some l
    · obtain ⟨b, l, hbl⟩ := hnew
      rcases bound_step s (.run j works) b l (by rw [hstep]; exact hbl) with h1 | ⟨i', h1⟩
      · rw [hb] at h1; cases h1
      · have hA := alive_new s _ i' b l h1
        rw [hstep] at hA
        have hi' : 0 < i' := by
          rcases Nat.eq_zero_or_pos i' with rfl | h
          · exfalso
            obtain ⟨t0, h0, hc⟩ := h0
            have h0' : (s.thread j works t).threads[0]? = some t0 := by
              rw [ht', List.getElem?_set, if_neg (by omega)]
              exact h0
            rcases hA.2 with h1 | h1 | ⟨h1 | h1, -⟩ <;> rw [h0'] at h1 <;> cases h1 <;> exact hc
          · exact h
        have := alive_addr hcom' hA hi'
        subst this
        exact .inr (.inl ⟨i', l, hA⟩)
    · have hb' : ∀ b, (s.thread j works t).bound b = none := by
        intro b
        rw [Option.eq_none_iff_forall_ne_some]
        intro l hl
        exact hnew ⟨b, l, hl⟩
      by_cases hij : i = j
      · subst hij
        rw [hj] at hi
        cases hi
        rcases hbeg hk with ⟨rfl, -⟩ | ⟨l, -, hl⟩ | hf
        · refine .inl ⟨i, .listen a, hi0, ?_, .inr rfl, hb'⟩
          rw [ht', List.getElem?_set, if_pos rfl, if_pos (List.getElem?_eq_some_iff.1 hj).1]
        · rw [hb'] at hl; cases hl
        · exact .inr (.inr (fun hf' => hf'.1 i hf))
      · refine .inl ⟨i, ti, hi0, ?_, hk, hb'⟩
        rw [ht', List.getElem?_set, if_neg (fun h => hij h.symm)]
        exact hi
  · by_cases hf : .acceptFailed l ∈ (s.thread j works t).trace
    · exact .inr (.inr (fun h => h.2 l hf))
    · refine .inr (.inl ⟨i, l, ?_⟩)
      have := alive_step hinv (.run j works) i a l hA (by
        rw [hstep]
        rcases hst.tr with h1 | ⟨e, h1, h2⟩
        · exact ⟨[], h1, by simp⟩
        · refine ⟨[e], h1, ?_⟩
          intro e' he'
          rw [List.mem_singleton.1 he']
          refine ⟨?_, ?_, ?_⟩
          · rintro rfl; exact h2
          · rintro rfl; exact h2
          · rintro rfl; exact hf (by rw [h1]; simp))
      rwa [hstep] at this
  · exact .inr (.inr (coming_mono hmono hF))

theorem oneEarly_set {s s' : GState} {j : Nat} {t t' : Thread} (h : OneEarly s) (hj : s.threads[j]? = some t) (ht : s'.threads = s.threads.set j t')
    (he : Early t' → Early t) : OneEarly s' := by
  intro i k x y hi hk hx hy
  rw [ht, List.getElem?_set] at hi hk
  have hjl := (List.getElem?_eq_some_iff.1 hj).1
  rw [if_pos hjl] at hi hk
  split at hi <;> split at hk
  · omega
  · next h1 h2 => cases hi; subst h1; exact h j k t y hj hk (he hx) hy
  · next h1 h2 => cases hk; subst h2; exact h i j x t hi hj hx (he hy)
  · exact h i k x y hi hk hx hy

theorem noneEarly_set {s s' : GState} {j : Nat} {t t' : Thread} (h : NoneEarly s) (hj : s.threads[j]? = some t) (ht : s'.threads = s.threads.set j t')
    (he : Early t' → Early t) : NoneEarly s' := by
  intro i x hi hx
  rw [ht, List.getElem?_set] at hi
  have hjl := (List.getElem?_eq_some_iff.1 hj).1
  rw [if_pos hjl] at hi
  split at hi
  · cases hi; exact h j t hj (he hx)
  · exact h i x hi hx

theorem not_since_cons {P : Ev → Prop} {x e : Ev} {t : List Ev} (h : ¬ Since P x t) (he : e ≠ x) : ¬ Since P x (e :: t) := by
  rintro (h1 | h1)
  · exact he h1
  · exact h h1.2

theorem not_since_bad {P : Ev → Prop} {x e : Ev} {t : List Ev} (h : ¬ P e) (he : e ≠ x) : ¬ Since P x (e :: t) := by
  rintro (h1 | h1)
  · exact he h1
  · exact h h1.1

theorem not_since_work {s s' : GState} {a : String} {j : Nat} {t : Thread} (hst : WorkStep s s' a j t) {P : Ev → Prop} {x : Ev} (hx : ¬ WorkEv x)
    (h : ¬ Since P x s.trace) : ¬ Since P x s'.trace := by
  rcases hst.tr with h1 | ⟨e, h1, h2⟩
  · rwa [h1]
  · rw [h1]
    refine not_since_cons h ?_
    rintro rfl
    exact hx h2

theorem phase_ctl {a : String} {s : GState} (h : Phase a s) : ∃ t, s.threads[0]? = some t ∧ Ctl t := by
  cases h with
  | init u h0 => exact ⟨.user (.serve a u), by rw [h0]; rfl, trivial⟩
  | up t h0 hu => rcases hu with ⟨u, rfl, -⟩ | ⟨k, ok, rfl, -⟩ <;> exact ⟨_, h0, trivial⟩
  | stopping ok h0 => exact ⟨_, h0, trivial⟩
  | sweeping ok h0 => exact ⟨_, h0, trivial⟩
  | down t h0 hu => rcases hu with ⟨u, rfl, -⟩ | ⟨ok, rfl, -⟩ | ⟨k, ok, rfl, -⟩ <;> exact ⟨_, h0, trivial⟩

theorem recs_ne {a : String} {s s' : GState} {j : Nat} {t : Thread} (hcom : Common a s) (hst : WorkStep s s' a j t) (h : s.recs ≠ []) :
    s'.recs ≠ [] := by
  rcases hst.recs with h1 | ⟨l, h1⟩
  · rwa [h1]
  · rw [h1]
    rcases hcom.recs with h0 | ⟨m, h0⟩ <;> simp [h0, fillProperty, replaceListener]

theorem phase_work {s : GState} {a : String} {j : Nat} {t : Thread} {works : Bool} (hinv : Inv s) (hcom : Common a s) (hp : Phase a s)
    (hj0 : 0 < j) (hj : s.threads[j]? = some t) : Common a (s.thread j works t) ∧ Phase a (s.thread j works t) := by
  have hw : Worker s a t := hcom.work j t hj0 hj
  have hst := work_step hinv hj hw works
  have hstep : s.step (.run j works) = s.thread j works t := by simp only [GState.step, hj]
  have hcom' : Common a (s.thread j works t) :=
    common_work hcom hst (by rw [← hstep]; exact recording_step hcom.recording _)
  refine ⟨hcom', ?_⟩
  have hcoming := fun hc => coming_work hinv hj hst hcom' hc hj0 (phase_ctl hp)
  obtain ⟨t', ht', -, hee, hstate, -⟩ := hst.thr
  have hnum : ∀ t0, s.threads[0]? = some t0 → (s.thread j works t).threads[0]? = some t0 := by
    intro t0 h0
    rw [ht', List.getElem?_set, if_neg (by omega)]
    exact h0
  cases hp with
  | init u h0 =>
    rw [h0] at hj
    cases j with
    | zero => omega
    | succ j => simp at hj
  | up t0 h0 hu h1 h2 hc ht =>
    refine .up t0 (hnum t0 h0) hu (oneEarly_set h1 hj ht' hee) ?_ (hcoming hc) (not_since_work hst (by simp [WorkEv]) ht)
    intro hr
    rcases hstate with h3 | ⟨h3, h4, -, l, h5⟩
    · rw [h3] at hr
      exact ⟨noneEarly_set (h2 hr).1 hj ht' hee, recs_ne hcom hst (h2 hr).2⟩
    · refine ⟨?_, recs_ne hcom hst (hcom.rne _ _ h5)⟩
      intro i x hi hx
      rw [ht', List.getElem?_set] at hi
      split at hi
      · split at hi
        · cases hi; exact h4 hx
        · cases hi
      · next hne => exact hne (h1 j i t x hj hi h3 hx)
  | stopping ok h0 hu hs he hr hc ht =>
    refine .stopping ok (hnum _ h0) hu ?_ (noneEarly_set he hj ht' hee) (recs_ne hcom hst hr) (hcoming hc) (not_since_work hst (by simp [WorkEv]) ht)
    rcases hstate with h3 | ⟨-, -, h3, -⟩
    · rw [h3, hs]
    · exact h3
  | sweeping ok h0 hu hs he hr ht htt =>
    refine .sweeping ok (hnum _ h0) hu ?_ (noneEarly_set he hj ht' hee) (recs_ne hcom hst hr) (not_since_work hst (by simp [WorkEv]) ht)
      (not_since_work hst (by simp [WorkEv]) htt)
    rcases hstate with h3 | ⟨h3, -⟩
    · rw [h3, hs]
    · exact absurd h3 (he j t hj)
  | down t0 h0 hu hs he hr hb htt =>
    refine .down t0 (hnum _ h0) hu ?_ (noneEarly_set he hj ht' hee) (recs_ne hcom hst hr) ?_ (not_since_work hst (by simp [WorkEv]) htt)
    · rcases hstate with h3 | ⟨h3, -⟩
      · rw [h3, hs]
      · exact absurd h3 (he j t hj)
    · intro b
      rw [Option.eq_none_iff_forall_ne_some]
      intro l hl
      rcases bound_step s (.run j works) b l (by rw [hstep]; exact hl) with h1 | ⟨i', h1⟩
      · rw [hb] at h1; cases h1
      · have hA := alive_new s _ i' b l h1
        rw [hstep] at hA
        have hne := noneEarly_set he hj ht' hee
        rcases hA.2 with h2 | h2 | ⟨-, h2⟩
        · exact hne _ _ h2 trivial
        · exact hne _ _ h2 trivial
        · rcases hstate with h3 | ⟨h3, -⟩
          · rw [h3, hs] at h2; cases h2
          · exact he j t hj h3

theorem phase_connect {s : GState} {a b : String} (hcom : Common a s) (hp : Phase a s) : Common a (s.connect b) ∧ Phase a (s.connect b) := by
  have hrec := recording_step hcom.recording (.connect b)
  simp only [GState.step] at hrec
  have hthr : (s.connect b).threads = s.threads := by simp only [GState.connect]; split <;> rfl
  have hst : (s.connect b).state = s.state := by simp only [GState.connect]; split <;> rfl
  have hbd : (s.connect b).bound = s.bound := by simp only [GState.connect]; split <;> rfl
  have hrc : (s.connect b).recs = s.recs := by simp only [GState.connect]; split <;> rfl
  have hv : (s.connect b).vars = s.vars := by simp only [GState.connect]; split <;> rfl
  have htr : ∃ e, (s.connect b).trace = e :: s.trace ∧ ((s.bound b = none ∧ e = .refused b) ∨ ∃ l, e = .connected b l) := by
    simp only [GState.connect]
    split
    · exact ⟨_, rfl, .inr ⟨_, rfl⟩⟩
    · next h => exact ⟨_, rfl, .inl ⟨h, rfl⟩⟩
  obtain ⟨e, htr, hev⟩ := htr
  have hmem : ∀ x : Ev, (∀ c, x ≠ .refused c) → (∀ c l, x ≠ .connected c l) → (x ∈ (s.connect b).trace ↔ x ∈ s.trace) := by
    intro x h1 h2
    rw [htr, List.mem_cons]
    constructor
    · rintro (rfl | h)
      · rcases hev with ⟨-, h⟩ | ⟨l, h⟩
        · exact absurd h (h1 _)
        · exact absurd h (h2 _ _)
      · exact h
    · exact .inr
  have hne : ∀ x : Ev, (∀ c, x ≠ .refused c) → (∀ c l, x ≠ .connected c l) → e ≠ x := by
    rintro x h1 h2 rfl
    rcases hev with ⟨-, h⟩ | ⟨l, h⟩
    · exact h1 _ h
    · exact h2 _ _ h
  have hWk : ∀ t, Worker (s.connect b) a t ↔ Worker s a t := by
    intro t
    cases t <;> simp [Worker, hv]
  have hcoming : Coming s a → Coming (s.connect b) a := by
    rintro (h | ⟨i, l, h⟩ | h)
    · exact .inl (by rw [hthr, hbd]; exact h)
    · exact .inr (.inl ⟨i, l, by unfold Alive at *; rw [hthr, hbd, hst]; exact h⟩)
    · exact .inr (.inr (coming_mono (fun x hx => by rw [htr]; exact List.mem_cons_of_mem _ hx) h))
  have hjs : ¬ JustStopped s.trace → ¬ JustStopped (s.connect b).trace := fun h => by
    rw [htr]; exact not_since_cons h (hne _ (by simp) (by simp))
  have hjt : ¬ JustStarted s.trace → ¬ JustStarted (s.connect b).trace := fun h => by
    rw [htr]; exact not_since_cons h (hne _ (by simp) (by simp))
  have h1e : OneEarly s → OneEarly (s.connect b) := fun h => by unfold OneEarly; rw [hthr]; exact h
  have h0e : NoneEarly s → NoneEarly (s.connect b) := fun h => by unfold NoneEarly; rw [hthr]; exact h
  refine ⟨⟨?_, by rw [hrc]; exact hcom.recs, ?_, hrec⟩, ?_⟩
  · intro i t hi0 hi
    rw [hWk]
    exact hcom.work i t hi0 (by rw [← hthr]; exact hi)
  · intro c l h
    rw [hrc]
    exact hcom.rne c l ((hmem _ (by simp) (by simp)).1 h)
  · cases hp with
    | init u h0 hu hs hr hb ht =>
      refine .init u (by rw [hthr]; exact h0) hu (by rw [hst]; exact hs) (by rw [hrc]; exact hr) (by rw [hbd]; exact hb) ?_
      intro x hx
      have : (s.connect b).trace = .refused b :: s.trace := by simp [GState.connect, hb b, GState.log]
      rw [this, List.mem_cons] at hx
      rcases hx with rfl | hx
      · exact ⟨b, rfl⟩
      · exact ht x hx
    | up t h0 hu h1 h2 hc ht =>
      exact .up t (by rw [hthr]; exact h0) hu (h1e h1) (by rw [hst, hrc]; exact fun h => ⟨h0e (h2 h).1, (h2 h).2⟩) (hcoming hc) (hjs ht)
    | stopping ok h0 hu hs he hr hc ht =>
      exact .stopping ok (by rw [hthr]; exact h0) hu (by rw [hst]; exact hs) (h0e he) (by rw [hrc]; exact hr) (hcoming hc) (hjs ht)
    | sweeping ok h0 hu hs he hr ht ht' =>
      exact .sweeping ok (by rw [hthr]; exact h0) hu (by rw [hst]; exact hs) (h0e he) (by rw [hrc]; exact hr) (hjs ht) (hjt ht')
    | down t h0 hu hs he hr hb ht' =>
      exact .down t (by rw [hthr]; exact h0) hu (by rw [hst]; exact hs) (h0e he) (by rw [hrc]; exact hr) (by rw [hbd]; exact hb) (hjt ht')

/-- What a step of the user code does to the other goroutines and to the records. -/
theorem common_ctl {s s' : GState} {a : String} {t : Thread} (hcom : Common a s) (hthr : s'.threads = s.threads.set 0 t) (hv : s'.vars = s.vars)
    (hr : s'.recs = s.recs) (ht : ∀ b l, .recorded b l ∈ s'.trace → .recorded b l ∈ s.trace) (hrec : Recording s') : Common a s' := by
  refine ⟨?_, by rw [hr]; exact hcom.recs, fun b l h => by rw [hr]; exact hcom.rne b l (ht b l h), hrec⟩
  intro i t hi0 hi
  have hWk : Worker s' a t ↔ Worker s a t := by cases t <;> simp [Worker, hv]
  rw [hWk]
  rw [hthr, List.getElem?_set, if_neg (by omega)] at hi
  exact hcom.work i t hi0 hi

theorem coming_ctl {s s' : GState} {a : String} {t0 t : Thread} (h : Coming s a) (h0 : s.threads[0]? = some t0) (hc0 : Ctl t0)
    (hthr : s'.threads = s.threads.set 0 t) (hb : s'.bound = s.bound) (hs : s'.state = s.state)
    (ht : ∀ e, e ∈ s.trace → e ∈ s'.trace) : Coming s' a := by
  rcases h with ⟨i, ti, hi0, hi, hk, hn⟩ | ⟨i, l, hA⟩ | hF
  · refine .inl ⟨i, ti, hi0, ?_, hk, by rw [hb]; exact hn⟩
    rw [hthr, List.getElem?_set, if_neg (by omega)]; exact hi
  · refine .inr (.inl ⟨i, l, ?_⟩)
    have hi : i ≠ 0 := by
      rintro rfl
      rcases hA.2 with h1 | h1 | ⟨h1 | h1, -⟩ <;> rw [h0] at h1 <;> cases h1 <;> exact hc0
    unfold Alive at *
    rw [hb, hs, hthr, List.getElem?_set, if_neg (by omega)]
    exact hA
  · exact .inr (.inr (coming_mono ht hF))

theorem phase_user {s : GState} {a : String} {t : Thread} {works : Bool} (hinv : Inv s) (hcom : Common a s) (hp : Phase a s)
    (h0' : s.threads[0]? = some t) : Common a (s.thread 0 works t) ∧ Phase a (s.thread 0 works t) := by
  have hrec := recording_step hcom.recording (.run 0 works)
  simp only [GState.step, h0'] at hrec
  have hl0 := (List.getElem?_eq_some_iff.1 h0').1
  have hset : ∀ t, (s.threads.set 0 t)[0]? = some t := fun t => by
    rw [List.getElem?_set, if_pos rfl, if_pos hl0]
  have h1 : ∀ {s' : GState} {t' : Thread}, OneEarly s → s'.threads = s.threads.set 0 t' → ¬ Early t' → OneEarly s' :=
    fun h ht he => oneEarly_set h h0' ht (fun h => absurd h he)
  have h2 : ∀ {s' : GState} {t' : Thread}, NoneEarly s → s'.threads = s.threads.set 0 t' → ¬ Early t' → NoneEarly s' :=
    fun h ht he => noneEarly_set h h0' ht (fun h => absurd h he)
  cases hp with
  | init u h0 hu hs hr hb ht =>
    have : t = .user (.serve a u) := by rw [h0] at h0'; cases h0'; rfl
    subst this
    have hthr : (s.thread 0 works (.user (.serve a u))).threads = [.user u, .listen a] := by
      simp [GState.thread, GState.call, GState.put, GState.spawn, GState.log, h0]
    have htr : (s.thread 0 works (.user (.serve a u))).trace = .calling 1 :: s.trace := by
      simp [GState.thread, GState.call, GState.put, GState.spawn, GState.log, h0]
    refine ⟨⟨?_, .inl hr, ?_, hrec⟩, ?_⟩
    · intro i t hi0 hi
      rw [hthr] at hi
      match i, hi with
      | 1, hi => simp only [List.getElem?_cons_succ, List.getElem?_cons_zero, Option.some.injEq] at hi; subst hi; rfl
      | i + 2, hi => simp at hi
    · intro b l hbl
      rw [htr, List.mem_cons] at hbl
      rcases hbl with h | h
      · cases h
      · obtain ⟨c, hc⟩ := ht _ h; cases hc
    · refine .up (.user u) (by rw [hthr]; rfl) (.inl ⟨u, rfl, hu⟩) ?_ ?_ ?_ ?_
      · intro i j x y hi hj hx hy
        rw [hthr] at hi hj
        have aux : ∀ (i : Nat) x, [Thread.user u, .listen a][i]? = some x → Early x → i = 1 := by
          intro i x hi hx
          match i, hi with
          | 0, hi => simp only [List.getElem?_cons_zero, Option.some.injEq] at hi; subst hi; exact absurd hx (by simp [Early])
          | 1, hi => rfl
          | i + 2, hi => simp at hi
        rw [aux i x hi hx, aux j y hj hy]
      · intro hr'
        have : (s.thread 0 works (.user (.serve a u))).state = s.state := rfl
        rw [this, hs] at hr'; cases hr'
      · exact .inl ⟨1, .listen a, by omega, by rw [hthr]; rfl, .inr rfl, hb⟩
      · rw [htr]
        exact not_since_bad (by simp [NoCall]) (by simp)
  | up t0 h0 hu hone hrun hc ht =>
    rw [h0] at h0'
    cases h0'
    rcases hu with ⟨u, rfl, hu⟩ | ⟨k, ok, rfl, hu⟩
    · cases u with
      | ret => exact ⟨hcom, .up _ h0 (.inl ⟨_, rfl, hu⟩) hone hrun hc ht⟩
      | serve b k => exact absurd hu (by simp [Alternates])
      | stop ok err =>
        simp only [Alternates] at hu
        simp only [GState.thread, GState.call] at hrec ⊢
        split at hrec
        · next hs =>
          rw [if_pos hs]
          refine ⟨common_ctl hcom rfl rfl rfl (by simp [GState.put, GState.log]) hrec, ?_⟩
          refine .up (.user err) (hset _) (.inl ⟨_, rfl, hu.2⟩) (h1 hone rfl (by simp [Early])) ?_
            (coming_ctl hc h0 trivial rfl rfl rfl (fun _ h => List.mem_cons_of_mem _ h)) (not_since_cons ht (by simp))
          intro hr
          have : s.state = .running := hr
          rw [hs] at this; cases this
        · next hs =>
          rw [if_neg hs]
          have hs' : s.state = .running := by cases h : s.state <;> simp_all
          refine ⟨common_ctl hcom rfl rfl rfl (fun _ _ h => h) hrec, ?_⟩
          exact .stopping ok (hset _) hu.1 hs' (h2 (hrun hs').1 rfl (by simp [Early])) (hrun hs').2
            (coming_ctl hc h0 trivial rfl rfl rfl (fun _ h => h)) ht
      | start ok err => exact absurd hu (by simp [Alternates])
    · refine ⟨common_ctl hcom rfl rfl rfl (by simp [GState.thread, GState.put, GState.log]) hrec, ?_⟩
      exact .up (.user ok) (hset _) (.inl ⟨_, rfl, hu⟩) (h1 hone rfl (by simp [Early]))
        (fun hr => ⟨h2 (hrun hr).1 rfl (by simp [Early]), (hrun hr).2⟩)
        (coming_ctl hc h0 trivial rfl rfl rfl (by simp +contextual [GState.thread, GState.put, GState.log])) (not_since_cons ht (by simp))
  | stopping ok h0 hu hs he hr hc ht =>
    rw [h0] at h0'
    cases h0'
    refine ⟨common_ctl hcom rfl rfl rfl (by simp [GState.thread, GState.put, GState.log]) hrec, ?_⟩
    exact .sweeping ok (hset _) hu rfl (h2 he rfl (by simp [Early])) hr (not_since_cons ht (by simp)) (not_since_bad (by simp) (by simp))
  | sweeping ok h0 hu hs he hr ht ht' =>
    rw [h0] at h0'
    cases h0'
    refine ⟨common_ctl hcom rfl rfl rfl (by simp [GState.thread, GState.put, GState.log]) hrec, ?_⟩
    refine .down (.user ok) (hset _) (.inl ⟨_, rfl, hu⟩) hs (h2 he rfl (by simp [Early])) hr ?_
      (not_since_cons (not_since_cons ht' (by simp)) (by simp))
    intro b
    refine swept_none hinv b (fun i l hl => ?_)
    rcases hcom.recording i b l hl with h | h
    · exact h
    · exact absurd trivial (he i _ h)
  | down t0 h0 hu hs he hr hb ht' =>
    rw [h0] at h0'
    cases h0'
    rcases hu with ⟨u, rfl, hu⟩ | ⟨ok, rfl, hu⟩ | ⟨k, ok, rfl, hu⟩
    · cases u with
      | ret => exact ⟨hcom, .down _ h0 (.inl ⟨_, rfl, hu⟩) hs he hr hb ht'⟩
      | serve b k => exact absurd hu (by simp [Alternates])
      | stop ok err =>
        simp only [Alternates] at hu
        simp only [GState.thread, GState.call, if_pos hs] at hrec ⊢
        refine ⟨common_ctl hcom rfl rfl rfl (by simp [GState.put, GState.log]) hrec, ?_⟩
        exact .down _ (hset _) (.inl ⟨_, rfl, hu⟩) hs (h2 he rfl (by simp [Early])) hr hb (not_since_cons ht' (by simp))
      | start ok err =>
        simp only [Alternates] at hu
        simp only [GState.thread, GState.call, if_neg (show s.state ≠ .running by rw [hs]; simp)] at hrec ⊢
        refine ⟨common_ctl hcom rfl rfl rfl (fun _ _ h => h) hrec, ?_⟩
        exact .down _ (hset _) (.inr (.inl ⟨_, rfl, hu⟩)) hs (h2 he rfl (by simp [Early])) hr hb ht'
    · obtain ⟨l, hl⟩ := hcom.recs.resolve_left hr
      have heq : s.thread 0 works (.startEval ok) = { s with starts := s.starts + 1 }.put 0 (.startLoop s.starts [a] ok) := by
        simp only [GState.thread, hl, List.map_cons, List.map_nil]
      rw [heq] at hrec ⊢
      refine ⟨common_ctl hcom rfl rfl rfl (fun _ _ h => h) hrec, ?_⟩
      exact .down _ (hset _) (.inr (.inr ⟨_, _, rfl, hu⟩)) hs (h2 he rfl (by simp [Early])) hr hb ht'
    · have hthr : (s.thread 0 works (.startLoop k [a] ok)).threads = s.threads.set 0 (.startLoop k [] ok) ++ [.spawned k] := rfl
      have htr : (s.thread 0 works (.startLoop k [a] ok)).trace = .calling (s.threads.set 0 (.startLoop k [] ok)).length :: s.trace := rfl
      have hnew : ∀ (i : Nat) t, (s.thread 0 works (.startLoop k [a] ok)).threads[i]? = some t →
          (i = 0 ∧ t = .startLoop k [] ok) ∨ (0 < i ∧ s.threads[i]? = some t) ∨ (i = s.threads.length ∧ t = .spawned k) := by
        intro i t hi
        rw [hthr, List.getElem?_append] at hi
        split at hi
        · rw [List.getElem?_set] at hi
          split at hi
          · next h => subst h; cases hi; exact .inl ⟨rfl, rfl⟩
          · exact .inr (.inl ⟨by omega, hi⟩)
        · next hlt =>
          rw [List.length_set] at hi hlt
          match h : i - s.threads.length, hi with
          | 0, hi => simp only [List.getElem?_cons_zero, Option.some.injEq] at hi; exact .inr (.inr ⟨by omega, hi.symm⟩)
          | n + 1, hi => simp at hi
      refine ⟨⟨?_, hcom.recs, ?_, hrec⟩, ?_⟩
      · intro i t hi0 hi
        rcases hnew i t hi with ⟨h, -⟩ | ⟨-, h⟩ | ⟨-, rfl⟩
        · omega
        · have := hcom.work i t hi0 h
          cases t <;> try exact this
          next k' =>
            simp only [Worker, GState.thread, GState.spawn, GState.put, GState.log] at this ⊢
            split
            · rfl
            · exact this
        · simp [Worker, GState.thread, GState.spawn, GState.put, GState.log]
      · intro b l hbl
        rw [htr, List.mem_cons] at hbl
        rcases hbl with h | h
        · cases h
        · exact hcom.rne b l h
      · refine .up (.startLoop k [] ok) ?_ (.inr ⟨_, _, rfl, hu⟩) ?_ ?_ ?_ ?_
        · rw [hthr, List.getElem?_append_left (by rw [List.length_set]; exact hl0)]; exact hset _
        · have aux : ∀ (i : Nat) x, (s.thread 0 works (.startLoop k [a] ok)).threads[i]? = some x → Early x → i = s.threads.length := by
            intro i x hi hx
            rcases hnew i x hi with ⟨-, rfl⟩ | ⟨-, h⟩ | ⟨h, -⟩
            · exact absurd hx (by simp [Early])
            · exact absurd hx (he i x h)
            · exact h
          intro i j x y hi hj hx hy
          rw [aux i x hi hx, aux j y hj hy]
        · intro hr'
          have : s.state = .running := hr'
          rw [hs] at this; cases this
        · refine .inl ⟨s.threads.length, .spawned k, hl0, ?_, .inl ⟨k, rfl⟩, hb⟩
          rw [hthr, List.getElem?_append_right (by rw [List.length_set]; exact Nat.le_refl _)]
          simp
        · rw [htr]
          exact not_since_bad (by simp [NoCall]) (by simp)

theorem phase_run (a : String) (u : User) (hu : Alternates true u) (ls : List Label) :
    Common a (run [.serve a u] ls) ∧ Phase a (run [.serve a u] ls) := by
  refine run_induction (P := fun s => Common a s ∧ Phase a s) [.serve a u] ?_ ?_ ls
  · refine ⟨⟨?_, .inl rfl, by simp [start], by simp [Recording, start]⟩, .init u rfl hu rfl rfl (fun _ => rfl) (by simp [start])⟩
    intro i t hi0 hi
    match i, hi with
    | i + 1, hi => simp [start] at hi
  · intro s lab hi h
    cases lab with
    | connect b => exact phase_connect h.1 h.2
    | run j works =>
      simp only [GState.step]
      split
      · next t hj =>
        rcases Nat.eq_zero_or_pos j with rfl | hj0
        · exact phase_user hi h.1 h.2 hj
        · exact phase_work hi h.1 h.2 hj0 hj
      · exact h

theorem mem_step {s : GState} (lab : Label) {e : Ev} (h : e ∈ s.trace) : e ∈ (s.step lab).trace := by
  rcases trace_step s lab with ht | ⟨x, ht, -⟩ | ⟨ht, -⟩
  · rw [ht]; exact h
  · rw [ht]; exact List.mem_cons_of_mem _ h
  · rw [ht]; exact List.mem_cons_of_mem _ (List.mem_cons_of_mem _ h)

/-- An open address is not listened at again. -/
theorem listen_free {s : GState} {a : String} (hcom : Common a s) (hp : Phase a s) (hf : NothingFailed s.trace) {j : Nat} {b : String}
    (hj : s.threads[j]? = some (.listen b)) : s.bound b = none := by
  have hj0 : 0 < j := by
    rcases Nat.eq_zero_or_pos j with rfl | h
    · obtain ⟨t, h0, hc⟩ := phase_ctl hp
      rw [hj] at h0; cases h0; exact absurd hc (by simp [Ctl])
    · exact h
  have hb : b = a := hcom.work j _ hj0 hj
  subst hb
  have key : OneEarly s → (s.state = .running → NoneEarly s) → Coming s b → s.bound b = none := by
    rintro h1 h2 (⟨i, t, -, hi, hk, hn⟩ | ⟨i, l, hA⟩ | hF)
    · exact hn b
    · exfalso
      rcases hA.2 with h | h | ⟨-, h⟩
      · have := h1 i j _ _ h hj trivial trivial
        subst this; rw [hj] at h; cases h
      · have := h1 i j _ _ h hj trivial trivial
        subst this; rw [hj] at h; cases h
      · exact h2 h j _ hj trivial
    · exact absurd hf hF
  cases hp with
  | init u h0 hu hs hr hb ht => exact hb b
  | up t h0 hu h1 h2 hc ht => exact key h1 (fun h => (h2 h).1) hc
  | stopping ok h0 hu hs he hr hc ht => exact absurd trivial (he j _ hj)
  | sweeping ok h0 hu hs he hr ht ht' => exact absurd trivial (he j _ hj)
  | down t h0 hu hs he hr hb ht' => exact hb b

/-- Where nothing fails by itself, nothing fails. -/
theorem nothingFailed_run (a : String) (u : User) (hu : Alternates true u) (ls : List Label) (hw : ∀ i, .run i false ∉ ls) :
    NothingFailed (run [.serve a u] ls).trace := by
  induction ls using List.reverseRecOn with
  | nil => exact ⟨by simp [run, start], by simp [run, start]⟩
  | append_singleton ls lab ih =>
    have ih := ih (fun i h => hw i (by simp [h]))
    obtain ⟨hcom, hp⟩ := phase_run a u hu ls
    have hrun : run [.serve a u] (ls ++ [lab]) = (run [.serve a u] ls).step lab := by simp [run]
    rw [hrun]
    generalize run [.serve a u] ls = s at *
    cases lab with
    | connect b =>
      simp only [GState.step, GState.connect]
      split <;> simpa [NothingFailed, GState.log] using ih
    | run j works =>
      have hworks : works = true := by
        cases works with
        | true => rfl
        | false => exact absurd (by simp) (hw j)
      subst hworks
      simp only [GState.step]
      split
      · next t hj =>
        cases t with
        | spawned k => simp only [GState.thread, GState.put]; split <;> exact ih
        | listen b =>
          have := listen_free hcom hp ih hj
          simp only [GState.thread, GState.listenAt, GState.put, GState.log, this]
          simpa [NothingFailed] using ih
        | check b l => simp only [GState.thread, GState.put]; split <;> exact ih
        | accept b l =>
          simp only [GState.thread, GState.acceptAt, GState.put, GState.log, if_true]
          split
          · split
            · simpa [NothingFailed] using ih
            · exact ih
          · exact ih
        | user u =>
          cases u with
          | stop ok err => simp only [GState.thread, GState.call, GState.put, GState.log]; split <;> simpa [NothingFailed] using ih
          | start ok err => simp only [GState.thread, GState.call, GState.put, GState.log]; split <;> simpa [NothingFailed] using ih
          | _ => simpa [GState.thread, GState.call, GState.put, GState.spawn, GState.log, NothingFailed] using ih
        | startLoop k rest ok => cases rest <;> simpa [GState.thread, GState.spawn, GState.put, GState.log, NothingFailed] using ih
        | _ => simpa [GState.thread, GState.put, GState.log, NothingFailed] using ih
      · exact ih

theorem step_at {s : GState} {i : Nat} {w : Bool} {t : Thread} (h : s.threads[i]? = some t) : s.step (.run i w) = s.thread i w t := by
  simp only [GState.step, h]

theorem get_set {ts : List Thread} {i : Nat} {t : Thread} (h : ts[i]? = some t) (t' : Thread) : (ts.set i t')[i]? = some t' := by
  rw [List.getElem?_set, if_pos rfl, if_pos (List.getElem?_eq_some_iff.1 h).1]

theorem listen_opens {s : GState} {i : Nat} {a : String} (h : s.threads[i]? = some (.listen a)) (hn : s.bound a = none) :
    (s.step (.run i true)).bound a = some s.n ∧ (s.step (.run i true)).threads[i]? = some (.record a s.n) := by
  rw [step_at h]
  simp only [GState.thread, GState.listenAt, hn, and_self, if_true, GState.put, GState.log]
  exact ⟨trivial, get_set h _⟩

/-- Two steps of the right goroutine, and the listener is open. -/
theorem coming_soon {s : GState} {a : String} (hinv : Inv s) (hinv' : ∀ lab, Inv (s.step lab)) (hcom : Common a s) (hc : Coming s a)
    (hf : NothingFailed s.trace) : ∃ m l, ((s.step (.run m true)).step (.run m true)).bound a = some l := by
  rcases hc with ⟨i, t, hi0, hi, hk, hn⟩ | ⟨i, l, hA⟩ | hF
  · rcases hk with ⟨k, rfl⟩ | rfl
    · have hv : s.vars k = some a := hcom.work i _ hi0 hi
      have h1 : s.step (.run i true) = s.put i (.listen a) := by
        rw [step_at hi]; simp only [GState.thread, hv]
      refine ⟨i, s.n, ?_⟩
      rw [h1]
      exact (listen_opens (s := s.put i (.listen a)) (get_set hi _) (hn a)).1
    · obtain ⟨h1, h2⟩ := listen_opens hi (hn a)
      refine ⟨i, s.n, ?_⟩
      rw [step_at h2]
      exact h1
  · have aux : ∀ s : GState, Inv s → Alive s i a l → Alive (s.step (.run i true)) i a l := by
      intro s hinv hA
      refine alive_step hinv _ i a l hA ?_
      rcases hA.2 with h | h | ⟨h | h, hr⟩
      · exact ⟨[.recorded a l], by rw [step_at h]; rfl, by simp [NoStop]⟩
      · exact ⟨[.opened i], by rw [step_at h]; rfl, by simp [NoStop]⟩
      · exact ⟨[], by rw [step_at h]; simp only [GState.thread, hr]; rfl, by simp⟩
      · rw [step_at h]
        simp only [GState.thread, GState.acceptAt, if_pos hA.1, if_true]
        split
        · exact ⟨[.served l], rfl, by simp [NoStop]⟩
        · exact ⟨[], rfl, by simp⟩
    exact ⟨i, l, (aux _ (hinv' _) (aux _ hinv hA)).1⟩
  · exact absurd hf hF

/-- A goroutine with an open listener accepts a waiting connection in at most four steps. -/
theorem alive_serves {s : GState} {i l : Nat} {a : String} (hA : Alive s i a l) (hb : 0 < s.backlog l) :
    ∃ n ≤ 4, ((List.replicate n (Label.run i true)).foldl GState.step s).trace.head? = some (.served l) := by
  have acc : ∀ s : GState, s.bound a = some l → s.threads[i]? = some (.accept a l) → 0 < s.backlog l →
      (s.step (.run i true)).trace.head? = some (.served l) := by
    intro s h1 h2 h3
    rw [step_at h2]
    simp only [GState.thread, GState.acceptAt, if_pos h1, if_true, if_pos h3]
    rfl
  have chk : ∀ s : GState, s.bound a = some l → s.threads[i]? = some (.check a l) → s.state = .running → 0 < s.backlog l →
      ((s.step (.run i true)).step (.run i true)).trace.head? = some (.served l) := by
    intro s h1 h2 h4 h3
    have h5 : s.step (.run i true) = s.put i (.accept a l) := by
      rw [step_at h2]; simp only [GState.thread, h4]; rfl
    rw [h5]
    exact acc _ h1 (get_set h2 _) h3
  have opn : ∀ s : GState, s.bound a = some l → s.threads[i]? = some (.opening a l) → 0 < s.backlog l →
      (((s.step (.run i true)).step (.run i true)).step (.run i true)).trace.head? = some (.served l) := by
    intro s h1 h2 h3
    rw [step_at h2]
    exact chk _ h1 (get_set h2 _) rfl h3
  rcases hA.2 with h | h | ⟨h | h, hr⟩
  · refine ⟨4, by omega, ?_⟩
    refine opn (s.step (.run i true)) ?_ ?_ ?_ <;> rw [step_at h]
    · exact hA.1
    · exact get_set h _
    · exact hb
  · exact ⟨3, by omega, opn s hA.1 h hb⟩
  · exact ⟨2, by omega, chk s hA.1 h hr hb⟩
  · exact ⟨1, by omega, acc s hA.1 h hb⟩

/-- Clients let in are accepted or waiting. -/
theorem waiting_step (s : GState) (lab : Label) (l : Nat) (h : s.backlog l + accepted l s.trace = letIn l s.trace) :
    (s.step lab).backlog l + accepted l (s.step lab).trace = letIn l (s.step lab).trace := by
  have hput : ∀ (i : Nat) (t : Thread), (s.put i t).backlog = s.backlog ∧ (s.put i t).trace = s.trace := fun _ _ => ⟨rfl, rfl⟩
  cases lab with
  | connect b =>
    simp only [GState.step, GState.connect]
    split
    · next l' hb =>
      by_cases hl : l = l'
      · subst hl; simp [GState.log, accepted, letIn] at h ⊢; omega
      · have : (l' == l) = false := by simpa using fun h => hl h.symm
        simp [GState.log, accepted, letIn, hl, this] at h ⊢; exact h
    · simpa [GState.log, accepted, letIn] using h
  | run j works =>
    simp only [GState.step]
    split
    · next t hj =>
      cases t with
      | accept b l' =>
        simp only [GState.thread, GState.acceptAt]
        split
        · split
          · split
            · next hb =>
              by_cases hl : l = l'
              · subst hl; simp [GState.log, GState.put, accepted, letIn] at h ⊢; omega
              · have : ¬ l' = l := fun h => hl h.symm
                simp [GState.log, GState.put, accepted, letIn, hl, this] at h ⊢; exact h
            · exact h
          · simpa [GState.log, GState.put, accepted, letIn] using h
        · exact h
      | user u =>
        cases u <;> simp only [GState.thread, GState.call] <;> (try split) <;>
          simpa [GState.log, GState.put, GState.spawn, accepted, letIn] using h
      | startLoop k rest ok => cases rest <;> simpa [GState.thread, GState.log, GState.put, GState.spawn, accepted, letIn] using h
      | _ => simp only [GState.thread, GState.listenAt] <;> (try split) <;> simpa [GState.log, GState.put, accepted, letIn] using h
    · exact h

theorem waiting_run (users : List User) (ls : List Label) (l : Nat) :
    (run users ls).backlog l + accepted l (run users ls).trace = letIn l (run users ls).trace := by
  refine run_induction (P := fun s => s.backlog l + accepted l s.trace = letIn l s.trace) users rfl ?_ ls
  intro s lab _ h
  exact waiting_step s lab l h

/-- A goroutine with an open listener accepts all connections that are waiting. -/
theorem alive_serves_all (i l : Nat) (a : String) : ∀ (n : Nat) (s : GState), Alive s i a l → s.backlog l = n →
    ∃ m ≤ 4 + 2 * n, Alive ((List.replicate m (Label.run i true)).foldl GState.step s) i a l ∧
      ((List.replicate m (Label.run i true)).foldl GState.step s).backlog l = 0 ∧
      letIn l ((List.replicate m (Label.run i true)).foldl GState.step s).trace = letIn l s.trace := by
  have acc : ∀ (n : Nat) (s : GState), s.bound a = some l → s.state = .running →
      (s.threads[i]? = some (.check a l) ∨ s.threads[i]? = some (.accept a l)) → s.backlog l = n →
    ∃ m ≤ 1 + 2 * n, Alive ((List.replicate m (Label.run i true)).foldl GState.step s) i a l ∧
      ((List.replicate m (Label.run i true)).foldl GState.step s).backlog l = 0 ∧
      letIn l ((List.replicate m (Label.run i true)).foldl GState.step s).trace = letIn l s.trace := by
    intro n
    induction n with
    | zero => intro s h1 h2 h3 h4; exact ⟨0, by omega, ⟨h1, .inr (.inr ⟨h3, h2⟩)⟩, h4, rfl⟩
    | succ n ih =>
      have one : ∀ s : GState, s.bound a = some l → s.state = .running → s.threads[i]? = some (.accept a l) → s.backlog l = n + 1 →
          ∃ m ≤ 2 + 2 * n, Alive ((List.replicate m (Label.run i true)).foldl GState.step s) i a l ∧
          ((List.replicate m (Label.run i true)).foldl GState.step s).backlog l = 0 ∧
          letIn l ((List.replicate m (Label.run i true)).foldl GState.step s).trace = letIn l s.trace := by
        intro s h1 h2 h3 h4
        have e : s.step (.run i true) =
            ({ s with backlog := fun x => if x = l then s.backlog l - 1 else s.backlog x }.put i (.check a l)).log (.served l) := by
          rw [step_at h3]
          simp only [GState.thread, GState.acceptAt, if_pos h1, if_true]
          rw [if_pos (by omega)]
        obtain ⟨m, g1, g2, g3, g4⟩ := ih (s.step (.run i true)) (by rw [e]; exact h1) (by rw [e]; exact h2)
          (by rw [e]; exact .inl (get_set h3 _)) (by rw [e]; simp [GState.log, GState.put, h4])
        refine ⟨m + 1, by omega, ?_⟩
        rw [List.replicate_succ, List.foldl_cons]
        refine ⟨g2, g3, g4.trans ?_⟩
        rw [e]; simp [GState.log, GState.put, letIn]
      intro s h1 h2 h3 h4
      rcases h3 with h3 | h3
      · have e : s.step (.run i true) = s.put i (.accept a l) := by
          rw [step_at h3]; simp only [GState.thread, h2]; rfl
        obtain ⟨m, g1, g2, g3, g4⟩ := one (s.step (.run i true)) (by rw [e]; exact h1) (by rw [e]; exact h2)
          (by rw [e]; exact get_set h3 _) (by rw [e]; exact h4)
        refine ⟨m + 1, by omega, ?_⟩
        rw [List.replicate_succ, List.foldl_cons]
        refine ⟨g2, g3, g4.trans ?_⟩
        rw [e]; rfl
      · obtain ⟨m, g1, g⟩ := one s h1 h2 h3 h4
        exact ⟨m, by omega, g⟩
  have opn : ∀ (n : Nat) (s : GState), s.bound a = some l → s.threads[i]? = some (.opening a l) → s.backlog l = n →
    ∃ m ≤ 2 + 2 * n, Alive ((List.replicate m (Label.run i true)).foldl GState.step s) i a l ∧
      ((List.replicate m (Label.run i true)).foldl GState.step s).backlog l = 0 ∧
      letIn l ((List.replicate m (Label.run i true)).foldl GState.step s).trace = letIn l s.trace := by
    intro n s h1 h2 h3
    have e := step_at (w := true) h2
    obtain ⟨m, g1, g2, g3, g4⟩ := acc n (s.step (.run i true)) (by rw [e]; exact h1) (by rw [e]; rfl)
      (by rw [e]; exact .inl (get_set h2 _)) (by rw [e]; exact h3)
    refine ⟨m + 1, by omega, ?_⟩
    rw [List.replicate_succ, List.foldl_cons]
    refine ⟨g2, g3, g4.trans ?_⟩
    rw [e]; simp [GState.thread, GState.log, GState.put, letIn]
  intro n s hA hb
  rcases hA.2 with h | h | ⟨h, hr⟩
  · have e := step_at (w := true) h
    obtain ⟨m, g1, g2, g3, g4⟩ := opn n (s.step (.run i true)) (by rw [e]; exact hA.1) (by rw [e]; exact get_set h _) (by rw [e]; exact hb)
    refine ⟨m + 1, by omega, ?_⟩
    rw [List.replicate_succ, List.foldl_cons]
    refine ⟨g2, g3, g4.trans ?_⟩
    rw [e]; simp [GState.thread, GState.log, GState.put, letIn]
  · obtain ⟨m, g1, g⟩ := opn n s hA.1 h hb
    exact ⟨m, by omega, g⟩
  · obtain ⟨m, g1, g⟩ := acc n s hA.1 hr h hb
    exact ⟨m, by omega, g⟩

/-! ## User code that is done -/

/-- No goroutine of user code has anything left to do. -/
def Quiet (s : GState) : Prop := ∀ (i : Nat) t, s.threads[i]? = some t → t = .user .ret ∨ ¬ Ctl t

theorem quiet_put {s s' : GState} {j : Nat} {t : Thread} (h : Quiet s) (ht : s'.threads = s.threads.set j t) (hn : ¬ Ctl t) : Quiet s' := by
  intro i x hi
  rw [ht, List.getElem?_set] at hi
  split at hi
  · split at hi
    · cases hi; exact .inr hn
    · cases hi
  · exact h i x hi

theorem quiet_step {s : GState} (h : Quiet s) (lab : Label) : Quiet (s.step lab) ∧
    ∃ es, (s.step lab).trace = es ++ s.trace ∧ ∀ e ∈ es, e ≠ .stopping ∧ e ≠ .swept ∧ ∀ l, e = .acceptFailed l → ∃ i, lab = .run i false := by
  cases lab with
  | connect b =>
    simp only [GState.step, GState.connect]
    split
    · exact ⟨h, [_], rfl, by simp⟩
    · exact ⟨h, [_], rfl, by simp⟩
  | run j works =>
    simp only [GState.step]
    split
    · next t hj =>
      cases t with
      | spawned k =>
        simp only [GState.thread]
        split
        · exact ⟨quiet_put h rfl (by simp [Ctl]), [], rfl, by simp⟩
        · exact ⟨h, [], rfl, by simp⟩
      | listen b =>
        simp only [GState.thread, GState.listenAt]
        split
        · exact ⟨quiet_put h rfl (by simp [Ctl]), [_], rfl, by simp⟩
        · exact ⟨quiet_put h rfl (by simp [Ctl]), [_], rfl, by simp⟩
      | record b l => exact ⟨quiet_put h rfl (by simp [Ctl]), [_], rfl, by simp⟩
      | opening b l => exact ⟨quiet_put h rfl (by simp [Ctl]), [_], rfl, by simp⟩
      | check b l =>
        simp only [GState.thread]
        split
        · exact ⟨quiet_put h rfl (by simp [Ctl]), [], rfl, by simp⟩
        · exact ⟨quiet_put h rfl (by simp [Ctl]), [], rfl, by simp⟩
      | accept b l =>
        simp only [GState.thread, GState.acceptAt]
        split
        · split
          · split
            · exact ⟨quiet_put h rfl (by simp [Ctl]), [_], rfl, by simp⟩
            · exact ⟨h, [], rfl, by simp⟩
          · next hw => exact ⟨quiet_put h rfl (by simp [Ctl]), [_], rfl, by simp [hw]⟩
        · exact ⟨quiet_put h rfl (by simp [Ctl]), [], rfl, by simp⟩
      | closing b l => exact ⟨quiet_put h rfl (by simp [Ctl]), [_], rfl, by simp⟩
      | done => exact ⟨h, [], rfl, by simp⟩
      | user u =>
        rcases h j _ hj with h1 | h1
        · cases h1; exact ⟨h, [], rfl, by simp⟩
        · exact absurd trivial h1
      | stopSet ok => rcases h j _ hj with h1 | h1; cases h1; exact absurd trivial h1
      | sweep ok => rcases h j _ hj with h1 | h1; cases h1; exact absurd trivial h1
      | startEval ok => rcases h j _ hj with h1 | h1; cases h1; exact absurd trivial h1
      | startLoop k rest ok => rcases h j _ hj with h1 | h1; cases h1; exact absurd trivial h1
    · exact ⟨h, [], rfl, by simp⟩

/-- When user code is done, an endpoint that is up stays up. -/
theorem quiet_alive {users : List User} {ls : List Label} {i l : Nat} {a : String} (hq : Quiet (run users ls)) (hA : Alive (run users ls) i a l)
    (ls' : List Label) (hw : ∀ i, .run i false ∉ ls') : Alive (run users (ls ++ ls')) i a l := by
  suffices Quiet (run users (ls ++ ls')) ∧ Alive (run users (ls ++ ls')) i a l from this.2
  induction ls' using List.reverseRecOn with
  | nil => simpa using ⟨hq, hA⟩
  | append_singleton ls' lab ih =>
    obtain ⟨h1, h2⟩ := ih (fun i h => hw i (by simp [h]))
    have hrun : run users (ls ++ (ls' ++ [lab])) = (run users (ls ++ ls')).step lab := by simp [run]
    rw [hrun]
    obtain ⟨h3, es, h4, h5⟩ := quiet_step h1 lab
    refine ⟨h3, alive_step (inv_run _ _) lab i a l h2 ⟨es, h4, fun e he => ⟨(h5 e he).1, (h5 e he).2.1, ?_⟩⟩⟩
    rintro rfl
    obtain ⟨i, rfl⟩ := (h5 _ he).2.2 l rfl
    exact hw i (by simp)

theorem quiet_running {users : List User} {ls : List Label} (hq : Quiet (run users ls)) (hr : (run users ls).state = .running)
    (ls' : List Label) : (run users (ls ++ ls')).state = .running := by
  suffices Quiet (run users (ls ++ ls')) ∧ (run users (ls ++ ls')).state = .running from this.2
  induction ls' using List.reverseRecOn with
  | nil => simpa using ⟨hq, hr⟩
  | append_singleton ls' lab ih =>
    obtain ⟨h1, h2⟩ := ih
    have hrun : run users (ls ++ (ls' ++ [lab])) = (run users (ls ++ ls')).step lab := by simp [run]
    rw [hrun]
    refine ⟨(quiet_step h1 lab).1, ?_⟩
    generalize run users (ls ++ ls') = s at *
    cases lab with
    | connect b => simp only [GState.step, GState.connect]; split <;> exact h2
    | run j works =>
      simp only [GState.step]
      split
      · next t hj =>
        have hc := h1 j t hj
        cases t with
        | spawned k => simp only [GState.thread]; split <;> exact h2
        | listen b => simp only [GState.thread, GState.listenAt]; split <;> exact h2
        | check b l => simp only [GState.thread]; split <;> exact h2
        | accept b l => simp only [GState.thread, GState.acceptAt]; (repeat' split) <;> exact h2
        | opening b l => rfl
        | user u => rcases hc with h | h; (cases h; exact h2); exact absurd trivial h
        | stopSet ok => rcases hc with h | h; cases h; exact absurd trivial h
        | sweep ok => rcases hc with h | h; cases h; exact absurd trivial h
        | startEval ok => rcases hc with h | h; cases h; exact absurd trivial h
        | startLoop k rest ok => rcases hc with h | h; cases h; exact absurd trivial h
        | _ => exact h2
      · exact h2

end Tcpx.Graceful
