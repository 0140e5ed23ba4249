import Verif.Lemmas.SessionRun
/-! # Connections as a whole: what is promised of a run, to be computed -/
namespace Tcpx
open Spec

theorem sthroughout_of (cfg : SCfg) (s : SState) (ls : List SLabel) (P : SState → Prop)
    (h : ∀ k ∈ List.range (ls.length + 1), P (s.run cfg (ls.take k))) : SThroughout cfg s ls P := by
  intro k
  by_cases hk : k ≤ ls.length
  · exact h k (List.mem_range.2 (by omega))
  · have := h ls.length (List.mem_range.2 (by omega))
    rw [List.take_of_length_le (by omega)]
    rwa [List.take_of_length_le (by omega)] at this

/-- What has arrived waits no longer than `d`. -/
def boxed (d c : Nat) (s : SState) : Bool := (shutAt c s.ev).isSome || (s.inbox c).all fun x => decide (s.t.now ≤ x.1 + d)

theorem boxed_spec {d c : Nat} {s : SState} (h : boxed d c s = true) (hn : ¬ ShutIn c s.ev) (a m : Nat) (hm : (a, m) ∈ s.inbox c) :
    s.t.now ≤ a + d := by
  rw [← shutAt_none] at hn
  rw [boxed, hn] at h
  simp only [Option.isSome_none, Bool.false_or] at h
  exact of_decide_eq_true (List.all_eq_true.1 h (a, m) hm)

/-- `PromptLoop`, to be computed. -/
def promptLoop (d c : Nat) (s : SState) : Bool :=
  match s.loops c with
  | .off => true
  | .last _ => true
  | .leaving => decide (s.t.now ≤ s.lpAt c + d)
  | .go _ => decide (s.t.now ≤ s.lpAt c + d) && boxed d c s
  | .read => (match shutAt c s.ev with | some t => decide (s.t.now ≤ max (s.lpAt c) t + d) | none => true) &&
      (match hungAt c s.ev with | some t => decide (s.inbox c = [] → s.t.now ≤ max (s.lpAt c) t + d) | none => true) && boxed d c s

theorem promptLoop_spec {d c : Nat} {s : SState} (h : promptLoop d c s = true) : PromptLoop d c s := by
  unfold promptLoop at h
  unfold PromptLoop
  cases hl : s.loops c with
  | off => trivial
  | last k => trivial
  | leaving => rw [hl] at h; exact of_decide_eq_true h
  | go m =>
    rw [hl] at h
    simp only [Bool.and_eq_true] at h
    exact ⟨of_decide_eq_true h.1, fun hn a m hm => boxed_spec h.2 hn a m hm⟩
  | read =>
    rw [hl] at h
    simp only [Bool.and_eq_true] at h
    obtain ⟨⟨h1, h2⟩, h3⟩ := h
    refine ⟨fun t ht => ?_, fun t ht => ?_, fun hn a m hm => boxed_spec h3 hn a m hm⟩
    · rw [ht] at h1; exact of_decide_eq_true h1
    · rw [ht] at h2; exact of_decide_eq_true h2

/-- `PromptStart`, to be computed. -/
def promptStart (d : Nat) (s : SState) : Bool :=
  (List.range s.spawned.length).all fun i => (s.t.w.threads (2 * i + 1)).pc ≠ .idle || (s.t.w.threads (2 * i + 1)).rest = [] ||
    decide (s.t.now ≤ s.spAt (2 * i + 1) + d)

theorem promptStart_spec {d c : Nat} {s : SState} (h : promptStart d s = true) : PromptStart d c s := by
  intro i rest hi hth
  obtain ⟨hlt, -⟩ := List.getElem?_eq_some_iff.1 hi
  have := List.all_eq_true.1 h i (List.mem_range.2 hlt)
  simpa [hth] using this

/-- `PromptTail`, to be computed. -/
def promptTail (d c : Nat) (s : SState) : Bool :=
  match s.loops c with
  | .last k => ((s.t.w.threads k).pc ≠ .idle || (s.t.w.threads k).rest ≠ [.close c] || s.t.now ≤ s.lpAt c + d) &&
      ((s.t.w.threads k).pc ≠ .closing c || s.t.now ≤ s.lpAt c + 2 * d)
  | _ => true

theorem promptTail_spec {d c : Nat} {s : SState} (h : promptTail d c s = true) : PromptTail d c s := by
  intro k hk
  rw [promptTail, hk] at h
  simp only [Bool.and_eq_true] at h
  exact ⟨fun h0 => by simpa [h0] using h.1, fun h0 => by simpa [h0] using h.2⟩

/-- `SentEvery`, to be computed. -/
def sentEvery (g : Nat) (kind : Nat → Bool) (c : Nat) (s : SState) : Bool :=
  match lastSent kind c s.ev with
  | none => true
  | some t => decide (s.t.now ≤ t + g)

theorem sentEvery_spec {g : Nat} {kind : Nat → Bool} {c : Nat} {s : SState} (h : sentEvery g kind c s = true) : SentEvery g kind c s := by
  intro t ht _
  rw [sentEvery, ht] at h
  exact of_decide_eq_true h

/-- `PromptCalls`, to be computed. -/
def promptCalls (d c : Nat) (s : TState) : Bool :=
  s.log.all fun x => match x.2 with | .invoke i _ => promptCall d c i s | _ => true

theorem calledAt_mem {i t : Nat} {log : List (Nat × WatchEv)} (h : calledAt i log = some t) : ∃ u, (t, .invoke i u) ∈ log := by
  induction log with
  | nil => cases h
  | cons x log ih =>
    obtain ⟨t', x⟩ := x
    have key : calledAt i log = some t → ∃ u, (t, WatchEv.invoke i u) ∈ (t', x) :: log := fun h =>
      (ih h).imp fun u hu => List.mem_cons_of_mem _ hu
    cases x with
    | invoke j u =>
      simp only [calledAt] at h
      split at h
      · next hj => cases h; subst hj; exact ⟨u, List.mem_cons_self ..⟩
      · exact key h
    | _ => exact key h

theorem promptCalls_spec {d c : Nat} {s : TState} (h : promptCalls d c s = true) : PromptCalls d c s := by
  intro i t ht
  obtain ⟨u, hu⟩ := calledAt_mem ht
  exact promptCall_spec d c i s (List.all_eq_true.1 h _ hu) t ht

/-- No message but such as `p` has arrived on `c`. -/
theorem arrived_of {c : Nat} {p : Nat → Bool} {ev : List (Nat × SEv)} (h : (arrivals c ev).all p = true) (t m : Nat)
    (hm : (t, .arrived c m) ∈ ev) : p m = true := by
  refine List.all_eq_true.1 h m ?_
  clear h
  induction ev with
  | nil => cases hm
  | cons x ev ih =>
    obtain ⟨u, x⟩ := x
    rcases List.mem_cons.1 hm with h | h
    · cases h; simp [arrivals]
    · have := ih h
      cases x with
      | arrived c' m' =>
        simp only [arrivals]
        split
        · exact List.mem_append_left _ this
        · exact this
      | _ => exact this

theorem hungUp_of {c : Nat} {ev : List (Nat × SEv)} (h : hungAt c ev = none) (t : Nat) : (t, .hungUp c) ∉ ev := by
  induction ev with
  | nil => exact fun h => by cases h
  | cons x ev ih =>
    obtain ⟨u, x⟩ := x
    intro hm
    cases x with
    | hungUp c' =>
      simp only [hungAt] at h
      split at h
      · cases h
      · rcases List.mem_cons.1 hm with h' | h'
        · cases h'; contradiction
        · exact ih h h'
    | _ =>
      rcases List.mem_cons.1 hm with h' | h'
      · cases h'
      · exact ih h h'

end Tcpx
