import Verif.Model.Exit
/-! # Lemmas about `BeforeExit` -/
namespace Tcpx

theorem XState.run_append (s : XState) (l1 l2 : List XLabel) : s.run (l1 ++ l2) = (s.run l1).run l2 := by
  induction l1 generalizing s with
  | nil => rfl
  | cons l ls ih => exact ih _

theorem XState.run_induct {P : XState → Prop} {s : XState} {ls : List XLabel} (h0 : P s)
    (hs : ∀ s l s', l ∈ ls → P s → s.step l = some s' → P s') : P (s.run ls) := by
  induction ls generalizing s with
  | nil => exact h0
  | cons l ls ih =>
    refine ih ?_ (fun s l s' hl => hs s l s' (List.mem_cons_of_mem _ hl))
    cases h : s.step l with
    | none => exact h0
    | some s' => exact hs s l s' List.mem_cons_self h0 h

namespace Spec

/-- The callbacks of call `g` of `BeforeExit` that have been called, newest first. -/
def calledBy (g : Nat) : List XEv → List Nat
  | [] => []
  | .callback g' k :: tr => if g' = g then k :: calledBy g tr else calledBy g tr
  | _ :: tr => calledBy g tr

end Spec
open Spec

/-- What is known of call `g` of `BeforeExit`, standing at `c`. -/
structure XOne (g : Nat) (c : XCall) (tr : List XEv) : Prop where
  early : c.pc = .fresh ∨ c.pc = .registered ∨ c.pc = .waiting → calledBy g tr = []
  calling : ∀ k, c.pc = .calling k → k ≤ c.fs.length ∧ (∀ i, i < k → c.fs[i]? = some false) ∧ calledBy g tr = (List.range k).reverse ∧
    ∃ x, .signal x ∈ tr
  dead : c.pc = .dead → ∃ k, c.fs[k]? = some true ∧ (∀ i, i < k → c.fs[i]? = some false) ∧
    calledBy g tr = (List.range (k + 1)).reverse ∧ ∃ x, .signal x ∈ tr
  exit : .exit g ∈ tr → c.pc = .calling c.fs.length

/-- An event of something else. -/
def Foreign (g : Nat) : XEv → Prop
  | .callback g' _ => g' ≠ g
  | .exit g' => g' ≠ g
  | _ => True

theorem calledBy_foreign {g : Nat} {e : XEv} (he : Foreign g e) (tr : List XEv) : calledBy g (e :: tr) = calledBy g tr := by
  cases e <;> simp_all [calledBy, Foreign]

theorem exit_foreign {g : Nat} {e : XEv} (he : Foreign g e) (tr : List XEv) : .exit g ∈ e :: tr ↔ .exit g ∈ tr := by
  cases e <;> simp_all [Foreign]
  intro h; exact absurd h.symm he

theorem XOne.foreign {g : Nat} {c : XCall} {tr : List XEv} (h : XOne g c tr) {e : XEv} (he : Foreign g e) : XOne g c (e :: tr) := by
  obtain ⟨a, b, d, f⟩ := h
  refine ⟨fun h => by rw [calledBy_foreign he]; exact a h, fun k hk => ?_, fun hk => ?_, fun h => f ((exit_foreign he tr).1 h)⟩
  · obtain ⟨b1, b2, b3, x, b4⟩ := b k hk
    exact ⟨b1, b2, by rw [calledBy_foreign he]; exact b3, x, List.mem_cons_of_mem _ b4⟩
  · obtain ⟨k, b1, b2, b3, x, b4⟩ := d hk
    exact ⟨k, b1, b2, by rw [calledBy_foreign he]; exact b3, x, List.mem_cons_of_mem _ b4⟩

structure XOk (g : Nat) (s : XState) : Prop where
  none : s.calls[g]? = none → calledBy g s.trace = [] ∧ .exit g ∉ s.trace
  one : ∀ c, s.calls[g]? = some c → XOne g c s.trace
  alive : (∃ g, .exit g ∈ s.trace) → s.alive = false

theorem xok_step {g : Nat} {s s' : XState} {l : XLabel} (h : XOk g s) (hs : s.step l = some s') : XOk g s' := by
  obtain ⟨h1, h2, h3⟩ := h
  cases l with
  | call fs =>
    simp only [XState.step] at hs
    split at hs
    · next ha =>
      cases hs
      refine ⟨?_, ?_, fun h => h3 h⟩
      · intro hn
        apply h1
        rw [List.getElem?_eq_none_iff] at hn ⊢
        simp only [List.length_append] at hn
        omega
      · intro c hc
        by_cases hlt : g < s.calls.length
        · rw [List.getElem?_append_left hlt] at hc
          exact h2 c hc
        · obtain ⟨a, b⟩ := h1 (List.getElem?_eq_none (by omega))
          rw [List.getElem?_append_right (by omega)] at hc
          have hc' : c = ⟨fs, .fresh⟩ := by
            cases hg : g - s.calls.length with
            | zero => rw [hg] at hc; simp at hc; exact hc.symm
            | succ n => rw [hg] at hc; simp at hc
          subst hc'
          exact ⟨fun _ => a, fun k hk => (by cases hk), fun hk => (by cases hk), fun hk => absurd hk b⟩
    · cases hs
  | signal x =>
    simp only [XState.step] at hs
    split at hs
    · next ha =>
      split at hs
      · cases hs
        refine ⟨fun hn => ?_, fun c hc => ((h2 c hc).foreign (e := .signal x) trivial).foreign trivial, fun _ => rfl⟩
        simpa [calledBy] using h1 hn
      · cases hs
        refine ⟨fun hn => ?_, fun c hc => ?_, fun h => h3 (by simpa using h)⟩
        · simp only [List.getElem?_map, Option.map_eq_none_iff] at hn
          simpa [calledBy] using h1 hn
        · simp only [List.getElem?_map, Option.map_eq_some_iff] at hc
          obtain ⟨c0, hc0, rfl⟩ := hc
          by_cases hw : c0.pc = .waiting
          · have h := h2 c0 hc0
            simp only [XState.deliver, hw, if_true]
            refine ⟨fun h => by simp at h, fun k hk => ?_, fun h => by simp at h, fun hk => ?_⟩
            · simp only [XPc.calling.injEq] at hk
              subst hk
              exact ⟨Nat.zero_le _, fun i hi => absurd hi (Nat.not_lt_zero _), by simpa [calledBy] using h.early (.inr (.inr hw)), x, by simp⟩
            · have := h.exit (by simpa using hk)
              rw [hw] at this
              cases this
          · simp only [XState.deliver, hw, if_false]
            exact (h2 c0 hc0).foreign trivial
    · cases hs
  | run g' =>
    simp only [XState.step] at hs
    split at hs
    · next ha =>
      have hne : ∀ g, .exit g ∉ s.trace := fun g h => by
        have := h3 ⟨g, h⟩
        rw [ha] at this; cases this
      cases hc0 : s.calls[g']? with
      | none => rw [hc0] at hs; cases hs
      | some c0 =>
        have hlt : g' < s.calls.length := (List.getElem?_eq_some_iff.1 hc0).1
        rw [hc0] at hs
        simp only at hs
        -- a step that moves `g'` and logs `es`
        have move : ∀ pc' es, (g' = g → XOne g { c0 with pc := pc' } (es ++ s.trace)) → (g' ≠ g → ∀ e ∈ es, Foreign g e) → (∀ g e, e ∈ es → e ≠ .exit g) →
            XOk g { s with calls := s.calls.set g' { c0 with pc := pc' }, trace := es ++ s.trace } := by
          intro pc' es k1 k2 k3
          have hfor : g' ≠ g → ∀ c, XOne g c s.trace → XOne g c (es ++ s.trace) := by
            intro hg c h
            replace k2 := k2 hg
            clear k1 k3
            induction es with
            | nil => exact h
            | cons e es ih => exact (ih fun e he => k2 e (List.mem_cons_of_mem _ he)).foreign (k2 e List.mem_cons_self)
          refine ⟨fun hn => ?_, fun c hc => ?_, fun ⟨g1, h⟩ => h3 ⟨g1, ?_⟩⟩
          · have hn' : s.calls[g]? = none := by
              rw [List.getElem?_eq_none_iff] at hn ⊢
              simpa using hn
            have hg : g' ≠ g := by rintro rfl; rw [hc0] at hn'; cases hn'
            replace k2 := k2 hg
            obtain ⟨a, b⟩ := h1 hn'
            clear k1 k3 hfor hn
            induction es with
            | nil => exact ⟨a, b⟩
            | cons e es ih =>
              have ih := ih fun e he => k2 e (List.mem_cons_of_mem _ he)
              have he := k2 e List.mem_cons_self
              exact ⟨by rw [List.cons_append, calledBy_foreign he]; exact ih.1, fun h => ih.2 ((exit_foreign he _).1 h)⟩
          · by_cases hg : g' = g
            · subst hg
              simp only [List.getElem?_set_self hlt, Option.some.injEq] at hc
              subst hc
              exact k1 rfl
            · simp only [List.getElem?_set_ne hg] at hc
              exact hfor hg c (h2 c hc)
          · rcases List.mem_append.1 h with h | h
            · exact absurd rfl (k3 g1 _ h)
            · exact h
        split at hs
        · next hpc =>
          cases hs
          refine move _ [] (fun hg => ?_) (fun _ e he => (by cases he)) (fun _ e he => (by cases he))
          subst hg
          exact ⟨fun _ => (h2 c0 hc0).early (.inl hpc), fun k hk => (by cases hk), fun hk => (by cases hk), fun h => absurd h (hne _)⟩
        · next hpc =>
          cases hs
          refine move _ [] (fun hg => ?_) (fun _ e he => (by cases he)) (fun _ e he => (by cases he))
          subst hg
          exact ⟨fun _ => (h2 c0 hc0).early (.inr (.inl hpc)), fun k hk => (by cases hk), fun hk => (by cases hk), fun h => absurd h (hne _)⟩
        · cases hs
        · next k hpc =>
          split at hs
          · next hk =>
            cases hs
            have hk : c0.fs.length ≤ k := List.getElem?_eq_none_iff.1 hk
            refine ⟨fun hn => ?_, fun c hc => ?_, fun _ => rfl⟩
            · have hg : g' ≠ g := by rintro rfl; rw [hc0] at hn; cases hn
              obtain ⟨a, b⟩ := h1 hn
              exact ⟨by rw [calledBy_foreign (e := .exit g') hg]; exact a, fun h => b ((exit_foreign (e := .exit g') hg _).1 h)⟩
            · by_cases hg : g' = g
              · subst hg
                rw [hc0] at hc
                cases hc
                have h := h2 c0 hc0
                obtain ⟨b1, b2, b3, x, b4⟩ := h.calling k hpc
                have hk' : k = c0.fs.length := by omega
                refine ⟨fun h => by simp [hpc] at h, fun k' e => ?_, fun h => by simp [hpc] at h, fun _ => by rw [hpc, hk']⟩
                rw [hpc] at e
                cases e
                exact ⟨b1, b2, by simpa [calledBy] using b3, x, List.mem_cons_of_mem _ b4⟩
              · exact (h2 c hc).foreign hg
          · next panics hk =>
            cases hs
            refine move (if panics then .dead else .calling (k + 1)) [.callback g' k] (fun hg => ?_) (fun hg e he => ?_) (fun g1 e he => ?_)
            · subst hg
              obtain ⟨b1, b2, b3, x, b4⟩ := (h2 c0 hc0).calling k hpc
              have hkl : k < c0.fs.length := (List.getElem?_eq_some_iff.1 hk).1
              have hcb : calledBy g' ([.callback g' k] ++ s.trace) = (List.range (k + 1)).reverse := by
                simp [calledBy, b3, List.range_succ]
              have hx : .signal x ∈ [XEv.callback g' k] ++ s.trace := List.mem_cons_of_mem _ b4
              have hex : ¬ .exit g' ∈ [XEv.callback g' k] ++ s.trace := by simpa using hne g'
              cases panics with
              | true =>
                exact ⟨fun h => by simp at h, fun k' e => by simp at e, fun _ => ⟨k, hk, b2, hcb, x, hx⟩, fun h => absurd h hex⟩
              | false =>
                refine ⟨fun h => by simp at h, fun k' e => ?_, fun h => by simp at h, fun h => absurd h hex⟩
                simp only [Bool.false_eq_true, if_false, XPc.calling.injEq] at e
                subst e
                refine ⟨hkl, fun i hi => ?_, hcb, x, hx⟩
                by_cases hik : i = k
                · subst hik; exact hk
                · exact b2 i (by omega)
            · simp only [List.mem_singleton] at he
              subst he
              exact hg
            · simp only [List.mem_singleton] at he
              subst he
              simp
        · cases hs
    · cases hs

theorem xok_run (g : Nat) (ls : List XLabel) : XOk g (XState.run {} ls) :=
  XState.run_induct ⟨fun _ => ⟨rfl, fun h => by cases h⟩, fun c hc => by simp at hc, fun ⟨_, h⟩ => by cases h⟩ fun _ _ _ _ => xok_step

end Tcpx
