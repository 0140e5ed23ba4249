import Verif.Lemmas.Chain
/-!
# C38–C40, C21: handler chains

`Steps (init s) st` ranges over all executions of a chain of `s` arbitrary handlers.
-/
namespace Tcpx
open Chain

/-! ## C38 -/

/-- C38: in every execution, handlers start in chain order and each at most once, and only handlers of the chain. -/
theorem C38_in_order_at_most_once (s : Nat) (st : State) (h : Steps (init s) st) :
    st.started.Pairwise (· < ·) ∧ ∀ i ∈ st.started, i < s := by
  have iv := inv_steps h (inv_init s)
  refine ⟨iv.sorted, fun i hi => ?_⟩
  have := (iv.below i hi).2
  rw [steps_s h] at this
  simp only [bound, init] at this
  omega

/-- C38: there is no infinite execution, whatever the handlers do, as long as each performs finitely many actions. -/
theorem C38_terminates (s : Nat) (f : Nat → State) (h0 : f 0 = init s) : ¬ ∀ n, Step (f n) (f (n+1)) := by
  intro hs
  have hr : ∀ n, Steps (init s) (f n) := by
    intro n
    induction n with
    | zero => rw [h0]; exact .refl _
    | succ n ih => exact .tail ih (hs n)
  have hbd : ∀ n, (f n).started.length ≤ s := by
    intro n
    have := C38_in_order_at_most_once s (f n) (hr n)
    exact sorted_length_le this.1 this.2
  -- lexicographic descent on (s - number of started handlers, weight of the stack)
  have key : ∀ a w n, s - (f n).started.length = a → weight (f n).stack = w → False := by
    intro a
    induction a using Nat.strongRecOn with
    | _ a iha =>
      intro w
      induction w using Nat.strongRecOn with
      | _ w ihw =>
        intro n ha hw
        rcases step_measure (hs n) with h | ⟨h1, h2⟩
        · refine iha (s - (f (n+1)).started.length) ?_ _ (n+1) rfl rfl
          have := hbd (n+1)
          omega
        · exact ihw (weight (f (n+1)).stack) (by omega) (n+1) (by rw [h1]; exact ha) rfl
  exact key _ _ 0 rfl rfl

/-- C38: an execution that cannot continue is one whose outermost `Next` has returned or panicked (no stuck states). -/
theorem C38_no_stuck (st : State) (h : ∀ b, ¬ Step st b) : st.stack = [] := by
  cases hs : st.stack with
  | nil => rfl
  | cons f K =>
    exfalso
    cases f with
    | loop =>
      by_cases h1 : st.offset < st.s
      · by_cases h2 : st.offset ≥ ABORT
        · exact h _ (.abortReturn st K hs h1 h2)
        · exact h _ (.start st K 0 hs h1 h2)
      · exact h _ (.loopEnd st K hs h1)
    | post => exact h _ (.postInc st K hs)
    | hnd i n => exact h _ (.ret st K i n hs)

-- non-vacuity: a chain of two handlers, the first calls Next explicitly, both run
example : ∃ st, Steps (init 2) st ∧ st.started = [0, 1] ∧ st.stack = [] := by
  exact ⟨_, .tail (.tail (.tail (.tail (.tail (.tail (.tail (.tail (.tail (.refl _)
      (.start _ [] 1 rfl (by decide) (by decide))) (.next _ _ 0 0 rfl)) (.start _ _ 0 rfl (by decide) (by decide)))
      (.ret _ _ 1 0 rfl)) (.postInc _ _ rfl)) (.loopEnd _ _ rfl (by decide))) (.ret _ _ 0 0 rfl)) (.postInc _ _ rfl))
      (.loopEnd _ _ rfl (by decide)), rfl, rfl⟩

/-! ## C39 -/

/-- C39 (partial): if no handler aborted or panicked and the chain has finished, then every handler of a chain of at
most 2019 handlers has run, exactly once, in order, whether or not handlers call `Next`.
Missing: longer chains, where the claim is false (`C39_long_chain_violated`). -/
theorem C39_all_run_partial (s : Nat) (hs : s ≤ 2019) (st : State) (h : Steps (init s) st) (hend : st.stack = [])
    (ha : st.aborted = false) (hp : st.panicked = false) : st.started = List.range s := by
  have iv := inv_steps h (inv_init s)
  have he : st.s = s := steps_s h
  have hb : bound st.s = s := by rw [he]; unfold bound; omega
  apply sorted_eq_range iv.sorted
  intro i
  constructor
  · intro hi; have := (iv.below i hi).2; omega
  · intro hi
    apply iv.full ha hp i (by omega)
    have := iv.done ha hp hend
    rw [hend]; show (i : Int) < st.offset + 1
    omega

-- a chain of one handler that has finished
example : ∃ st, Steps (init 1) st ∧ st.stack = [] ∧ st.aborted = false ∧ st.panicked = false ∧ st.started = [0] :=
  ⟨_, .tail (.tail (.tail (.tail (.refl _) (.start _ [] 0 rfl (by decide) (by decide))) (.ret _ _ 0 0 rfl)) (.postInc _ _ rfl))
    (.loopEnd _ _ rfl (by decide)), rfl, rfl, rfl, rfl⟩

/-- C39 is false for longer chains: without any Abort exactly the first 2019 handlers run. -/
theorem C39_long_chain_violated (s : Nat) (hs : 2019 < s) (st : State) (h : Steps (init s) st) (hend : st.stack = [])
    (ha : st.aborted = false) (hp : st.panicked = false) : st.started = List.range 2019 ∧ st.started ≠ List.range s := by
  have iv := inv_steps h (inv_init s)
  have he : st.s = s := steps_s h
  have hb : bound st.s = 2019 := by rw [he]; unfold bound; omega
  have : st.started = List.range 2019 := by
    apply sorted_eq_range iv.sorted
    intro i
    constructor
    · intro hi; have := (iv.below i hi).2; omega
    · intro hi
      apply iv.full ha hp i (by omega)
      have := iv.done ha hp hend
      rw [hend]; show (i : Int) < st.offset + 1
      omega
  refine ⟨this, ?_⟩
  intro e
  have := congrArg List.length (this.symm.trans e)
  simp at this; omega

/-- Completed runs without Abort exist for every chain length (non-vacuity of the two theorems above). -/
theorem C39_run_exists (s : Nat) : ∃ st, Steps (init s) st ∧ st.stack = [] ∧ st.aborted = false ∧ st.panicked = false := by
  have key : ∀ k : Nat, k ≤ bound s → ∃ st, Steps (init s) st ∧ st.stack = [.loop] ∧ st.offset = k ∧ st.aborted = false ∧
      st.panicked = false := by
    intro k
    induction k with
    | zero => intro _; exact ⟨_, .refl _, rfl, rfl, rfl, rfl⟩
    | succ k ih =>
      intro hk
      obtain ⟨st, h1, h2, h3, h4, h5⟩ := ih (by omega)
      have hss : st.s = s := steps_s h1
      unfold bound at hk
      have h6 := Steps.tail h1 (.start st [] 0 h2 (by omega) (by unfold ABORT; omega))
      have h7 := Steps.tail h6 (.ret _ [.post] st.offset.toNat 0 rfl)
      have h8 := Steps.tail h7 (.postInc _ [] rfl)
      refine ⟨_, h8, rfl, ?_, h4, h5⟩
      show st.offset + 1 = _
      omega
  obtain ⟨st, h1, h2, h3, h4, h5⟩ := key (bound s) (Nat.le_refl _)
  have hss : st.s = s := steps_s h1
  by_cases hlt : st.offset < st.s
  · exact ⟨_, .tail h1 (.abortReturn st [] h2 hlt (by unfold bound at h3; unfold ABORT; omega)), rfl, h4, h5⟩
  · exact ⟨_, .tail h1 (.loopEnd st [] h2 hlt), rfl, h4, h5⟩

/-! ## C40 -/

/-- C40: once a handler has called Abort, no further handler starts in any continuation, even if Next is called. -/
theorem C40_abort_stops (s : Nat) (st st' : State) (h : Steps (init s) st) (ha : st.aborted = true)
    (h' : Steps st st') : st'.started = st.started := by
  have key : ∀ {b}, Steps st b → b.started = st.started ∧ b.aborted = true ∧ Inv b := by
    intro b hb
    induction hb with
    | refl => exact ⟨rfl, ha, inv_steps h (inv_init s)⟩
    | tail _ hs ih =>
      obtain ⟨h1, h2, h3⟩ := ih
      have iv := inv_step hs h3
      have hhigh := h3.high h2
      cases hs with
      | start K n hs' h4 h5 => exact absurd hhigh h5
      | abort K i n hs' => exact ⟨h1, rfl, iv⟩
      | abortReturn K hs' _ _ => exact ⟨h1, h2, iv⟩
      | loopEnd K hs' _ => exact ⟨h1, h2, iv⟩
      | postInc K hs' => exact ⟨h1, h2, iv⟩
      | next K i n hs' => exact ⟨h1, h2, iv⟩
      | work K i n hs' => exact ⟨h1, h2, iv⟩
      | ret K i n hs' => exact ⟨h1, h2, iv⟩
      | panic K i n hs' => exact ⟨h1, h2, iv⟩
  exact (key h').1

-- non-vacuity: the first of three handlers aborts, then calls Next
example : ∃ st st', Steps (init 3) st ∧ st.aborted = true ∧ Steps st st' ∧ st'.stack = [] ∧ st'.started = [0] := by
  refine ⟨_, _, .tail (.tail (.refl _) (.start _ [] 2 rfl (by decide) (by decide))) (.abort _ _ 0 1 rfl), rfl,
    .tail (.tail (.tail (.tail (.tail (.refl _) (.next _ _ 0 0 rfl)) (.loopEnd _ _ rfl (by decide))) (.ret _ _ 0 0 rfl))
      (.postInc _ _ rfl)) (.loopEnd _ _ rfl (by decide)), rfl, rfl⟩

/-! ## C21 -/

/-- Invariant of a goroutine running a piped group. -/
structure PipeInv (p : PState) : Prop where
  cur : ∃ s, Steps (init s) p.cur
  log : p.log.Pairwise (fun a b => a.1 < b.1 ∨ a.1 = b.1 ∧ a.2 < b.2)
  logIdx : ∀ e ∈ p.log, e.1 < p.idx

theorem pipe_starts_sorted {p : PState} (iv : PipeInv p) :
    p.starts.Pairwise (fun a b => a.1 < b.1 ∨ a.1 = b.1 ∧ a.2 < b.2) := by
  unfold PState.starts
  rw [List.pairwise_append]
  refine ⟨iv.log, ?_, ?_⟩
  · obtain ⟨s, hs⟩ := iv.cur
    rw [List.pairwise_map]
    exact (C38_in_order_at_most_once s p.cur hs).1.imp (fun h => Or.inr ⟨rfl, h⟩)
  · intro a ha b hb
    obtain ⟨i, _, rfl⟩ := List.mem_map.mp hb
    exact Or.inl (iv.logIdx a ha)

theorem pipeInv_steps {s : Nat} {todo : List Nat} {p : PState} (h : PSteps (pinit s todo) p) : PipeInv p := by
  induction h with
  | refl => exact ⟨⟨s, .refl _⟩, List.Pairwise.nil, by intro e he; simp [pinit] at he⟩
  | tail _ hs ih =>
    cases hs with
    | inner c hc =>
      obtain ⟨s', hs'⟩ := ih.cur
      exact ⟨⟨s', .tail hs' hc⟩, ih.log, ih.logIdx⟩
    | advance s' rest h hp ht =>
      refine ⟨⟨s', .refl _⟩, pipe_starts_sorted ih, ?_⟩
      intro e he
      rcases List.mem_append.mp he with h' | h'
      · have := ih.logIdx e h'; show e.1 < _ + 1; omega
      · obtain ⟨i, _, rfl⟩ := List.mem_map.mp h'; show _ < _ + 1; simp

/-- C21: the handlers of a piped group start in the order of the messages, and within a message in chain order. -/
theorem C21_pipe_order (s : Nat) (todo : List Nat) (p : PState) (h : PSteps (pinit s todo) p) :
    p.starts.Pairwise (fun a b => a.1 < b.1 ∨ a.1 = b.1 ∧ a.2 < b.2) := pipe_starts_sorted (pipeInv_steps h)

example : ∃ p, PSteps (pinit 1 [1]) p ∧ p.starts = [(0, 0), (1, 0)] := by
  refine ⟨_, .tail (.tail (.tail (.tail (.tail (.tail (.refl _)
    (.inner _ _ (.start _ [] 0 rfl (by decide) (by decide)))) (.inner _ _ (.ret _ _ 0 0 rfl)))
    (.inner _ _ (.postInc _ _ rfl))) (.inner _ _ (.loopEnd _ _ rfl (by decide)))) (.advance _ 1 [] rfl rfl rfl))
    (.inner _ _ (.start _ [] 0 rfl (by decide) (by decide))), rfl⟩

end Tcpx
