import Verif.Model.ChainReset
import Verif.Props.Chain
/-!
# C92: chains whose handlers call `Reset` or `ResetOffset`

`RSteps (rinit s) st` ranges over all executions of a chain of `s` handlers that may also call `Reset` and `ResetOffset`.
-/
namespace Tcpx
open Chain

/-- The frame as in `Model/Chain`. -/
def Chain.RFrame.erase : RFrame → Frame
  | .loop _ => .loop
  | .post _ => .post
  | .hnd i n => .hnd i n

/-- The state as in `Model/Chain`. -/
def Chain.RState.erase (st : RState) : State :=
  { s := st.len, offset := st.offset, stack := st.stack.map RFrame.erase, started := st.started, aborted := st.aborted, panicked := st.panicked }

/-- All calls of `Next` under way have read the length `s`. -/
def SameLen (s : Nat) (K : List RFrame) : Prop := ∀ s', .loop s' ∈ K ∨ .post s' ∈ K → s' = s

/-- As long as no handler has called `Reset` or `ResetOffset`, the execution is one of `Model/Chain`, and no index was out of range. -/
theorem rsteps_plain (s : Nat) (st : RState) (h : RSteps (rinit s) st) (hr : st.reset = false) :
    Steps (init s) st.erase ∧ SameLen s st.stack ∧ st.len = s ∧ st.outOfRange = false := by
  induction h with
  | refl => exact ⟨.refl _, fun s' h => (by simpa [rinit] using h), rfl, rfl⟩
  | tail h hs ih =>
    have hrb : ∀ {b c : RState}, RStep b c → c.reset = false → b.reset = false := by
      intro b c hs hc
      cases hs <;> first | exact hc | cases hc
    obtain ⟨h1, h2, h3, h4⟩ := ih (hrb hs hr)
    have hoff := (inv_steps h1 (inv_init s)).offs
    simp only [RState.erase] at hoff
    cases hs with
    | start K s' n e a1 a2 a3 =>
      have : s' = s := h2 s' (by simp [e])
      subst this
      refine ⟨.tail h1 (.start _ (K.map RFrame.erase) n (by simp [RState.erase, e, RFrame.erase]) (by simpa [RState.erase, h3] using a1) a2), ?_, h3, h4⟩
      intro s'' hm
      refine h2 s'' ?_
      simp [e] at hm ⊢
      grind
    | abortReturn K s' e a1 a2 =>
      have : s' = s := h2 s' (by simp [e])
      subst this
      refine ⟨.tail h1 (.abortReturn _ (K.map RFrame.erase) (by simp [RState.erase, e, RFrame.erase]) (by simpa [RState.erase, h3] using a1) a2), ?_, h3, h4⟩
      intro s'' hm
      refine h2 s'' ?_
      simp [e] at hm ⊢
      grind
    | loopEnd K s' e a1 =>
      have : s' = s := h2 s' (by simp [e])
      subst this
      refine ⟨.tail h1 (.loopEnd _ (K.map RFrame.erase) (by simp [RState.erase, e, RFrame.erase]) (by simpa [RState.erase, h3] using a1)), ?_, h3, h4⟩
      intro s'' hm
      refine h2 s'' ?_
      simp [e] at hm ⊢
      grind
    | postInc K s' e =>
      refine ⟨.tail h1 (.postInc _ (K.map RFrame.erase) (by simp [RState.erase, e, RFrame.erase])), ?_, h3, h4⟩
      intro s'' hm
      refine h2 s'' ?_
      simp [e] at hm ⊢
      grind
    | next K i n e =>
      refine ⟨.tail h1 (.next _ (K.map RFrame.erase) i n (by simp [RState.erase, e, RFrame.erase])), ?_, h3, h4⟩
      intro s'' hm
      have := h2 s''
      simp [e] at hm this ⊢
      grind
    | abort K i n e =>
      refine ⟨.tail h1 (.abort _ (K.map RFrame.erase) i n (by simp [RState.erase, e, RFrame.erase])), ?_, h3, h4⟩
      intro s'' hm
      refine h2 s'' ?_
      simp [e] at hm ⊢
      grind
    | work K i n e =>
      refine ⟨.tail h1 (.work _ (K.map RFrame.erase) i n (by simp [RState.erase, e, RFrame.erase])), ?_, h3, h4⟩
      intro s'' hm
      refine h2 s'' ?_
      simp [e] at hm ⊢
      grind
    | ret K i n e =>
      refine ⟨.tail h1 (.ret _ (K.map RFrame.erase) i n (by simp [RState.erase, e, RFrame.erase])), ?_, h3, h4⟩
      intro s'' hm
      refine h2 s'' ?_
      simp [e] at hm ⊢
      grind
    | panic K i n e =>
      exact ⟨.tail h1 (.panic _ (K.map RFrame.erase) i n (by simp [RState.erase, e, RFrame.erase])), fun s'' hm => (by simp at hm), h3, h4⟩
    | outOfRange K s' e a1 a2 a3 =>
      have : s' = s := h2 s' (by simp [e])
      subst this
      exact absurd ⟨hoff, by omega⟩ a3
    | resetOffset K i n e => cases hr
    | reset K i n e => cases hr

/-- As long as no handler calls `Reset` or `ResetOffset`: no index is out of range, each handler starts at most once and in order.
Missing: handlers that call them (`C92_reset_violated`, `C92_resetOffset_violated`). -/
theorem C92_safe_partial (s : Nat) (st : RState) (h : RSteps (rinit s) st) (hr : st.reset = false) :
    st.outOfRange = false ∧ st.started.Pairwise (· < ·) ∧ ∀ i ∈ st.started, i < s := by
  obtain ⟨h1, -, -, h4⟩ := rsteps_plain s st h hr
  exact ⟨h4, C38_in_order_at_most_once s st.erase h1⟩

/-- Such executions end.
Missing: as for `C92_safe_partial`. -/
theorem C92_ends_partial (s : Nat) (f : Nat → RState) (h0 : f 0 = rinit s) (hr : ∀ n, (f n).reset = false) : ¬ ∀ n, RStep (f n) (f (n+1)) := by
  intro hs
  have hsteps : ∀ n, RSteps (rinit s) (f n) := by
    intro n
    induction n with
    | zero => rw [h0]; exact .refl _
    | succ n ih => exact .tail ih (hs n)
  refine C38_terminates s (fun n => (f n).erase) (by rw [h0]; rfl) fun n => ?_
  obtain ⟨h1, h2, h3, h4⟩ := rsteps_plain s _ (hsteps n) (hr n)
  have hoff := (inv_steps h1 (inv_init s)).offs
  simp only [RState.erase] at hoff
  have hn := hr (n + 1)
  have hstep := hs n
  generalize f n = a at *
  generalize f (n + 1) = b at *
  cases hstep with
  | start K s' n e a1 a2 a3 =>
    have : s' = s := h2 s' (by simp [e])
    subst this
    exact .start _ (K.map RFrame.erase) n (by simp [RState.erase, e, RFrame.erase]) (by simpa [RState.erase, h3] using a1) a2
  | abortReturn K s' e a1 a2 =>
    have : s' = s := h2 s' (by simp [e])
    subst this
    exact .abortReturn _ (K.map RFrame.erase) (by simp [RState.erase, e, RFrame.erase]) (by simpa [RState.erase, h3] using a1) a2
  | loopEnd K s' e a1 =>
    have : s' = s := h2 s' (by simp [e])
    subst this
    exact .loopEnd _ (K.map RFrame.erase) (by simp [RState.erase, e, RFrame.erase]) (by simpa [RState.erase, h3] using a1)
  | postInc K s' e => exact .postInc _ (K.map RFrame.erase) (by simp [RState.erase, e, RFrame.erase])
  | next K i n e => exact .next _ (K.map RFrame.erase) i n (by simp [RState.erase, e, RFrame.erase])
  | abort K i n e => exact .abort _ (K.map RFrame.erase) i n (by simp [RState.erase, e, RFrame.erase])
  | work K i n e => exact .work _ (K.map RFrame.erase) i n (by simp [RState.erase, e, RFrame.erase])
  | ret K i n e => exact .ret _ (K.map RFrame.erase) i n (by simp [RState.erase, e, RFrame.erase])
  | panic K i n e => exact .panic _ (K.map RFrame.erase) i n (by simp [RState.erase, e, RFrame.erase])
  | outOfRange K s' e a1 a2 a3 =>
    have : s' = s := h2 s' (by simp [e])
    subst this
    exact absurd ⟨hoff, by omega⟩ a3
  | resetOffset K i n e => cases hn
  | reset K i n e => cases hn

example : ∃ st, RSteps (rinit 1) st ∧ st.reset = false ∧ st.started = [0] ∧ st.stack = [] :=
  ⟨_, .tail (.tail (.tail (.tail (.refl _) (.start _ [] 1 0 rfl (by decide) (by decide) (by decide))) (.ret _ _ 0 0 rfl)) (.postInc _ _ 1 rfl))
    (.loopEnd _ _ 1 rfl (by decide)), rfl, rfl, rfl⟩

/-- After `Reset`, called by a handler the outermost `Next` of which has called it, nothing but a panic can follow if the handler does
nothing else: at the latest when it has returned, the emptied list of handlers is indexed with 0. -/
theorem C92_reset_violated (s : Nat) (st : RState) (i n : Nat) (K : List RFrame) (hs0 : 0 < s)
    (hst : st.stack = .hnd i (n + 1) :: .post s :: K) :
    ∃ a b c, RStep st a ∧ a.stack = .hnd i n :: .post s :: K ∧ RSteps a b ∧ b.stack = .post s :: K ∧ RStep b c ∧
      (∀ c', RStep b c' → c' = c) ∧ ∀ e, RStep c e → e.outOfRange = true ∧ e.stack = [] := by
  refine ⟨_, _, _, .reset st (.post s :: K) i n hst, rfl, .tail (.refl _) (.ret _ (.post s :: K) i n rfl), rfl, .postInc _ K s rfl, ?_, ?_⟩
  · intro c' hc
    cases hc with
    | postInc K' s' e => cases e; rfl
    | start K' s' n e => cases e
    | abortReturn K' s' e => cases e
    | loopEnd K' s' e => cases e
    | next K' i n e => cases e
    | abort K' i n e => cases e
    | work K' i n e => cases e
    | ret K' i n e => cases e
    | panic K' i n e => cases e
    | outOfRange K' s' e => cases e
    | resetOffset K' i n e => cases e
    | reset K' i n e => cases e
  · intro e he
    cases he with
    | outOfRange K' s' e => exact ⟨rfl, rfl⟩
    | start K' s' n e a1 a2 a3 => exact absurd a3.2 (by simp)
    | abortReturn K' s' e a1 a2 => exact absurd a2 (by simp [ABORT])
    | loopEnd K' s' e a1 => cases e; exact absurd (by simp; omega) a1
    | postInc K' s' e => cases e
    | next K' i n e => cases e
    | abort K' i n e => cases e
    | work K' i n e => cases e
    | ret K' i n e => cases e
    | panic K' i n e => cases e
    | resetOffset K' i n e => cases e
    | reset K' i n e => cases e

example : ∃ st, RSteps (rinit 2) st ∧ st.stack = .hnd 0 (0 + 1) :: .post 2 :: [] :=
  ⟨_, .tail (.refl _) (.start _ [] 2 1 rfl (by decide) (by decide) (by decide)), rfl⟩

/-- A chain of one handler that calls `ResetOffset` once and returns is run for ever. -/
theorem C92_resetOffset_violated : ∃ f : Nat → RState, f 0 = rinit 1 ∧ ∀ n, RStep (f n) (f (n + 1)) := by
  let st (k : Nat) (r : Bool) : RState := { len := 1, offset := 0, stack := [.loop 1], started := List.replicate k 0, reset := r }
  let run (k : Nat) : Nat → RState
    | 0 => st k (decide (0 < k))
    | 1 => { st (k + 1) (decide (0 < k)) with stack := [.hnd 0 1, .post 1] }
    | 2 => { st (k + 1) true with offset := -1, stack := [.hnd 0 0, .post 1] }
    | _ => { st (k + 1) true with offset := -1, stack := [.post 1] }
  refine ⟨fun n => run (n / 4) (n % 4), rfl, fun n => ?_⟩
  have hlt : n % 4 < 4 := Nat.mod_lt _ (by decide)
  have hcases : n % 4 = 0 ∨ n % 4 = 1 ∨ n % 4 = 2 ∨ n % 4 = 3 := by omega
  have hrep : ∀ k, List.replicate (k + 1) 0 = List.replicate k 0 ++ [0] := fun k => List.replicate_succ'
  rcases hcases with h | h | h | h
  · have h1 : (n + 1) / 4 = n / 4 := by omega
    have h2 : (n + 1) % 4 = 1 := by omega
    simp only [h, h1, h2, run, st]
    rw [hrep]
    exact .start _ [] 1 1 rfl (by simp) (by simp [ABORT]) (by simp)
  · have h1 : (n + 1) / 4 = n / 4 := by omega
    have h2 : (n + 1) % 4 = 2 := by omega
    simp only [h, h1, h2, run, st]
    exact .resetOffset _ [.post 1] 0 0 rfl
  · have h1 : (n + 1) / 4 = n / 4 := by omega
    have h2 : (n + 1) % 4 = 3 := by omega
    simp only [h, h1, h2, run, st]
    exact .ret _ [.post 1] 0 0 rfl
  · have h1 : (n + 1) / 4 = n / 4 + 1 := by omega
    have h2 : (n + 1) % 4 = 0 := by omega
    simp only [h, h1, h2, run, st]
    simp only [Nat.zero_lt_succ, decide_true]
    exact .postInc _ [] 1 rfl

end Tcpx
