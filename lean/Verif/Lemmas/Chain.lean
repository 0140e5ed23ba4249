import Verif.Model.Chain
namespace Tcpx.Chain

/-- The number of handlers that can possibly start. -/
def bound (s : Nat) : Nat := min s 2019

/-- Index of the next handler that could start. -/
def candOf (stack : List Frame) (offset : Int) : Int :=
  match stack with
  | .loop :: _ => offset
  | _ => offset + 1

/-- A stack whose top is a handler waiting for `Next` to return, or the bottom. -/
def okCaller : List Frame → Prop
  | [] => True
  | .hnd _ _ :: .post :: K => okCaller K
  | _ => False

def okStack : List Frame → Prop
  | .loop :: K => okCaller K
  | .post :: K => okCaller K
  | K => okCaller K

/-- Invariant of all reachable states. -/
structure Inv (st : State) : Prop where
  offs : 0 ≤ st.offset
  shape : okStack st.stack
  sorted : st.started.Pairwise (· < ·)
  below : ∀ i ∈ st.started, (i : Int) < candOf st.stack st.offset ∧ i < bound st.s
  high : st.aborted = true → st.offset ≥ ABORT
  full : st.aborted = false → st.panicked = false →
    ∀ i : Nat, i < bound st.s → (i : Int) < candOf st.stack st.offset → i ∈ st.started
  done : st.aborted = false → st.panicked = false → st.stack = [] → (bound st.s : Int) ≤ st.offset

theorem inv_init (s : Nat) : Inv (init s) where
  offs := by simp [init]
  shape := trivial
  sorted := List.Pairwise.nil
  below := by intro i h; simp [init] at h
  high := by intro h; simp [init] at h
  full := by intro _ _ i _ h; simp [init, candOf] at h; omega
  done := by intro _ _ h; simp [init] at h

theorem candOf_caller {K : List Frame} (h : okCaller K) (o : Int) : candOf K o = o + 1 := by
  match K, h with
  | [], _ => rfl
  | .hnd _ _ :: .post :: _, _ => rfl

theorem okStack_caller {K : List Frame} (h : okCaller K) : okStack K := by
  match K, h with
  | [], _ => trivial
  | .hnd _ _ :: .post :: _, h => exact h

theorem bound_le_of {s : Nat} {o : Int} (h : ¬ o < s ∨ o ≥ ABORT) : (bound s : Int) ≤ o := by
  unfold bound; unfold ABORT at h; omega

theorem hnd_shape {i n : Nat} {K : List Frame} (h : okStack (.hnd i n :: K)) :
    ∃ K', K = .post :: K' ∧ okCaller K' := by
  match K, h with
  | .post :: K', h => exact ⟨K', rfl, h⟩

/-- Popping a `Next` call whose loop is over. -/
theorem inv_pop {st : State} (iv : Inv st) {K : List Frame} (hs : st.stack = .loop :: K)
    (hb : (bound st.s : Int) ≤ st.offset) : Inv { st with stack := K } := by
  have hsh := iv.shape; rw [hs] at hsh
  have hK : okCaller K := hsh
  refine ⟨iv.offs, okStack_caller hK, iv.sorted, ?_, iv.high, ?_, fun _ _ _ => hb⟩
  · intro i hi
    have := iv.below i hi
    rw [hs] at this
    simp only [candOf] at this
    refine ⟨?_, this.2⟩
    show (i : Int) < candOf K st.offset
    rw [candOf_caller hK]; omega
  · intro ha hp i hi _
    refine iv.full ha hp i hi ?_
    rw [hs]; show (i : Int) < st.offset
    have : (i : Int) < (bound st.s : Int) := by exact_mod_cast hi
    omega

theorem inv_step {a b : State} (h : Step a b) (iv : Inv a) : Inv b := by
  cases h with
  | start K n hs h1 h2 =>
    have hsh := iv.shape; rw [hs] at hsh
    have hK : okCaller K := hsh
    have ho := iv.offs
    have hto : (a.offset.toNat : Int) = a.offset := Int.toNat_of_nonneg ho
    have hlt : a.offset.toNat < bound a.s := by unfold bound; unfold ABORT at h2; omega
    have hc : candOf a.stack a.offset = a.offset := by rw [hs]; rfl
    refine ⟨ho, hK, ?_, ?_, iv.high, ?_, ?_⟩
    · show (a.started ++ [a.offset.toNat]).Pairwise (· < ·)
      rw [List.pairwise_append]
      refine ⟨iv.sorted, List.pairwise_singleton _ _, ?_⟩
      intro x hx y hy
      have := (iv.below x hx).1
      rw [hc] at this
      simp only [List.mem_singleton] at hy
      omega
    · intro i hi
      show (i : Int) < a.offset + 1 ∧ _
      rcases List.mem_append.mp hi with hi | hi
      · have := iv.below i hi
        rw [hc] at this
        exact ⟨by omega, this.2⟩
      · simp only [List.mem_singleton] at hi
        subst hi; exact ⟨by omega, hlt⟩
    · intro ha hp i hi hcn
      have hcn' : (i : Int) < a.offset + 1 := hcn
      by_cases he : (i : Int) < a.offset
      · exact List.mem_append_left _ (iv.full ha hp i hi (by rw [hc]; exact he))
      · apply List.mem_append_right
        simp only [List.mem_singleton]; omega
    · intro _ _ h; exact absurd h (by simp)
  | abortReturn K hs h1 h2 => exact inv_pop iv hs (bound_le_of (Or.inr h2))
  | loopEnd K hs h1 => exact inv_pop iv hs (bound_le_of (Or.inl h1))
  | postInc K hs =>
    have hsh := iv.shape; rw [hs] at hsh
    have hK : okCaller K := hsh
    have ho := iv.offs
    have hc : candOf a.stack a.offset = a.offset + 1 := by rw [hs]; rfl
    refine ⟨by show 0 ≤ a.offset + 1; omega, hK, iv.sorted, ?_, ?_, ?_, ?_⟩
    · intro i hi
      have := iv.below i hi; rw [hc] at this; exact this
    · intro h; have := iv.high h; show a.offset + 1 ≥ ABORT; omega
    · intro ha hp i hi hcn
      exact iv.full ha hp i hi (by rw [hc]; exact hcn)
    · intro _ _ h; exact absurd h (by simp)
  | next K i n hs =>
    have hsh := iv.shape; rw [hs] at hsh
    obtain ⟨K', rfl, hK⟩ := hnd_shape hsh
    have ho := iv.offs
    have hc : candOf a.stack a.offset = a.offset + 1 := by rw [hs]; rfl
    refine ⟨by show 0 ≤ a.offset + 1; omega, hK, iv.sorted, ?_, ?_, ?_, ?_⟩
    · intro i hi
      have := iv.below i hi; rw [hc] at this; exact this
    · intro h; have := iv.high h; show a.offset + 1 ≥ ABORT; omega
    · intro ha hp i hi hcn
      exact iv.full ha hp i hi (by rw [hc]; exact hcn)
    · intro _ _ h; exact absurd h (by simp)
  | abort K i n hs =>
    have hsh := iv.shape; rw [hs] at hsh
    obtain ⟨K', rfl, hK⟩ := hnd_shape hsh
    refine ⟨by show (0 : Int) ≤ ABORT; decide, hK, iv.sorted, ?_, fun _ => Int.le_refl _, ?_, ?_⟩
    · intro i hi
      have := (iv.below i hi).2
      refine ⟨?_, this⟩
      show (i : Int) < ABORT + 1
      unfold bound at this; unfold ABORT; omega
    · intro h; exact absurd h (by simp)
    · intro h; exact absurd h (by simp)
  | work K i n hs =>
    have hsh := iv.shape; rw [hs] at hsh
    obtain ⟨K', rfl, hK⟩ := hnd_shape hsh
    have hc : candOf a.stack a.offset = a.offset + 1 := by rw [hs]; rfl
    refine ⟨iv.offs, hK, iv.sorted, ?_, iv.high, ?_, ?_⟩
    · intro i hi
      have := iv.below i hi; rw [hc] at this; exact this
    · intro ha hp i hi hcn
      exact iv.full ha hp i hi (by rw [hc]; exact hcn)
    · intro _ _ h; exact absurd h (by simp)
  | ret K i n hs =>
    have hsh := iv.shape; rw [hs] at hsh
    obtain ⟨K', rfl, hK⟩ := hnd_shape hsh
    have hc : candOf a.stack a.offset = a.offset + 1 := by rw [hs]; rfl
    refine ⟨iv.offs, hK, iv.sorted, ?_, iv.high, ?_, ?_⟩
    · intro i hi
      have := iv.below i hi; rw [hc] at this; exact this
    · intro ha hp i hi hcn
      exact iv.full ha hp i hi (by rw [hc]; exact hcn)
    · intro _ _ h; exact absurd h (by simp)
  | panic K i n hs =>
    have hsh := iv.shape; rw [hs] at hsh
    obtain ⟨K', rfl, hK⟩ := hnd_shape hsh
    have hc : candOf a.stack a.offset = a.offset + 1 := by rw [hs]; rfl
    refine ⟨iv.offs, trivial, iv.sorted, ?_, iv.high, ?_, ?_⟩
    · intro i hi
      have := iv.below i hi; rw [hc] at this; exact this
    · intro _ hp; exact absurd hp (by simp)
    · intro _ hp; exact absurd hp (by simp)

theorem step_s {a b : State} (h : Step a b) : b.s = a.s := by cases h <;> rfl

theorem inv_steps {a b : State} (h : Steps a b) (iv : Inv a) : Inv b := by
  induction h with
  | refl => exact iv
  | tail _ hs ih => exact inv_step hs ih

theorem steps_s {a b : State} (h : Steps a b) : b.s = a.s := by
  induction h with
  | refl => rfl
  | tail _ hs ih => rw [step_s hs, ih]

theorem offset_nonneg {s : Nat} {st : State} (h : Steps (init s) st) : 0 ≤ st.offset :=
  (inv_steps h (inv_init s)).offs

/-- Weight of a stack, used for termination. -/
def weight : List Frame → Nat
  | [] => 0
  | .loop :: K => 1 + weight K
  | .post :: K => 2 + weight K
  | .hnd _ n :: K => (3 * n + 1) + weight K

/-- Each step starts a handler or lowers the weight. -/
theorem step_measure {a b : State} (h : Step a b) :
    (b.started.length = a.started.length + 1) ∨ (b.started = a.started ∧ weight b.stack < weight a.stack) := by
  cases h with
  | start K n hs h1 h2 => left; simp
  | abortReturn K hs h1 h2 => right; rw [hs]; simp only [weight, true_and]; omega
  | loopEnd K hs h1 => right; rw [hs]; simp only [weight, true_and]; omega
  | postInc K hs => right; rw [hs]; simp only [weight, true_and]; omega
  | next K i n hs => right; rw [hs]; simp only [weight, true_and]; omega
  | abort K i n hs => right; rw [hs]; simp only [weight, true_and]; omega
  | work K i n hs => right; rw [hs]; simp only [weight, true_and]; omega
  | ret K i n hs => right; rw [hs]; simp only [weight, true_and]; omega
  | panic K i n hs => right; rw [hs]; simp only [weight, true_and]; omega

theorem sorted_length_le {l : List Nat} {b : Nat} (hs : l.Pairwise (· < ·)) (hb : ∀ i ∈ l, i < b) : l.length ≤ b := by
  induction b generalizing l with
  | zero => cases l with
    | nil => simp
    | cons a l => exact absurd (hb a List.mem_cons_self) (by omega)
  | succ b ih =>
    -- the elements different from b form a sorted list below b
    rcases l.eq_nil_or_concat with rfl | ⟨l', x, rfl⟩
    · simp
    · rw [List.concat_eq_append] at *
      rw [List.pairwise_append] at hs
      have hx := hb x (by simp)
      have : l'.length ≤ b := ih hs.1 (fun i hi => by have := hs.2.2 i hi x (by simp); omega)
      simp; omega

theorem sorted_eq_range {l : List Nat} {b : Nat} (hs : l.Pairwise (· < ·)) (hb : ∀ i, i ∈ l ↔ i < b) : l = List.range b := by
  induction b generalizing l with
  | zero => cases l with
    | nil => rfl
    | cons a l => exact absurd ((hb a).mp List.mem_cons_self) (by omega)
  | succ b ih =>
    rcases l.eq_nil_or_concat with rfl | ⟨l', x, rfl⟩
    · exact absurd ((hb b).mpr (by omega)) (by simp)
    · rw [List.concat_eq_append] at *
      rw [List.pairwise_append] at hs
      have hx : x < b + 1 := (hb x).mp (by simp)
      have hxb : x = b := by
        by_cases h : x = b
        · exact h
        · exfalso
          have hbm := (hb b).mpr (by omega)
          rcases List.mem_append.mp hbm with h' | h'
          · have := hs.2.2 b h' x (by simp); omega
          · simp at h'; omega
      subst hxb
      rw [List.range_succ, ih hs.1]
      · intro i
        constructor
        · intro hi; exact hs.2.2 i hi x (by simp)
        · intro hi
          have := (hb i).mpr (by omega)
          rcases List.mem_append.mp this with h' | h'
          · exact h'
          · simp at h'; omega

end Tcpx.Chain
