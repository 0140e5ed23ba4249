import Verif.Model.ChainTrace
import Verif.Lemmas.Chain
namespace Tcpx.Chain

/-- The handlers on a stack, innermost first. -/
def hnds : List Frame → List Nat
  | [] => []
  | .hnd i _ :: K => i :: hnds K
  | .loop :: K => hnds K
  | .post :: K => hnds K

theorem runs_steps {a b : State} {es : List CEv} (h : Runs a es b) : Steps a b := by
  induction h with
  | refl => exact .refl _
  | tail _ hs ih => exact .tail ih hs

/-- What is true of the events and the state after them. -/
structure TInv (es : List CEv) (st : State) : Prop where
  inv : Inv st
  dec : (hnds st.stack).Pairwise (· > ·)
  sub : ∀ i ∈ hnds st.stack, i ∈ st.started
  starts : ∀ i, CEv.start i ∈ es ↔ i ∈ st.started
  fin : st.panicked = false → ∀ j ∈ st.started, CEv.finish j ∈ es ∨ j ∈ hnds st.stack
  unfin : ∀ i ∈ hnds st.stack, CEv.finish i ∉ es
  finStart : ∀ i, CEv.finish i ∈ es → i ∈ st.started
  pk : st.panicked = true → st.stack = []
  ab : st.aborted = true ↔ ∃ i, CEv.abort i ∈ es

/-- What is true of an event, given those before it. -/
structure PInv (s : Nat) (l : List CEv) (e : CEv) : Prop where
  nested : ∀ i, (e = .start i ∨ e = .act i ∨ e = .next i ∨ e = .back i ∨ e = .abort i ∨ e = .finish i ∨ e = .panicked i) →
    ∀ j, i < j → CEv.start j ∈ l → CEv.finish j ∈ l
  active : ∀ i, (e = .act i ∨ e = .next i ∨ e = .back i ∨ e = .abort i ∨ e = .finish i ∨ e = .panicked i) →
    CEv.start i ∈ l ∧ CEv.finish i ∉ l
  rest : ∀ i, e = .back i → (∀ k, CEv.abort k ∉ l) → ∀ j, i < j → j < min s 2019 → CEv.finish j ∈ l
  all : e = .done → (∀ k, CEv.abort k ∉ l) → ∀ j, j < min s 2019 → CEv.finish j ∈ l
  last : e = .done → ∀ j, CEv.start j ∈ l → CEv.finish j ∈ l

theorem tinv_init (s : Nat) : TInv [] (init s) where
  inv := inv_init s
  dec := by simp [init, hnds]
  sub := by simp [init, hnds]
  starts := by simp [init]
  fin := by simp [init]
  unfin := by simp [init, hnds]
  finStart := by simp
  pk := by simp [init]
  ab := by simp [init]

/-- Events of the innermost handler. -/
theorem top_event {es : List CEv} {st : State} (iv : TInv es st) {i : Nat} {K : List Nat} (hh : hnds st.stack = i :: K) (hp : st.panicked = false) :
    (∀ j, i < j → CEv.start j ∈ es → CEv.finish j ∈ es) ∧ CEv.start i ∈ es ∧ CEv.finish i ∉ es := by
  refine ⟨?_, ?_, ?_⟩
  · intro j hj hs
    rcases iv.fin hp j ((iv.starts j).1 hs) with h | h
    · exact h
    · exfalso
      have hd := iv.dec
      rw [hh] at h hd
      rcases List.mem_cons.1 h with h | h
      · omega
      · have := (List.pairwise_cons.1 hd).1 j h
        omega
  · exact (iv.starts i).2 (iv.sub i (by rw [hh]; exact List.mem_cons_self))
  · exact iv.unfin i (by rw [hh]; exact List.mem_cons_self)

theorem unpanicked {es : List CEv} {st : State} (iv : TInv es st) {f : Frame} {K : List Frame} (hs : st.stack = f :: K) : st.panicked = false := by
  cases hp : st.panicked with
  | false => rfl
  | true => have := iv.pk hp; rw [hs] at this; cases this

theorem hnd_event {s : Nat} {es : List CEv} {st : State} (iv : TInv es st) {i n : Nat} {K : List Frame} (hs : st.stack = .hnd i n :: K) (e : CEv)
    (he : e = .act i ∨ e = .next i ∨ e = .abort i ∨ e = .finish i ∨ e = .panicked i) : PInv s es e := by
  obtain ⟨h1, h2, h3⟩ := top_event iv (by rw [hs]; rfl) (unpanicked iv hs)
  rcases he with rfl | rfl | rfl | rfl | rfl <;>
  · refine ⟨?_, ?_, (by intro i h; cases h), (by intro h; cases h), (by intro h; cases h)⟩
    · intro i' h'
      simp at h'
      subst h'
      exact h1
    · intro i' h'
      simp at h'
      subst h'
      exact ⟨h2, h3⟩

theorem back_event {es : List CEv} {st : State} (iv : TInv es st) {K : List Frame} (hs : st.stack = .loop :: K)
    (hb : (bound st.s : Int) ≤ st.offset) (e : CEv) (he : backOf K = [e]) : PInv st.s es e := by
  have hp := unpanicked iv hs
  have hfull : (∀ k, CEv.abort k ∉ es) → ∀ j, j < min st.s 2019 → j ∈ st.started := by
    intro hab j hj
    apply iv.inv.full _ hp j hj
    · rw [hs]; show (j : Int) < st.offset
      have : (j : Int) < (bound st.s : Int) := by unfold bound; omega
      omega
    · cases ha : st.aborted with
      | false => rfl
      | true => obtain ⟨i, hi⟩ := iv.ab.1 ha; exact absurd hi (hab i)
  have hsh := iv.inv.shape
  rw [hs] at hsh
  match K, hsh with
  | [], _ =>
    simp only [backOf, List.cons.injEq, and_true] at he
    subst he
    have hend : ∀ j, j ∈ st.started → CEv.finish j ∈ es := by
      intro j hj
      rcases iv.fin hp j hj with h | h
      · exact h
      · rw [hs] at h; cases h
    refine ⟨(by intro i h; simp at h), (by intro i h; simp at h), (by intro i h; cases h), ?_, ?_⟩
    · intro _ hab j hj
      exact hend j (hfull hab j hj)
    · intro _ j hj
      exact hend j ((iv.starts j).1 hj)
  | .hnd i n :: .post :: K, _ =>
    simp only [backOf, List.cons.injEq, and_true] at he
    subst he
    obtain ⟨h1, h2, h3⟩ := top_event iv (i := i) (K := hnds K) (by rw [hs]; rfl) hp
    refine ⟨?_, ?_, ?_, (by intro h; cases h), (by intro h; cases h)⟩
    · intro i' h'
      simp at h'
      subst h'
      exact h1
    · intro i' h'
      simp at h'
      subst h'
      exact ⟨h2, h3⟩
    · intro i' h' hab j hj hjb
      simp only [CEv.back.injEq] at h'
      subst h'
      exact h1 j hj ((iv.starts j).2 (hfull hab j hjb))

theorem tinv_step {es : List CEv} {a b : State} (iv : TInv es a) (h : Step a b) :
    TInv (es ++ evOf a b) b ∧ ∀ e ∈ evOf a b, PInv a.s es e := by
  have ivb := inv_step h iv.inv
  cases h with
  | start K n hs h1 h2 =>
    have hev : evOf a { a with stack := .hnd a.offset.toNat n :: .post :: K, started := a.started ++ [a.offset.toNat] } = [.start a.offset.toNat] := by
      simp [evOf, hs]
    have hp := unpanicked iv hs
    have hlt : ∀ i ∈ a.started, i < a.offset.toNat := by
      intro i hi
      have := (iv.inv.below i hi).1
      rw [hs] at this
      have : (i : Int) < a.offset := this
      omega
    rw [hev]
    refine ⟨⟨ivb, ?_, ?_, ?_, ?_, ?_, ?_, ?_, ?_⟩, ?_⟩
    · show (a.offset.toNat :: hnds K).Pairwise (· > ·)
      refine List.Pairwise.cons ?_ (by have := iv.dec; rw [hs] at this; exact this)
      intro i hi
      exact hlt i (iv.sub i (by rw [hs]; exact hi))
    · intro i hi
      rcases List.mem_cons.1 hi with hi | hi
      · subst hi; simp
      · exact List.mem_append_left _ (iv.sub i (by rw [hs]; exact hi))
    · intro i
      simp [iv.starts i]
    · intro _ j hj
      rcases List.mem_append.1 hj with hj | hj
      · rcases iv.fin hp j hj with h | h
        · exact Or.inl (List.mem_append_left _ h)
        · refine Or.inr (List.mem_cons_of_mem _ ?_)
          rw [hs] at h; exact h
      · rw [List.mem_singleton] at hj; subst hj; exact Or.inr List.mem_cons_self
    · intro i hi hf
      rcases List.mem_append.1 hf with hf | hf
      · rcases List.mem_cons.1 hi with hi | hi
        · subst hi
          have := hlt _ (iv.finStart _ hf)
          omega
        · exact iv.unfin i (by rw [hs]; exact hi) hf
      · simp at hf
    · intro i hf
      rcases List.mem_append.1 hf with hf | hf
      · exact List.mem_append_left _ (iv.finStart i hf)
      · simp at hf
    · intro h; rw [show ({ a with stack := .hnd a.offset.toNat n :: .post :: K, started := a.started ++ [a.offset.toNat] } : State).panicked = a.panicked from rfl, hp] at h; cases h
    · simp [iv.ab]
    · intro e he
      rw [List.mem_singleton] at he
      subst he
      refine ⟨?_, (by intro i h; simp at h), (by intro i h; cases h), (by intro h; cases h), (by intro h; cases h)⟩
      intro i hi j hj hst
      simp at hi
      subst hi
      have := hlt j ((iv.starts j).1 hst)
      omega
  | abortReturn K hs h1 h2 =>
    have hsh := iv.inv.shape; rw [hs] at hsh
    have hev : ∃ e, backOf K = [e] ∧ evOf a { a with stack := K } = [e] ∧ (∀ i, e ≠ .start i) ∧ (∀ i, e ≠ .finish i) ∧ (∀ i, e ≠ .abort i) := by
      match K, hsh with
      | [], _ => exact ⟨.done, rfl, by simp [evOf, hs, backOf], by simp, by simp, by simp⟩
      | .hnd i n :: .post :: K, _ => exact ⟨.back i, rfl, by simp [evOf, hs, backOf], by simp, by simp, by simp⟩
    obtain ⟨e, he1, he2, n1, n2, n3⟩ := hev
    rw [he2]
    have hh : hnds K = hnds a.stack := by rw [hs]; rfl
    refine ⟨⟨ivb, ?_, ?_, ?_, ?_, ?_, ?_, ?_, ?_⟩, ?_⟩
    · show (hnds K).Pairwise _; rw [hh]; exact iv.dec
    · show ∀ i ∈ hnds K, _; rw [hh]; exact iv.sub
    · intro i; simp [iv.starts i, (n1 i).symm]
    · intro hp j hj
      rcases iv.fin hp j hj with h | h
      · exact Or.inl (List.mem_append_left _ h)
      · exact Or.inr (by show j ∈ hnds K; rw [hh]; exact h)
    · intro i hi
      have hi' : i ∈ hnds a.stack := by rw [← hh]; exact hi
      simp [iv.unfin i hi', (n2 i).symm]
    · intro i hf
      simp only [List.mem_append, List.mem_singleton, (n2 i).symm, or_false] at hf
      exact iv.finStart i hf
    · intro h; have := unpanicked iv hs; rw [show ({ a with stack := K } : State).panicked = a.panicked from rfl, this] at h; cases h
    · have := iv.ab; simp only [List.mem_append, List.mem_singleton, fun i => (n3 i).symm, or_false]; exact this
    · intro e' he'
      rw [List.mem_singleton] at he'
      subst he'
      exact back_event iv hs (bound_le_of (Or.inr h2)) _ he1
  | loopEnd K hs h1 =>
    have hsh := iv.inv.shape; rw [hs] at hsh
    have hev : ∃ e, backOf K = [e] ∧ evOf a { a with stack := K } = [e] ∧ (∀ i, e ≠ .start i) ∧ (∀ i, e ≠ .finish i) ∧ (∀ i, e ≠ .abort i) := by
      match K, hsh with
      | [], _ => exact ⟨.done, rfl, by simp [evOf, hs, backOf], by simp, by simp, by simp⟩
      | .hnd i n :: .post :: K, _ => exact ⟨.back i, rfl, by simp [evOf, hs, backOf], by simp, by simp, by simp⟩
    obtain ⟨e, he1, he2, n1, n2, n3⟩ := hev
    rw [he2]
    have hh : hnds K = hnds a.stack := by rw [hs]; rfl
    refine ⟨⟨ivb, ?_, ?_, ?_, ?_, ?_, ?_, ?_, ?_⟩, ?_⟩
    · show (hnds K).Pairwise _; rw [hh]; exact iv.dec
    · show ∀ i ∈ hnds K, _; rw [hh]; exact iv.sub
    · intro i; simp [iv.starts i, (n1 i).symm]
    · intro hp j hj
      rcases iv.fin hp j hj with h | h
      · exact Or.inl (List.mem_append_left _ h)
      · exact Or.inr (by show j ∈ hnds K; rw [hh]; exact h)
    · intro i hi
      have hi' : i ∈ hnds a.stack := by rw [← hh]; exact hi
      simp [iv.unfin i hi', (n2 i).symm]
    · intro i hf
      simp only [List.mem_append, List.mem_singleton, (n2 i).symm, or_false] at hf
      exact iv.finStart i hf
    · intro h; have := unpanicked iv hs; rw [show ({ a with stack := K } : State).panicked = a.panicked from rfl, this] at h; cases h
    · have := iv.ab; simp only [List.mem_append, List.mem_singleton, fun i => (n3 i).symm, or_false]; exact this
    · intro e' he'
      rw [List.mem_singleton] at he'
      subst he'
      exact back_event iv hs (bound_le_of (Or.inl h1)) _ he1
  | postInc K hs =>
    have hev : evOf a { a with offset := a.offset + 1, stack := .loop :: K } = [] := by simp [evOf, hs]
    rw [hev, List.append_nil]
    have hh : hnds (Frame.loop :: K) = hnds a.stack := by rw [hs]; rfl
    refine ⟨⟨ivb, ?_, ?_, iv.starts, ?_, ?_, iv.finStart, ?_, iv.ab⟩, by intro e he; cases he⟩
    · show (hnds (Frame.loop :: K)).Pairwise _; rw [hh]; exact iv.dec
    · show ∀ i ∈ hnds (Frame.loop :: K), _; rw [hh]; exact iv.sub
    · show _ → ∀ j ∈ a.started, _ ∨ j ∈ hnds (Frame.loop :: K); rw [hh]; exact iv.fin
    · show ∀ i ∈ hnds (Frame.loop :: K), _; rw [hh]; exact iv.unfin
    · intro h; have := unpanicked iv hs; rw [show ({ a with offset := a.offset + 1, stack := .loop :: K } : State).panicked = a.panicked from rfl, this] at h; cases h
  | next K i n hs =>
    have hev : evOf a { a with offset := a.offset + 1, stack := .loop :: .hnd i n :: K } = [.next i] := by simp [evOf, hs]
    rw [hev]
    have hh : hnds (Frame.loop :: .hnd i n :: K) = hnds a.stack := by rw [hs]; rfl
    refine ⟨⟨ivb, ?_, ?_, ?_, ?_, ?_, ?_, ?_, ?_⟩, ?_⟩
    · show (hnds (Frame.loop :: .hnd i n :: K)).Pairwise _; rw [hh]; exact iv.dec
    · show ∀ j ∈ hnds (Frame.loop :: .hnd i n :: K), _; rw [hh]; exact iv.sub
    · intro j; simp [iv.starts j]
    · intro hp j hj
      rcases iv.fin hp j hj with h | h
      · exact Or.inl (List.mem_append_left _ h)
      · exact Or.inr (by show j ∈ hnds (Frame.loop :: .hnd i n :: K); rw [hh]; exact h)
    · intro j hj
      have hj' : j ∈ hnds a.stack := by rw [← hh]; exact hj
      simp [iv.unfin j hj']
    · intro j hf
      exact iv.finStart j (by simpa using hf)
    · intro h; have := unpanicked iv hs; rw [show ({ a with offset := a.offset + 1, stack := .loop :: .hnd i n :: K } : State).panicked = a.panicked from rfl, this] at h; cases h
    · simp [iv.ab]
    · intro e he
      rw [List.mem_singleton] at he
      subst he
      exact hnd_event iv hs _ (by simp)
  | abort K i n hs =>
    have hh : hnds (Frame.hnd i n :: K) = hnds a.stack := by rw [hs]; rfl
    have hev : ∃ e, evOf a { a with offset := ABORT, stack := .hnd i n :: K, aborted := true } = [e] ∧
        (e = .act i ∧ a.aborted = true ∨ e = .abort i) := by
      cases ha : a.aborted with
      | false => exact ⟨.abort i, by simp [evOf, hs, ha], Or.inr rfl⟩
      | true => exact ⟨.act i, by simp [evOf, hs, ha], Or.inl ⟨rfl, rfl⟩⟩
    obtain ⟨e, he, hcase⟩ := hev
    have n1 : ∀ j, e ≠ .start j := by rcases hcase with ⟨rfl, _⟩ | rfl <;> simp
    have n2 : ∀ j, e ≠ .finish j := by rcases hcase with ⟨rfl, _⟩ | rfl <;> simp
    rw [he]
    refine ⟨⟨ivb, ?_, ?_, ?_, ?_, ?_, ?_, ?_, ?_⟩, ?_⟩
    · show (hnds (Frame.hnd i n :: K)).Pairwise _; rw [hh]; exact iv.dec
    · show ∀ j ∈ hnds (Frame.hnd i n :: K), _; rw [hh]; exact iv.sub
    · intro j; simp [iv.starts j, (n1 j).symm]
    · intro hp j hj
      rcases iv.fin hp j hj with h | h
      · exact Or.inl (List.mem_append_left _ h)
      · exact Or.inr (by show j ∈ hnds (Frame.hnd i n :: K); rw [hh]; exact h)
    · intro j hj
      have hj' : j ∈ hnds a.stack := by rw [← hh]; exact hj
      simp [iv.unfin j hj', (n2 j).symm]
    · intro j hf
      exact iv.finStart j (by simpa [(n2 j).symm] using hf)
    · intro h; have := unpanicked iv hs; rw [show ({ a with offset := ABORT, stack := .hnd i n :: K, aborted := true } : State).panicked = a.panicked from rfl, this] at h; cases h
    · constructor
      · intro _
        rcases hcase with ⟨_, h⟩ | rfl
        · obtain ⟨k, hk⟩ := iv.ab.1 h
          exact ⟨k, List.mem_append_left _ hk⟩
        · exact ⟨i, by simp⟩
      · intro _; rfl
    · intro e' he'
      rw [List.mem_singleton] at he'
      subst he'
      exact hnd_event iv hs _ (by rcases hcase with ⟨rfl, _⟩ | rfl <;> simp)
  | work K i n hs =>
    have hev : evOf a { a with stack := .hnd i n :: K } = [.act i] := by simp [evOf, hs]
    rw [hev]
    have hh : hnds (Frame.hnd i n :: K) = hnds a.stack := by rw [hs]; rfl
    refine ⟨⟨ivb, ?_, ?_, ?_, ?_, ?_, ?_, ?_, ?_⟩, ?_⟩
    · show (hnds (Frame.hnd i n :: K)).Pairwise _; rw [hh]; exact iv.dec
    · show ∀ j ∈ hnds (Frame.hnd i n :: K), _; rw [hh]; exact iv.sub
    · intro j; simp [iv.starts j]
    · intro hp j hj
      rcases iv.fin hp j hj with h | h
      · exact Or.inl (List.mem_append_left _ h)
      · exact Or.inr (by show j ∈ hnds (Frame.hnd i n :: K); rw [hh]; exact h)
    · intro j hj
      have hj' : j ∈ hnds a.stack := by rw [← hh]; exact hj
      simp [iv.unfin j hj']
    · intro j hf
      exact iv.finStart j (by simpa using hf)
    · intro h; have := unpanicked iv hs; rw [show ({ a with stack := .hnd i n :: K } : State).panicked = a.panicked from rfl, this] at h; cases h
    · simp [iv.ab]
    · intro e he
      rw [List.mem_singleton] at he
      subst he
      exact hnd_event iv hs _ (by simp)
  | ret K i n hs =>
    have hsh := iv.inv.shape; rw [hs] at hsh
    obtain ⟨K', rfl, hK⟩ := hnd_shape hsh
    have hp := unpanicked iv hs
    have hev : evOf a { a with stack := .post :: K' } = [.finish i] := by simp [evOf, hs, hp]
    rw [hev]
    have hh : hnds a.stack = i :: hnds K' := by rw [hs]; rfl
    have hd := iv.dec
    rw [hh] at hd
    have hne : ∀ j ∈ hnds K', j < i := (List.pairwise_cons.1 hd).1
    refine ⟨⟨ivb, ?_, ?_, ?_, ?_, ?_, ?_, ?_, ?_⟩, ?_⟩
    · exact (List.pairwise_cons.1 hd).2
    · intro j hj; exact iv.sub j (by rw [hh]; exact List.mem_cons_of_mem _ hj)
    · intro j; simp [iv.starts j]
    · intro _ j hj
      rcases iv.fin hp j hj with h | h
      · exact Or.inl (List.mem_append_left _ h)
      · rw [hh] at h
        rcases List.mem_cons.1 h with h | h
        · subst h; exact Or.inl (by simp)
        · exact Or.inr h
    · intro j hj
      have h1 := iv.unfin j (by rw [hh]; exact List.mem_cons_of_mem _ hj)
      have h2 := hne j hj
      simp [h1]
      omega
    · intro j hf
      rcases List.mem_append.1 hf with hf | hf
      · exact iv.finStart j hf
      · simp at hf; subst hf; exact iv.sub _ (by rw [hh]; exact List.mem_cons_self)
    · intro h; rw [show ({ a with stack := .post :: K' } : State).panicked = a.panicked from rfl, hp] at h; cases h
    · simp [iv.ab]
    · intro e he
      rw [List.mem_singleton] at he
      subst he
      exact hnd_event iv hs _ (by simp)
  | panic K i n hs =>
    have hev : evOf a { a with stack := [], panicked := true } = [.panicked i] := by simp [evOf, hs]
    rw [hev]
    refine ⟨⟨ivb, ?_, ?_, ?_, ?_, ?_, ?_, ?_, ?_⟩, ?_⟩
    · exact List.Pairwise.nil
    · intro j hj; cases hj
    · intro j; simp [iv.starts j]
    · intro h; cases h
    · intro j hj; cases hj
    · intro j hf
      exact iv.finStart j (by simpa using hf)
    · intro _; rfl
    · simp [iv.ab]
    · intro e he
      rw [List.mem_singleton] at he
      subst he
      exact hnd_event iv hs _ (by simp)

theorem evOf_length (a b : State) : (evOf a b).length ≤ 1 := by
  unfold evOf backOf
  repeat' split
  all_goals simp

theorem split_app {α : Type} {l r l1 l3 : List α} {e : α} (hr : r.length ≤ 1) (h : l ++ r = l1 ++ e :: l3) :
    (∃ l3', l = l1 ++ e :: l3') ∨ (l1 = l ∧ e ∈ r) := by
  match r, hr with
  | [], _ => exact Or.inl ⟨l3, by simpa using h⟩
  | [x], _ =>
    rcases List.eq_nil_or_concat l3 with rfl | ⟨l3', y, rfl⟩
    · obtain ⟨h1, h2⟩ := List.append_inj' h rfl
      exact Or.inr ⟨h1.symm, by simp at h2; simp [h2]⟩
    · rw [List.concat_eq_append] at h
      have h' : l ++ [x] = (l1 ++ e :: l3') ++ [y] := by simpa using h
      exact Or.inl ⟨l3', (List.append_inj' h' rfl).1⟩

theorem tinv_runs {s : Nat} {es : List CEv} {st : State} (h : Runs (init s) es st) :
    TInv es st ∧ ∀ l1 e l3, es = l1 ++ e :: l3 → PInv s l1 e := by
  induction h with
  | refl => exact ⟨tinv_init s, by intro l1 e l3 h; simp at h⟩
  | @tail b c es hr hs ih =>
    obtain ⟨h1, h2⟩ := ih
    obtain ⟨h3, h4⟩ := tinv_step h1 hs
    have hss : b.s = s := steps_s (runs_steps hr)
    refine ⟨h3, ?_⟩
    intro l1 e l3 heq
    rcases split_app (evOf_length _ _) heq with ⟨l3', h⟩ | ⟨h, he⟩
    · exact h2 l1 e l3' h
    · subst h; rw [← hss]; exact h4 e he

end Tcpx.Chain
