import Verif.Lemmas.ChainTrace
import Verif.Props.Chain
/-!
# C102, C21: the order of what handlers do

`Runs (init s) es st` ranges over all executions of a chain of `s` arbitrary handlers, with the events `es` so far.
-/
namespace Tcpx
open Chain

/-- The event is something that handler `i` does. -/
def Spec.By (e : CEv) (i : Nat) : Prop :=
  e = .start i ∨ e = .act i ∨ e = .next i ∨ e = .back i ∨ e = .abort i ∨ e = .finish i ∨ e = .panicked i

/-- C102: when a handler does anything, no later handler of the chain is running: those that have been called have returned. -/
theorem C102_nested (s : Nat) (es : List CEv) (st : State) (h : Runs (init s) es st) (l1 l3 : List CEv) (e : CEv) (i : Nat)
    (he : es = l1 ++ e :: l3) (hb : Spec.By e i) (j : Nat) (hj : i < j) (hs : .start j ∈ l1) : .finish j ∈ l1 :=
  ((tinv_runs h).2 l1 e l3 he).nested i hb j hj hs

/-- C102: a handler does something only between its call and its return. -/
theorem C102_active (s : Nat) (es : List CEv) (st : State) (h : Runs (init s) es st) (l1 l3 : List CEv) (e : CEv) (i : Nat)
    (he : es = l1 ++ e :: l3) (hb : Spec.By e i) (hne : e ≠ .start i) : .start i ∈ l1 ∧ .finish i ∉ l1 := by
  refine ((tinv_runs h).2 l1 e l3 he).active i ?_
  rcases hb with hb | hb
  · exact absurd hb hne
  · exact hb

/-- C102: what a handler does after its call of `Next` has returned comes after the whole rest of the chain, unless there was an
`Abort` before.  (The rest of the first 2019 handlers, see C39.) -/
theorem C102_after_next (s : Nat) (es : List CEv) (st : State) (h : Runs (init s) es st) (l1 l3 : List CEv) (i : Nat)
    (he : es = l1 ++ .back i :: l3) (ha : ∀ k, .abort k ∉ l1) (j : Nat) (hj : i < j) (hjs : j < min s 2019) : .finish j ∈ l1 :=
  ((tinv_runs h).2 l1 _ l3 he).rest i rfl ha j hj hjs

/-- C102: when the chain is done, everything called has returned, and unless there was an `Abort` that is every handler (of the
first 2019). -/
theorem C102_done (s : Nat) (es : List CEv) (st : State) (h : Runs (init s) es st) (l1 l3 : List CEv) (he : es = l1 ++ .done :: l3) :
    (∀ j, .start j ∈ l1 → .finish j ∈ l1) ∧ ((∀ k, .abort k ∉ l1) → ∀ j, j < min s 2019 → .finish j ∈ l1) :=
  ⟨((tinv_runs h).2 l1 _ l3 he).last rfl, ((tinv_runs h).2 l1 _ l3 he).all rfl⟩

/-- C102: every execution has its events, and the calls among them are those of `started`. -/
theorem C102_events (s : Nat) (st : State) (h : Steps (init s) st) : ∃ es, Runs (init s) es st ∧
    es.filterMap (fun e => match e with | .start i => some i | _ => none) = st.started := by
  induction h with
  | refl => exact ⟨[], .refl _, rfl⟩
  | @tail b c hr hs ih =>
    obtain ⟨es, h1, h2⟩ := ih
    refine ⟨_, .tail h1 hs, ?_⟩
    rw [List.filterMap_append, h2]
    have iv := (tinv_runs h1).1
    have hsh := iv.inv.shape
    cases hs with
    | start K n hs h1 h2 => simp [evOf, hs]
    | abortReturn K hs h1 h2 =>
      rw [hs] at hsh
      match K, hsh with
      | [], _ => simp [evOf, hs, backOf]
      | .hnd i n :: .post :: K, _ => simp [evOf, hs, backOf]
    | loopEnd K hs h1 =>
      rw [hs] at hsh
      match K, hsh with
      | [], _ => simp [evOf, hs, backOf]
      | .hnd i n :: .post :: K, _ => simp [evOf, hs, backOf]
    | postInc K hs => simp [evOf, hs]
    | next K i n hs => simp [evOf, hs]
    | abort K i n hs => cases ha : b.aborted <;> simp [evOf, hs, ha]
    | work K i n hs => simp [evOf, hs]
    | ret K i n hs =>
      rw [hs] at hsh
      obtain ⟨K', rfl, hK⟩ := hnd_shape hsh
      simp [evOf, hs, unpanicked iv hs]
    | panic K i n hs => simp [evOf, hs]

-- a middleware that calls Next and then works, and a handler
example : ∃ es st, Runs (init 2) es st ∧ es = [.start 0, .next 0, .start 1, .finish 1, .back 0, .act 0, .finish 0, .done] := by
  have h := (((((((((Runs.refl (init 2)).tail (.start _ [] 2 rfl (by decide) (by decide))).tail (.next _ _ 0 1 rfl)).tail
    (.start _ _ 0 rfl (by decide) (by decide))).tail (.ret _ _ 1 0 rfl)).tail (.postInc _ _ rfl)).tail (.loopEnd _ _ rfl (by decide))).tail
    (.work _ _ 0 0 rfl)).tail (.ret _ _ 0 0 rfl)).tail (.postInc _ _ rfl)
  exact ⟨_, _, h.tail (.loopEnd _ _ rfl (by decide)), by decide⟩

/-! ## C21 -/

theorem pruns_inv {s : Nat} {todo : List Nat} {es : List (Nat × CEv)} {p : PState} (h : PRuns (pinit s todo) es p) :
    (∃ n cur, Runs (init n) cur p.cur ∧ (∀ e, (p.idx, e) ∈ es ↔ e ∈ cur)) ∧ (∀ e ∈ es, e.1 ≤ p.idx) ∧
    (∀ m j, m < p.idx → (m, CEv.start j) ∈ es → (m, CEv.finish j) ∈ es) ∧
    (∀ l1 e l3 m, es = l1 ++ e :: l3 → m < e.1 → ∀ j, (m, CEv.start j) ∈ l1 → (m, CEv.finish j) ∈ l1) := by
  induction h with
  | refl =>
    refine ⟨⟨s, [], .refl _, by simp⟩, by simp, by simp, ?_⟩
    intro l1 e l3 m h
    simp at h
  | @inner b es c hr hs ih =>
    obtain ⟨⟨n, cur, h1, h2⟩, h3, h4, h5⟩ := ih
    refine ⟨⟨n, _, .tail h1 hs, ?_⟩, ?_, ?_, ?_⟩
    · intro e
      simp only [List.mem_append, List.mem_map, Prod.mk.injEq, true_and, exists_eq_right]
      exact or_congr (h2 e) Iff.rfl
    · intro e he
      rcases List.mem_append.1 he with he | he
      · exact h3 e he
      · obtain ⟨e', _, rfl⟩ := List.mem_map.1 he
        exact Nat.le_refl _
    · intro m j hm hst
      have hm' : m < b.idx := hm
      refine List.mem_append_left _ (h4 m j hm' ?_)
      rcases List.mem_append.1 hst with h | h
      · exact h
      · obtain ⟨e', _, h⟩ := List.mem_map.1 h
        simp only [Prod.mk.injEq] at h
        omega
    · intro l1 e l3 m heq hm j hst
      rcases split_app (by rw [List.length_map]; exact evOf_length _ _) heq with ⟨l3', h⟩ | ⟨h, he⟩
      · exact h5 l1 e l3' m h hm j hst
      · subst h
        obtain ⟨e', _, rfl⟩ := List.mem_map.1 he
        exact h4 m j hm hst
  | @advance b c es hr hs hi ih =>
    obtain ⟨⟨n, cur, h1, h2⟩, h3, h4, h5⟩ := ih
    cases hs with
    | inner c hc => simp at hi
    | advance s' rest h hp ht =>
      refine ⟨⟨s', [], .refl _, ?_⟩, ?_, ?_, h5⟩
      · intro e
        simp only [List.not_mem_nil, iff_false]
        intro he
        have := h3 _ he
        simp at this
        omega
      · intro e he
        have := h3 e he
        simp; omega
      · intro m j hm hst
        have hm' : m < b.idx + 1 := hm
        by_cases hmb : m < b.idx
        · exact h4 m j hmb hst
        · have : m = b.idx := by omega
          subst this
          have iv := (tinv_runs h1).1
          rw [h2] at hst ⊢
          rcases iv.fin hp j ((iv.starts j).1 hst) with h' | h'
          · exact h'
          · rw [h] at h'; cases h'

/-- C21: when a handler of a message of a piped group does anything, every handler called for an earlier message of the group
has returned. -/
theorem C21_one_after_another (s : Nat) (todo : List Nat) (es : List (Nat × CEv)) (p : PState) (h : PRuns (pinit s todo) es p)
    (l1 l3 : List (Nat × CEv)) (e : Nat × CEv) (he : es = l1 ++ e :: l3) (m j : Nat) (hm : m < e.1) (hs : (m, .start j) ∈ l1) :
    (m, .finish j) ∈ l1 :=
  (pruns_inv h).2.2.2 l1 e l3 m he hm j hs

/-- C21: every execution of a piped group has its events. -/
theorem C21_events (s : Nat) (todo : List Nat) (p : PState) (h : PSteps (pinit s todo) p) : ∃ es, PRuns (pinit s todo) es p := by
  induction h with
  | refl => exact ⟨[], .refl _⟩
  | tail _ hs ih =>
    obtain ⟨es, he⟩ := ih
    cases hs with
    | inner c hc => exact ⟨_, .inner he hc⟩
    | advance s' rest h hp ht => exact ⟨_, .advance he (.advance _ s' rest h hp ht) rfl⟩

-- two messages with one handler each
example : ∃ es p, PRuns (pinit 1 [1]) es p ∧ es = [(0, .start 0), (0, .finish 0), (0, .done), (1, .start 0)] := by
  have h := ((((PRuns.refl (pinit 1 [1])).inner (.start _ [] 0 rfl (by decide) (by decide))).inner (.ret _ _ 0 0 rfl)).inner
    (.postInc _ _ rfl)).inner (.loopEnd _ _ rfl (by decide))
  exact ⟨_, _, (h.advance (.advance _ 1 [] rfl rfl rfl) rfl).inner (.start _ [] 0 rfl (by decide) (by decide)), by decide⟩

end Tcpx
