import Verif.Lemmas.ConnRun
import Verif.Spec.Complete
/-! # Lemmas on chains and connections run to their ends -/
namespace Tcpx.Chain

/-- The handlers called are always the first ones. -/
theorem started_prefix {s : Nat} {st : State} (h : Steps (init s) st) : st.started = List.range st.started.length := by
  have pk : ∀ {b}, Steps (init s) b → b.panicked = true → b.stack = [] := by
    intro b hb
    induction hb with
    | refl => intro h; cases h
    | tail _ hs ih =>
      cases hs with
      | panic => intro _; rfl
      | start K n hs h1 h2 => intro hp; have := ih hp; rw [hs] at this; cases this
      | abortReturn K hs => intro hp; have := ih hp; rw [hs] at this; cases this
      | loopEnd K hs => intro hp; have := ih hp; rw [hs] at this; cases this
      | postInc K hs => intro hp; have := ih hp; rw [hs] at this; cases this
      | next K i n hs => intro hp; have := ih hp; rw [hs] at this; cases this
      | abort K i n hs => intro hp; have := ih hp; rw [hs] at this; cases this
      | work K i n hs => intro hp; have := ih hp; rw [hs] at this; cases this
      | ret K i n hs => intro hp; have := ih hp; rw [hs] at this; cases this
  induction h with
  | refl => rfl
  | @tail b c hr hs ih =>
    cases hs with
    | start K n hs h1 h2 =>
      have iv := inv_steps hr (inv_init s)
      have hp : b.panicked = false := by
        cases hp : b.panicked with
        | false => rfl
        | true => have := pk hr hp; rw [hs] at this; cases this
      have ha : b.aborted = false := by
        cases ha : b.aborted with
        | false => rfl
        | true => exact absurd (iv.high ha) h2
      have ho := iv.offs
      have hto : (b.offset.toNat : Int) = b.offset := Int.toNat_of_nonneg ho
      have hr : b.started = List.range b.offset.toNat := by
        apply sorted_eq_range iv.sorted
        intro i
        have hc : candOf b.stack b.offset = b.offset := by rw [hs]; rfl
        constructor
        · intro hi; have := (iv.below i hi).1; rw [hc] at this; omega
        · intro hi
          refine iv.full ha hp i ?_ (by rw [hc]; omega)
          unfold bound; unfold ABORT at h2; omega
      show b.started ++ [b.offset.toNat] = _
      rw [List.length_append, List.length_singleton, hr, List.length_range, List.range_succ]
    | _ => exact ih

/-- The calls among events. -/
def startsOf (es : List CEv) : List Nat := es.filterMap fun e => match e with | .start i => some i | _ => none

theorem runs_starts {s : Nat} {es : List CEv} {st : State} (h : Runs (init s) es st) : startsOf es = st.started := by
  induction h with
  | refl => rfl
  | @tail b c es h1 hs ih =>
    unfold startsOf at *
    rw [List.filterMap_append, ih]
    have iv := (tinv_runs h1).1
    have hsh := iv.inv.shape
    cases hs with
    | start K n hs h1 h2 => simp [evOf, hs]
    | abortReturn K hs h1 h2 =>
      rw [hs] at hsh
      match K, hsh with
      | [], _ => simp [evOf, hs, backOf]
      | .hnd i n :: .post :: K, _ => simp [evOf, hs, backOf]
    | loopEnd K hs h1 =>
      rw [hs] at hsh
      match K, hsh with
      | [], _ => simp [evOf, hs, backOf]
      | .hnd i n :: .post :: K, _ => simp [evOf, hs, backOf]
    | postInc K hs => simp [evOf, hs]
    | next K i n hs => simp [evOf, hs]
    | abort K i n hs => cases ha : b.aborted <;> simp [evOf, hs, ha]
    | work K i n hs => simp [evOf, hs]
    | ret K i n hs =>
      rw [hs] at hsh
      obtain ⟨K', rfl, hK⟩ := hnd_shape hsh
      simp [evOf, hs, unpanicked iv hs]
    | panic K i n hs => simp [evOf, hs]

/-- The events of message `m`. -/
def partOf (m : Nat) (es : List (Nat × CEv)) : List CEv := es.filterMap fun e => if e.1 = m then some e.2 else none

theorem partOf_append (m : Nat) (l r : List (Nat × CEv)) : partOf m (l ++ r) = partOf m l ++ partOf m r := List.filterMap_append
theorem partOf_map (m i : Nat) (es : List CEv) : partOf m (es.map fun e => (i, e)) = if i = m then es else [] := by
  induction es with
  | nil => simp [partOf]
  | cons e es ih =>
    simp only [partOf, List.map_cons, List.filterMap_cons] at ih ⊢
    by_cases h : i = m
    · simp only [h, if_true] at ih ⊢; rw [ih]
    · simp only [h, if_false] at ih ⊢; exact ih

/-- What the events of a group are made of. -/
structure Parts (ls : List Nat) (es : List (Nat × CEv)) (p : PState) : Prop where
  todo : p.todo = ls.drop (p.idx + 1)
  idx : p.idx < ls.length
  before : ∀ m n, m < p.idx → ls[m]? = some n → ∃ st, Runs (init n) (partOf m es) st ∧ st.stack = [] ∧ st.panicked = false
  now : ∀ n, ls[p.idx]? = some n → Runs (init n) (partOf p.idx es) p.cur
  later : ∀ m, p.idx < m → partOf m es = []

theorem pruns_parts {s : Nat} {todo : List Nat} {es : List (Nat × CEv)} {p : PState} (h : PRuns (pinit s todo) es p) : Parts (s :: todo) es p := by
  induction h with
  | refl =>
    refine ⟨rfl, by simp [pinit], by intro m n hm; simp [pinit] at hm, ?_, fun _ _ => rfl⟩
    intro n hn
    simp only [pinit, List.getElem?_cons_zero, Option.some.injEq] at hn
    subst hn
    exact .refl _
  | @inner b es c hr hs ih =>
    refine ⟨ih.todo, ih.idx, ?_, ?_, ?_⟩
    · intro m n hm hn
      have hm' : m < b.idx := hm
      rw [partOf_append, partOf_map, if_neg (by omega), List.append_nil]
      exact ih.before m n hm hn
    · intro n hn
      rw [partOf_append, partOf_map]
      simp only [if_true]
      exact .tail (ih.now n hn) hs
    · intro m hm
      have hm' : b.idx < m := hm
      rw [partOf_append, partOf_map, if_neg (by omega), List.append_nil]
      exact ih.later m hm
  | @advance b c es hr hs hi ih =>
    cases hs with
    | inner c hc => simp at hi
    | advance n' rest h hp ht =>
      have hd := ih.todo
      rw [ht] at hd
      have hlt : b.idx + 1 < (s :: todo).length := by
        rcases Nat.lt_or_ge (b.idx + 1) (s :: todo).length with h | h
        · exact h
        · rw [List.drop_eq_nil_of_le h] at hd; cases hd
      rw [List.drop_eq_getElem_cons hlt] at hd
      injection hd with hd1 hd2
      refine ⟨hd2, hlt, ?_, ?_, ?_⟩
      · intro m n hm hn
        have hm' : m < b.idx + 1 := hm
        by_cases hmb : m < b.idx
        · exact ih.before m n hmb hn
        · have : m = b.idx := by omega
          subst this
          exact ⟨_, ih.now n hn, h, hp⟩
      · intro n hn
        have hn' : (s :: todo)[b.idx + 1]? = some n := hn
        rw [List.getElem?_eq_getElem hlt, ← hd1] at hn'
        cases hn'
        show Runs _ (partOf (b.idx + 1) es) _
        rw [ih.later _ (by omega)]
        exact .refl _
      · intro m hm
        have hm' : b.idx + 1 < m := hm
        exact ih.later m (by omega)

/-- A group run to its end. -/
theorem parts_end {s : Nat} {todo : List Nat} {es : List (Nat × CEv)} {p : PState} (h : PRuns (pinit s todo) es p) (ht : p.todo = [])
    (hs : p.cur.stack = []) (hp : p.cur.panicked = false) (m n : Nat) (hn : (s :: todo)[m]? = some n) :
    ∃ st, Runs (init n) (partOf m es) st ∧ st.stack = [] ∧ st.panicked = false := by
  have pt := pruns_parts h
  have hlt := (List.getElem?_eq_some_iff.1 hn).1
  have hd := pt.todo
  rw [ht] at hd
  have hle : (s :: todo).length ≤ p.idx + 1 := by
    rcases Nat.lt_or_ge (p.idx + 1) (s :: todo).length with h | h
    · rw [List.drop_eq_getElem_cons h] at hd; cases hd
    · exact h
  have := pt.idx
  by_cases hm : m < p.idx
  · exact pt.before m n hm hn
  · have : m = p.idx := by omega
    subst this
    exact ⟨_, pt.now n hn, hs, hp⟩

end Tcpx.Chain

namespace Tcpx
open Chain

/-- What else is true of reachable states. -/
structure CRInv2 (len : Bytes → Option Nat) (s : CRState) : Prop where
  tasks : ∀ k t, s.tasks[k]? = some t → ∃ tk, (Spec.started (Spec.connPart s.log))[k]? = some tk ∧
    PRuns (startTask len tk).p (Spec.taskPart k s.log) t.p ∧ t.bad = (startTask len tk).bad
  alive : s.dead = false → ∀ t ∈ s.tasks, t.p.cur.panicked = false

theorem startTask_pinit (len : Bytes → Option Nat) (t : Task) : ∃ n ns, (startTask len t).p = pinit n ns := by
  unfold startTask
  simp only
  split
  · exact ⟨_, _, rfl⟩
  · exact ⟨_, _, rfl⟩

theorem crInv2_step {len : Bytes → Option Nat} {trace : List ConnEv} {a b : CRState} (iv : CRInv len trace a) (iv2 : CRInv2 len a)
    (h : CRStep len a b) : CRInv2 len b := by
  cases h with
  | go t rest ht hd =>
    constructor
    · intro k t' hk
      simp only [connPart_append, started_append, taskPart_append, taskPart_conn, List.append_nil]
      by_cases hlt : k < a.tasks.length
      · rw [List.getElem?_append_left hlt] at hk
        obtain ⟨tk, h1, h2, h3⟩ := iv2.tasks k t' hk
        exact ⟨tk, by rw [List.getElem?_append_left (by rw [← iv.count]; exact hlt)]; exact h1, h2, h3⟩
      · rw [List.getElem?_append_right (by omega)] at hk
        by_cases hz : k - a.tasks.length = 0
        · rw [hz] at hk
          simp only [List.getElem?_cons_zero, Option.some.injEq] at hk
          subst hk
          refine ⟨t, ?_, ?_, rfl⟩
          · rw [List.getElem?_append_right (by rw [← iv.count]; omega), ← iv.count, hz]; rfl
          · rw [iv.none k (by omega)]; exact .refl _
        · rw [List.getElem?_eq_none (by simp; omega)] at hk
          cases hk
    · intro _ t' ht'
      rcases List.mem_append.1 ht' with h | h
      · exact iv2.alive hd t' h
      · rw [List.mem_singleton.1 h]
        obtain ⟨n, ns, hp⟩ := startTask_pinit len t
        rw [hp]; rfl
  | conn e rest ht he hd =>
    constructor
    · intro k t' hk
      obtain ⟨tk, h1, h2, h3⟩ := iv2.tasks k t' hk
      refine ⟨tk, ?_, ?_, h3⟩
      · simp only [connPart_append, started_append]
        rw [List.getElem?_append_left (List.getElem?_eq_some_iff.1 h1).1]; exact h1
      · simp only [taskPart_append, taskPart_conn, List.append_nil]; exact h2
    · exact fun _ => iv2.alive hd
  | task k t c hk hs hd =>
    have hlt : k < a.tasks.length := (List.getElem?_eq_some_iff.1 hk).1
    constructor
    · intro k' t' hk'
      simp only [connPart_append, connPart_task, List.append_nil, taskPart_append, taskPart_task]
      by_cases h : k = k'
      · subst h
        simp only [List.getElem?_set_self hlt, Option.some.injEq] at hk'
        subst hk'
        obtain ⟨tk, h1, h2, h3⟩ := iv2.tasks k t hk
        exact ⟨tk, h1, by simp only [if_true]; exact .inner h2 hs, h3⟩
      · simp only [List.getElem?_set_ne h] at hk'
        obtain ⟨tk, h1, h2, h3⟩ := iv2.tasks k' t' hk'
        exact ⟨tk, h1, by simp only [h, if_false, List.append_nil]; exact h2, h3⟩
    · intro hd' t' ht'
      obtain ⟨j, hj, he⟩ := List.mem_iff_getElem.1 ht'
      rw [List.getElem_set] at he
      split at he
      · subst he; exact hd'
      · subst he; exact iv2.alive hd _ (List.getElem_mem _)
  | advance k t q hk hs hi hd =>
    have hlt : k < a.tasks.length := (List.getElem?_eq_some_iff.1 hk).1
    constructor
    · intro k' t' hk'
      by_cases h : k = k'
      · subst h
        simp only [List.getElem?_set_self hlt, Option.some.injEq] at hk'
        subst hk'
        obtain ⟨tk, h1, h2, h3⟩ := iv2.tasks k t hk
        exact ⟨tk, h1, .advance h2 hs hi, h3⟩
      · simp only [List.getElem?_set_ne h] at hk'
        exact iv2.tasks k' t' hk'
    · intro _ t' ht'
      obtain ⟨j, hj, he⟩ := List.mem_iff_getElem.1 ht'
      rw [List.getElem_set] at he
      split at he
      · subst he
        cases hs with
        | inner c hc => simp at hi
        | advance n' rest h hp ht => rfl
      · subst he; exact iv2.alive hd _ (List.getElem_mem _)
  | nilCtx k t hk hb ht hs hd =>
    constructor
    · intro k' t' hk'
      obtain ⟨tk, h1, h2, h3⟩ := iv2.tasks k' t' hk'
      refine ⟨tk, ?_, ?_, h3⟩
      · simp only [connPart_append, started_append]
        rw [List.getElem?_append_left (List.getElem?_eq_some_iff.1 h1).1]; exact h1
      · simp only [taskPart_append, taskPart_crash, List.append_nil]; exact h2
    · intro h; cases h

theorem crInv2_steps {len : Bytes → Option Nat} {g : ConnRun} {s : CRState} (h : CRSteps len (crInit g) s) : CRInv2 len s := by
  induction h with
  | refl => exact ⟨by intro k t hk; simp [crInit] at hk, by intro _ t ht; simp [crInit] at ht⟩
  | tail hr hs ih => exact crInv2_step (crInv_steps hr) ih hs

/-! ## Termination -/

/-- Calls and messages still to come in a goroutine. -/
def remaining (t : CTask) : Nat := (t.p.cur.s - t.p.cur.started.length) + (t.p.todo.map (· + 1)).sum

def totalRemaining (s : CRState) : Nat := (s.tasks.map remaining).sum
def totalWeight (s : CRState) : Nat := (s.tasks.map fun t => weight t.p.cur.stack).sum

theorem sum_set {α : Type} (f : α → Nat) : ∀ (l : List α) (k : Nat) (x y : α), l[k]? = some x → ((l.set k y).map f).sum + f x = (l.map f).sum + f y := by
  intro l
  induction l with
  | nil => intro k x y h; simp at h
  | cons a l ih =>
    intro k x y h
    cases k with
    | zero =>
      simp only [List.getElem?_cons_zero, Option.some.injEq] at h
      subst h
      simp [List.set, List.sum_cons]; omega
    | succ k =>
      simp only [List.getElem?_cons_succ] at h
      have := ih k x y h
      simp only [List.set, List.map_cons, List.sum_cons]; omega

theorem room {s : Nat} {st st' : State} (h : Steps (init s) st) (h' : Step st st') : st'.started.length ≤ st'.s := by
  have hr := Steps.tail h h'
  have iv := inv_steps hr (inv_init s)
  refine sorted_length_le iv.sorted (fun i hi => ?_)
  have := (iv.below i hi).2
  unfold bound at this
  omega

/-- Every step lowers the measure. -/
theorem crStep_measure {len : Bytes → Option Nat} {a b : CRState} (iv2 : CRInv2 len a) (h : CRStep len a b) :
    b.dead = true ∨ (b.todo.length < a.todo.length) ∨
    (b.todo = a.todo ∧ (totalRemaining b < totalRemaining a ∨ (totalRemaining b = totalRemaining a ∧ totalWeight b < totalWeight a))) := by
  cases h with
  | go t rest ht hd => right; left; rw [ht]; simp
  | conn e rest ht he hd => right; left; rw [ht]; simp
  | task k t c hk hs hd =>
    right; right
    refine ⟨rfl, ?_⟩
    have hr := sum_set remaining a.tasks k t { t with p := { t.p with cur := c } } hk
    have hw := sum_set (fun t : CTask => weight t.p.cur.stack) a.tasks k t { t with p := { t.p with cur := c } } hk
    have hst : ∃ n, Steps (init n) t.p.cur := by
      obtain ⟨tk, _, h2, _⟩ := iv2.tasks k t hk
      obtain ⟨n, ns, hp⟩ := startTask_pinit len tk
      rw [hp] at h2
      have pt := pruns_parts h2
      exact ⟨_, runs_steps (pt.now _ (List.getElem?_eq_getElem pt.idx))⟩
    obtain ⟨n, hst⟩ := hst
    have hroom := room hst hs
    have hss := step_s hs
    simp only [totalRemaining, totalWeight]
    simp only [remaining] at hr
    dsimp only at hw hr
    rcases step_measure hs with h | ⟨h1, h2⟩
    · left
      omega
    · right
      rw [h1, hss] at hr
      constructor
      · omega
      · omega
  | advance k t q hk hs hi hd =>
    right; right
    refine ⟨rfl, Or.inl ?_⟩
    have hr := sum_set remaining a.tasks k t { t with p := q } hk
    simp only [totalRemaining]
    cases hs with
    | inner c hc => simp at hi
    | advance n' rest h hp ht =>
      have e1 : remaining { t with p := { idx := t.p.idx + 1, cur := init n', todo := rest, log := t.p.starts } } = n' + (rest.map (· + 1)).sum := by
        simp [remaining, init]
      have e2 : remaining t = (t.p.cur.s - t.p.cur.started.length) + (n' + 1 + (rest.map (· + 1)).sum) := by
        simp only [remaining, ht, List.map_cons, List.sum_cons]
      rw [e1, e2] at hr
      omega
  | nilCtx k t hk hb ht hs hd => left; rfl

/-! ## Messages handled to the end -/

open Spec

theorem ofMessage_eq (k m : Nat) (l : List CREv) : ofMessage k m l = partOf m (taskPart k l) := by
  unfold ofMessage partOf taskPart
  rw [List.filterMap_filterMap]
  congr 1
  funext e
  cases e with
  | conn e => rfl
  | crash => rfl
  | task k' m' e =>
    by_cases h1 : k' = k
    · by_cases h2 : m' = m <;> simp [h1, h2]
    · simp [h1]

theorem chainLens_some (len : Bytes → Option Nat) : ∀ (cs : List (Option Bytes)) (m n : Nat), (chainLens len cs).1[m]? = some n →
    ∃ b, cs[m]? = some (some b) ∧ len b = some n := by
  intro cs
  induction cs with
  | nil => intro m n h; simp [chainLens] at h
  | cons c cs ih =>
    intro m n h
    cases c with
    | none => simp [chainLens] at h
    | some b =>
      simp only [chainLens] at h
      split at h
      · simp at h
      · next k hk =>
        cases m with
        | zero => exact ⟨b, rfl, by simpa [hk] using h⟩
        | succ m => simpa using ih m n (by simpa using h)

theorem chainLens_good (len : Bytes → Option Nat) : ∀ (cs : List (Option Bytes)), (chainLens len cs).2 = false →
    (chainLens len cs).1.length = cs.length ∧
    ∀ (m : Nat) (c : Option Bytes), cs[m]? = some c → ∃ b n, c = some b ∧ len b = some n ∧ (chainLens len cs).1[m]? = some n := by
  intro cs
  induction cs with
  | nil => intro _; exact ⟨rfl, by intro m c h; simp at h⟩
  | cons c cs ih =>
    intro h
    cases c with
    | none => simp [chainLens] at h
    | some b =>
      cases hl : len b with
      | none => simp [chainLens, hl] at h
      | some n =>
        simp only [chainLens, hl] at h ⊢
        obtain ⟨h1, h2⟩ := ih h
        refine ⟨by simp [h1], ?_⟩
        intro m c hm
        cases m with
        | zero =>
          simp only [List.getElem?_cons_zero, Option.some.injEq] at hm
          exact ⟨b, n, hm.symm, hl, rfl⟩
        | succ m =>
          simp only [List.getElem?_cons_succ] at hm ⊢
          exact h2 m c hm

theorem handledOnce_of {n : Nat} {es : List CEv} {st : State} (h : Runs (init n) es st) (hs : st.stack = []) (hp : st.panicked = false) :
    HandledOnce n es := by
  have hst := runs_steps h
  have iv := (tinv_runs h).1
  have hs' : st.s = n := steps_s hst
  have hpre := started_prefix hst
  have hle : st.started.length ≤ n := by
    refine sorted_length_le iv.inv.sorted (fun i hi => ?_)
    have := (iv.inv.below i hi).2
    unfold bound at this
    omega
  have hfull : st.aborted = false → st.started.length = min n 2019 := by
    intro ha
    have hd := iv.inv.done ha hp hs
    have : st.started = List.range (bound n) := by
      apply sorted_eq_range iv.inv.sorted
      intro i
      constructor
      · intro hi; have := (iv.inv.below i hi).2; rw [hs'] at this; exact this
      · intro hi
        refine iv.inv.full ha hp i (by rw [hs']; exact hi) ?_
        rw [hs, ← hs'] at *
        show (i : Int) < st.offset + 1
        omega
    rw [this, List.length_range]; rfl
  refine ⟨st.started.length, hle, ?_, ?_, ?_, ?_⟩
  · show Chain.startsOf es = _
    rw [runs_starts h]; exact hpre
  · intro i hi
    have : i ∈ st.started := by rw [hpre]; exact List.mem_range.2 hi
    rcases iv.fin hp i this with h' | h'
    · exact h'
    · rw [hs] at h'; simp [hnds] at h'
  · intro hn
    cases ha : st.aborted with
    | false => rw [hfull ha]; omega
    | true =>
      obtain ⟨i, hi⟩ := iv.ab.1 ha
      obtain ⟨l1, l3, he⟩ := List.append_of_mem hi
      have h0 := ((tinv_runs h).2 l1 _ l3 he).active i (by simp)
      have : CEv.start i ∈ es := by rw [he]; exact List.mem_append_left _ h0.1
      have := (iv.starts i).1 this
      exact List.length_pos_of_mem this
  · intro hab
    refine hfull ?_
    cases ha : st.aborted with
    | false => rfl
    | true => obtain ⟨i, hi⟩ := iv.ab.1 ha; exact absurd hi (hab i)

/-- Whoever is stuck in none of these ways has ended. -/
theorem ended_of (len : Bytes → Option Nat) (s : CRState) (ht : s.todo = []) (h : ∀ t ∈ s.tasks, t.p.cur.stack = [] ∧ t.p.todo = [] ∧ t.bad = false) :
    Ended len s := by
  intro s' hs
  have noStep : ∀ {a b : State}, a.stack = [] → ¬ Step a b := by
    intro a b ha hab
    cases hab with
    | start K n hs _ _ => rw [ha] at hs; cases hs
    | abortReturn K hs _ _ => rw [ha] at hs; cases hs
    | loopEnd K hs _ => rw [ha] at hs; cases hs
    | postInc K hs => rw [ha] at hs; cases hs
    | next K i n hs => rw [ha] at hs; cases hs
    | abort K i n hs => rw [ha] at hs; cases hs
    | work K i n hs => rw [ha] at hs; cases hs
    | ret K i n hs => rw [ha] at hs; cases hs
    | panic K i n hs => rw [ha] at hs; cases hs
  cases hs with
  | go t rest h' => rw [ht] at h'; cases h'
  | conn e rest h' => rw [ht] at h'; cases h'
  | task k t c hk hs hd => exact noStep (h t (List.mem_of_getElem? hk)).1 hs
  | advance k t q hk hs hi hd =>
    obtain ⟨h1, h2, _⟩ := h t (List.mem_of_getElem? hk)
    cases hs with
    | inner c hc => exact noStep h1 hc
    | advance n rest h3 h4 h5 => rw [h2] at h5; cases h5
  | nilCtx k t hk hb _ _ _ => rw [(h t (List.mem_of_getElem? hk)).2.2] at hb; cases hb

end Tcpx
