import Verif.Model.Raw
import Verif.Spec.Routing
import Verif.Props.Chain
import Verif.Props.Routing
/-! # C78: the raw server -/
namespace Tcpx
open Chain Spec

/-- What the chain part of a run of a raw connection has called: the handlers with the given numbers. -/
def called (handlers : List (Option H)) (started : List Nat) : List RawEv :=
  started.filterMap fun i => match handlers[i]? with | some (some h) => some (.run h) | _ => none

theorem step_started {a b : State} (h : Step a b) : b.started = a.started ∨ ∃ i, b.started = a.started ++ [i] := by
  cases h <;> first | exact .inl rfl | exact .inr ⟨_, rfl⟩

theorem called_step {a b : State} (h : Step a b) (hs : List (Option H)) :
    called hs b.started = called hs a.started ++ calledBy hs a b := by
  rcases step_started h with e | ⟨i, e⟩
  · simp [calledBy, e]
  · simp only [calledBy, e, List.length_append, List.length_singleton, called, List.filterMap_append]
    rw [if_neg (by omega), List.getLast?_append]
    simp only [List.getLast?_singleton, Option.some_or]
    simp only [List.filterMap_cons, List.filterMap_nil]
    cases hs[i]? with
    | none => rfl
    | some o => cases o <;> rfl

theorem step_not_end {a b : State} (h : Step a b) : a.stack ≠ [] := by
  cases h <;> simp_all

/-- The possible situations of a raw connection. -/
structure RawInv (hs : List (Option H)) (hasOnClose : Bool) (st : RawState) : Prop where
  hand : st.handlers = hs
  chain : Steps (init hs.length) st.chain
  pos : (st.deferred = (deferOrder hasOnClose).reverse ∧ st.trace = called hs st.chain.started) ∨
    (st.chain.stack = [] ∧ hasOnClose = true ∧ st.deferred = [.closeConn, .recover] ∧ st.trace = called hs st.chain.started ++ [.onClose]) ∨
    (st.chain.stack = [] ∧ (st.deferred = [.recover] ∨ (st.deferred = [] ∧ st.panicking = false)) ∧
      st.trace = called hs st.chain.started ++ (if hasOnClose then [.onClose] else []) ++ [.closeConn])

theorem rawInv_init (s : Srv) (raw : Option H) (b : Bool) : RawInv (rawHandlers s raw) b (rawInit s raw b) :=
  ⟨rfl, .refl _, .inl ⟨rfl, rfl⟩⟩

theorem rawInv_step {hs : List (Option H)} {b : Bool} {st st' : RawState} (iv : RawInv hs b st) (h : RawStep st st') : RawInv hs b st' := by
  obtain ⟨h1, h2, h3⟩ := iv
  cases h with
  | chain c h hn =>
    refine ⟨h1, .tail h2 h, ?_⟩
    rcases h3 with ⟨hd, ht⟩ | ⟨he, _⟩ | ⟨he, _⟩
    · refine .inl ⟨hd, ?_⟩
      show st.trace ++ calledBy st.handlers st.chain c = _
      rw [ht, h1, called_step h]
    · exact absurd he (step_not_end h)
    · exact absurd he (step_not_end h)
  | onClose ds p h hd =>
    refine ⟨h1, h2, ?_⟩
    rcases h3 with ⟨hd', ht⟩ | ⟨_, _, hd', _⟩ | ⟨_, hd' | ⟨hd', _⟩, _⟩
    · cases b with
      | false => rw [hd] at hd'; simp [deferOrder] at hd'
      | true =>
        rw [hd] at hd'
        simp only [deferOrder, if_true, List.cons_append, List.nil_append, List.reverse_cons, List.reverse_nil, List.cons.injEq, true_and] at hd'
        exact .inr (.inl ⟨h, rfl, hd', by show _ ++ _ = _; rw [ht]⟩)
    · rw [hd] at hd'; cases hd'
    · rw [hd] at hd'; cases hd'
    · rw [hd] at hd'; cases hd'
  | closeConn ds h hd =>
    refine ⟨h1, h2, ?_⟩
    rcases h3 with ⟨hd', ht⟩ | ⟨_, hb, hd', ht⟩ | ⟨_, hd' | ⟨hd', _⟩, _⟩
    · cases b with
      | true => rw [hd] at hd'; simp [deferOrder] at hd'
      | false =>
        rw [hd] at hd'
        simp only [deferOrder, Bool.false_eq_true, if_false, List.append_nil, List.reverse_cons, List.reverse_nil, List.nil_append, List.cons_append,
          List.cons.injEq, true_and] at hd'
        exact .inr (.inr ⟨h, .inl hd', by show _ ++ _ = _; rw [ht]; simp⟩)
    · rw [hd] at hd'
      cases hd'
      exact .inr (.inr ⟨h, .inl rfl, by show _ ++ _ = _; rw [ht, hb]; rfl⟩)
    · rw [hd] at hd'; cases hd'
    · rw [hd] at hd'; cases hd'
  | recover ds h hd =>
    refine ⟨h1, h2, ?_⟩
    rcases h3 with ⟨hd', ht⟩ | ⟨_, hb, hd', ht⟩ | ⟨_, hd' | ⟨hd', _⟩, ht⟩
    · cases b <;> (rw [hd] at hd'; simp [deferOrder] at hd')
    · rw [hd] at hd'; cases hd'
    · rw [hd] at hd'; cases hd'
      exact .inr (.inr ⟨h, .inr ⟨rfl, rfl⟩, ht⟩)
    · rw [hd] at hd'; cases hd'

theorem rawInv_steps {hs : List (Option H)} {b : Bool} {st st' : RawState} (iv : RawInv hs b st) (h : RawSteps st st') : RawInv hs b st' := by
  induction h with
  | refl => exact iv
  | tail _ hs ih => exact rawInv_step ih hs

/-- The handlers of a raw connection according to the registration history: globals, every anchor middleware ever used, `HandleRaw`. -/
def Spec.rawChain (h : List RegEv) (raw : Option H) : List (Option H) :=
  (globals h ++ (firstUses h).map (·.2)).map some ++ [raw]

theorem rawHandlers_eq (h : List RegEv) (raw : Option H) : rawHandlers (runHist h) raw = rawChain h raw := by
  simp only [rawHandlers, rawChain, globals_eq, (anchors_eq h).2, List.map_map]
  rfl

/-- C78: at any moment of any run, what a raw connection has done is: called handlers of the chain globals, anchors, `HandleRaw`, in
order and each at most once; then, only after the chain has returned or panicked, `OnClose` (if set), then `CloseConn`. -/
theorem C78_sequence (h : List RegEv) (raw : Option H) (hasOnClose : Bool) (st : RawState)
    (hr : RawSteps (rawInit (runHist h) raw hasOnClose) st) :
    ∃ started : List Nat, started.Pairwise (· < ·) ∧ (∀ i ∈ started, i < (rawChain h raw).length) ∧
      let runs := started.filterMap fun i => match (rawChain h raw)[i]? with | some (some f) => some (RawEv.run f) | _ => none
      st.trace = runs ∨
      (st.chain.stack = [] ∧ hasOnClose = true ∧ st.trace = runs ++ [.onClose]) ∨
      (st.chain.stack = [] ∧ st.trace = runs ++ (if hasOnClose then [.onClose] else []) ++ [.closeConn]) := by
  have iv := rawInv_steps (rawInv_init (runHist h) raw hasOnClose) hr
  rw [rawHandlers_eq] at iv
  obtain ⟨h1, h2⟩ := C38_in_order_at_most_once _ _ iv.chain
  refine ⟨st.chain.started, h1, h2, ?_⟩
  rcases iv.pos with ⟨_, ht⟩ | ⟨he, hb, _, ht⟩ | ⟨he, _, ht⟩
  · exact .inl ht
  · exact .inr (.inl ⟨he, hb, ht⟩)
  · exact .inr (.inr ⟨he, ht⟩)

/-- C78: when the goroutine has finished, `OnClose` (if set) and `CloseConn` have run exactly once, last and in this order, and no
panic has left it; whatever the handlers and `OnClose` did, and also if `HandleRaw` is nil. -/
theorem C78_finished (h : List RegEv) (raw : Option H) (hasOnClose : Bool) (st : RawState)
    (hr : RawSteps (rawInit (runHist h) raw hasOnClose) st) (hend : ∀ st', ¬ RawStep st st') :
    st.panicking = false ∧ ∃ fs : List H, st.trace = fs.map .run ++ (if hasOnClose then [.onClose] else []) ++ [.closeConn] := by
  have iv := rawInv_steps (rawInv_init (runHist h) raw hasOnClose) hr
  have hstack : st.chain.stack = [] := by
    cases hst : st.chain.stack with
    | nil => rfl
    | cons f K =>
      exfalso
      cases f with
      | loop =>
        have hn : ¬ inNil st.handlers st.chain := by
          rintro ⟨i, n, K', h1, _⟩; rw [hst] at h1; cases h1
        by_cases h1 : st.chain.offset < st.chain.s
        · by_cases h2 : st.chain.offset ≥ ABORT
          · exact hend _ (.chain st _ (.abortReturn _ K hst h1 h2) (fun h => absurd h hn))
          · exact hend _ (.chain st _ (.start _ K 0 hst h1 h2) (fun h => absurd h hn))
        · exact hend _ (.chain st _ (.loopEnd _ K hst h1) (fun h => absurd h hn))
      | post =>
        have hn : ¬ inNil st.handlers st.chain := by
          rintro ⟨i, n, K', h1, _⟩; rw [hst] at h1; cases h1
        exact hend _ (.chain st _ (.postInc _ K hst) (fun h => absurd h hn))
      | hnd i n => exact hend _ (.chain st _ (.panic _ K i n hst) (fun _ => rfl))
  have hruns : ∀ l, ∃ fs : List H, called (rawHandlers (runHist h) raw) l = fs.map .run := by
    intro l
    refine ⟨l.filterMap fun i => match (rawHandlers (runHist h) raw)[i]? with | some (some f) => some f | _ => none, ?_⟩
    rw [called, List.map_filterMap]
    congr 1
    funext i
    cases (rawHandlers (runHist h) raw)[i]? with
    | none => rfl
    | some o => cases o <;> rfl
  obtain ⟨fs, hfs⟩ := hruns st.chain.started
  rcases iv.pos with ⟨hd, _⟩ | ⟨_, _, hd, _⟩ | ⟨_, hd | ⟨_, hp⟩, ht⟩
  · exfalso
    cases hasOnClose with
    | false => exact hend _ (.closeConn st [.recover] hstack hd)
    | true => exact hend _ (.onClose st [.closeConn, .recover] false hstack hd)
  · exact absurd (.closeConn st [.recover] hstack hd) (hend _)
  · exact absurd (.recover st [] hstack hd) (hend _)
  · exact ⟨hp, fs, by rw [ht, hfs]⟩

/-- C78: it cannot go on for ever, if each handler performs finitely many actions. -/
theorem C78_terminates (h : List RegEv) (raw : Option H) (hasOnClose : Bool) (f : Nat → RawState)
    (h0 : f 0 = rawInit (runHist h) raw hasOnClose) : ¬ ∀ n, RawStep (f n) (f (n+1)) := by
  intro hs
  -- while the chain runs every step is one of it; afterwards each step consumes a deferred call
  have step : ∀ n, Step (f n).chain (f (n+1)).chain ∨ ((f n).chain.stack = [] ∧ (f (n+1)).chain = (f n).chain ∧
      (f (n+1)).deferred.length < (f n).deferred.length) := by
    intro n
    generalize f (n+1) = b, f n = a, hs n = hab
    cases hab with
    | chain c h hn => exact .inl h
    | onClose ds p h hd => exact .inr ⟨h, rfl, by rw [hd]; simp⟩
    | closeConn ds h hd => exact .inr ⟨h, rfl, by rw [hd]; simp⟩
    | recover ds h hd => exact .inr ⟨h, rfl, by rw [hd]; simp⟩
  by_cases hall : ∀ n, Step (f n).chain (f (n+1)).chain
  · exact C38_terminates _ (fun n => (f n).chain) (by rw [h0]; rfl) hall
  · obtain ⟨n, hn⟩ := Classical.not_forall.1 hall
    have key : ∀ k, (f (n+k)).chain.stack = [] ∧ (f (n+k)).deferred.length + k ≤ (f n).deferred.length := by
      intro k
      induction k with
      | zero => exact ⟨(((step n).resolve_left hn).1), by simp⟩
      | succ k ih =>
        rcases step (n+k) with h | ⟨_, h2, h3⟩
        · exact absurd ih.1 (step_not_end h)
        · rw [← Nat.add_assoc]; exact ⟨by rw [h2]; exact ih.1, by omega⟩
    have := (key ((f n).deferred.length + 1)).2
    omega

/-- What a finished connection has done, by the handlers that were started. -/
theorem raw_finished (h : List RegEv) (raw : Option H) (hasOnClose : Bool) (st : RawState)
    (hr : RawSteps (rawInit (runHist h) raw hasOnClose) st) (hend : ∀ st', ¬ RawStep st st') :
    Steps (init (rawChain h raw).length) st.chain ∧ st.chain.stack = [] ∧
    st.trace = called (rawChain h raw) st.chain.started ++ (if hasOnClose then [.onClose] else []) ++ [.closeConn] := by
  have iv := rawInv_steps (rawInv_init (runHist h) raw hasOnClose) hr
  rw [rawHandlers_eq] at iv
  obtain ⟨_, fs, ht⟩ := C78_finished h raw hasOnClose st hr hend
  have hcl : RawEv.closeConn ∈ st.trace := by rw [ht]; simp
  have hno : ∀ l, RawEv.closeConn ∉ called (rawChain h raw) l := by
    intro l hm
    obtain ⟨i, _, hi⟩ := List.mem_filterMap.1 hm
    split at hi <;> cases hi
  rcases iv.pos with ⟨_, ht'⟩ | ⟨_, _, _, ht'⟩ | ⟨he, _, ht'⟩
  · rw [ht'] at hcl; exact absurd hcl (hno _)
  · rw [ht'] at hcl; simp at hcl; exact absurd hcl (hno _)
  · exact ⟨iv.chain, he, ht'⟩

theorem called_range (l : List H) (n : Nat) (hn : n ≤ l.length) : called (l.map some) (List.range n) = (l.take n).map .run := by
  induction l generalizing n with
  | nil =>
    have : n = 0 := by simpa using hn
    subst this; rfl
  | cons a l ih =>
    cases n with
    | zero => rfl
    | succ n =>
      rw [called, List.map_cons, List.range_succ_eq_map, List.filterMap_cons]
      simp only [List.getElem?_cons_zero, List.filterMap_map]
      rw [List.take_succ_cons, List.map_cons, ← ih n (by simpa using hn), called]
      rfl

theorem rawChain_some (h : List RegEv) (raw : H) :
    rawChain h (some raw) = (globals h ++ (firstUses h).map (·.2) ++ [raw]).map some := by simp [rawChain]

/-- C78 (partial): if no handler aborts or panics, everything is run: globals, every anchor middleware ever used, `HandleRaw`, in this
order, once each, then `OnClose` and `CloseConn`.
Missing: chains of more than 2019 handlers (`C78_long_chain_violated`). -/
theorem C78_all_run_partial (h : List RegEv) (raw : H) (hasOnClose : Bool) (st : RawState)
    (hlen : (globals h ++ (firstUses h).map (·.2)).length < 2019)
    (hr : RawSteps (rawInit (runHist h) (some raw) hasOnClose) st) (hend : ∀ st', ¬ RawStep st st')
    (ha : st.chain.aborted = false) (hp : st.chain.panicked = false) :
    st.trace = (globals h ++ (firstUses h).map (·.2) ++ [raw]).map .run ++ (if hasOnClose then [.onClose] else []) ++ [.closeConn] := by
  obtain ⟨hc, he, ht⟩ := raw_finished h (some raw) hasOnClose st hr hend
  have hl : (rawChain h (some raw)).length ≤ 2019 := by simp [rawChain] at hlen ⊢; omega
  rw [ht, C39_all_run_partial _ hl _ hc he ha hp, rawChain_some, List.length_map, called_range _ _ (Nat.le_refl _), List.take_length]

/-- A chain without nil handlers runs as it would by itself. -/
theorem raw_lift (h : List RegEv) (raw : H) (hasOnClose : Bool) (c : State)
    (hc : Steps (init (rawChain h (some raw)).length) c) :
    ∃ st, RawSteps (rawInit (runHist h) (some raw) hasOnClose) st ∧ st.chain = c := by
  generalize hi : init (rawChain h (some raw)).length = c0 at hc
  induction hc with
  | refl => exact ⟨_, .refl _, by rw [← hi]; show init _ = _; rw [rawHandlers_eq]⟩
  | tail _ hstep ih =>
    obtain ⟨st, h1, h2⟩ := ih
    have iv := rawInv_steps (rawInv_init (runHist h) (some raw) hasOnClose) h1
    rw [rawHandlers_eq] at iv
    subst h2
    refine ⟨_, .tail h1 (.chain st _ hstep ?_), rfl⟩
    rintro ⟨i, n, K, _, hn⟩
    rw [iv.hand, rawChain_some] at hn
    simp only [List.getElem?_map, Option.map_eq_some_iff] at hn
    obtain ⟨_, _, h⟩ := hn
    cases h

/-- Every run of a raw connection whose chain is done can be finished. -/
theorem raw_finish (st : RawState) (he : st.chain.stack = []) : ∃ st', RawSteps st st' ∧ st'.chain = st.chain ∧ ∀ b, ¬ RawStep st' b := by
  generalize hd : st.deferred = ds
  induction ds generalizing st with
  | nil =>
    refine ⟨st, .refl _, rfl, fun b hb => ?_⟩
    cases hb with
    | chain c h hn => exact step_not_end h he
    | onClose ds p h h' => rw [hd] at h'; cases h'
    | closeConn ds h h' => rw [hd] at h'; cases h'
    | recover ds h h' => rw [hd] at h'; cases h'
  | cons d ds ih =>
    have trans : ∀ {a b c : RawState}, RawSteps a b → RawSteps b c → RawSteps a c := by
      intro a b c h1 h2
      induction h2 with
      | refl => exact h1
      | tail _ hs ih => exact .tail ih hs
    cases d with
    | onClose =>
      obtain ⟨st', h1, h2, h3⟩ := ih { st with deferred := ds, panicking := st.panicking || false, trace := st.trace ++ [.onClose] } he rfl
      exact ⟨st', trans (.tail (.refl _) (.onClose st ds false he hd)) h1, h2, h3⟩
    | closeConn =>
      obtain ⟨st', h1, h2, h3⟩ := ih { st with deferred := ds, trace := st.trace ++ [.closeConn] } he rfl
      exact ⟨st', trans (.tail (.refl _) (.closeConn st ds he hd)) h1, h2, h3⟩
    | recover =>
      obtain ⟨st', h1, h2, h3⟩ := ih { st with deferred := ds, panicking := false } he rfl
      exact ⟨st', trans (.tail (.refl _) (.recover st ds he hd)) h1, h2, h3⟩

/-- C78 is violated by every chain of more than 2019 handlers: without any `Abort` or panic exactly the first 2019 are run, so
`HandleRaw` is not; and there is such a run. -/
theorem C78_long_chain_violated (h : List RegEv) (raw : H) (hasOnClose : Bool)
    (hlen : 2019 ≤ (globals h ++ (firstUses h).map (·.2)).length) :
    (∃ st, RawSteps (rawInit (runHist h) (some raw) hasOnClose) st ∧ (∀ st', ¬ RawStep st st') ∧ st.chain.aborted = false ∧
      st.chain.panicked = false) ∧
    ∀ st, RawSteps (rawInit (runHist h) (some raw) hasOnClose) st → (∀ st', ¬ RawStep st st') → st.chain.aborted = false →
      st.chain.panicked = false →
      st.trace = ((globals h ++ (firstUses h).map (·.2)).take 2019).map .run ++ (if hasOnClose then [.onClose] else []) ++ [.closeConn] := by
  have hl : (rawChain h (some raw)).length = (globals h ++ (firstUses h).map (·.2)).length + 1 := by simp [rawChain]; omega
  refine ⟨?_, fun st hr hend ha hp => ?_⟩
  · obtain ⟨c, h1, h2, h3, h4⟩ := C39_run_exists (rawChain h (some raw)).length
    obtain ⟨st, hs, hst⟩ := raw_lift h raw hasOnClose c h1
    obtain ⟨st', h5, h6, h7⟩ := raw_finish st (by rw [hst]; exact h2)
    have trans : ∀ {a b c : RawState}, RawSteps a b → RawSteps b c → RawSteps a c := by
      intro a b c h1 h2
      induction h2 with
      | refl => exact h1
      | tail _ hs ih => exact .tail ih hs
    exact ⟨st', trans hs h5, h7, by rw [h6, hst]; exact h3, by rw [h6, hst]; exact h4⟩
  · obtain ⟨hc, he, ht⟩ := raw_finished h (some raw) hasOnClose st hr hend
    rw [ht, (C39_long_chain_violated _ (by omega) _ hc he ha hp).1, rawChain_some, called_range _ _ (by simp at hl hlen ⊢; omega),
      List.take_append_of_le_length hlen]

example : 2019 ≤ (globals [.useGlobal (List.replicate 2019 1)] ++ (firstUses [.useGlobal (List.replicate 2019 1)]).map (·.2)).length := by
  simp only [globals, List.nil_append, List.append_nil, List.length_append, List.length_replicate]; omega

-- its hypotheses are met: one anchor middleware (UnUsed meanwhile) and `HandleRaw`
example : ∃ st, RawSteps (rawInit (runHist [.unUse "a", .use "a" 5]) (some 9) false) st ∧ (∀ st', ¬ RawStep st st') ∧
    st.chain.aborted = false ∧ st.chain.panicked = false ∧ st.trace = [.run 5, .run 9, .closeConn] := by
  refine ⟨_, .tail (.tail (.tail (.tail (.tail (.tail (.tail (.tail (.tail (.refl _)
    (.chain _ _ (.start _ [] 0 rfl (by decide) (by decide)) ?_)) (.chain _ _ (.ret _ _ 0 0 rfl) ?_)) (.chain _ _ (.postInc _ _ rfl) ?_))
    (.chain _ _ (.start _ [] 0 rfl (by decide) (by decide)) ?_)) (.chain _ _ (.ret _ _ 1 0 rfl) ?_)) (.chain _ _ (.postInc _ _ rfl) ?_))
    (.chain _ _ (.loopEnd _ [] rfl (by decide)) ?_))
    (.closeConn _ _ rfl rfl)) (.recover _ _ rfl rfl), ?_, rfl, rfl, rfl⟩
  · rintro ⟨i, n, K, h, _⟩; cases h
  · rintro ⟨i, n, K, h, hn⟩; cases h; cases hn
  · rintro ⟨i, n, K, h, _⟩; cases h
  · rintro ⟨i, n, K, h, _⟩; cases h
  · rintro ⟨i, n, K, h, hn⟩; cases h; cases hn
  · rintro ⟨i, n, K, h, _⟩; cases h
  · rintro ⟨i, n, K, h, _⟩; cases h
  · intro st' h
    cases h with
    | chain c h hn => exact step_not_end h rfl
    | onClose ds p h hd => cases hd
    | closeConn ds h hd => cases hd
    | recover ds h hd => cases hd

-- the hypotheses of `C78_finished` are met: a nil `HandleRaw` with one middleware; the panic is recovered
example : ∃ st, RawSteps (rawInit (runHist [.useGlobal [1]]) none true) st ∧ (∀ st', ¬ RawStep st st') ∧
    st.trace = [.run 1, .onClose, .closeConn] := by
  refine ⟨_, .tail (.tail (.tail (.tail (.tail (.tail (.tail (.tail (.refl _)
    (.chain _ _ (.start _ [] 0 rfl (by decide) (by decide)) ?_)) (.chain _ _ (.ret _ _ 0 0 rfl) ?_)) (.chain _ _ (.postInc _ _ rfl) ?_))
    (.chain _ _ (.start _ [] 0 rfl (by decide) (by decide)) ?_)) (.chain _ _ (.panic _ _ 1 0 rfl) ?_))
    (.onClose _ _ false rfl rfl)) (.closeConn _ _ rfl rfl)) (.recover _ _ rfl rfl), ?_, rfl⟩
  · rintro ⟨i, n, K, h, _⟩; cases h
  · rintro ⟨i, n, K, h, hn⟩; cases h; cases hn
  · rintro ⟨i, n, K, h, _⟩; cases h
  · rintro ⟨i, n, K, h, _⟩; cases h
  · intro _; rfl
  · intro st' h
    cases h with
    | chain c h hn => exact step_not_end h rfl
    | onClose ds p h hd => cases hd
    | closeConn ds h hd => cases hd
    | recover ds h hd => cases hd

end Tcpx
