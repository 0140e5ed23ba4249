import Verif.Lemmas.Shift
import Verif.Lemmas.RoutingUrl
/-!
# Routing and middleware: C25 – C33, C41, C42

Histories are lists of registration events, newest first; `runHist h` is the server after them (panics recovered).
Every sequence of API calls is such a history (`runOps_history`).
-/
namespace Tcpx
open Spec

/-- Two servers that dispatch every message in the same way. -/
def SameRoutes (a b : Srv) : Prop := ∀ r, a.handle r = b.handle r

/-! ## C25 -/

/-- C25: registering a handler for an id that has one panics. -/
theorem C25_second_panics (h : List RegEv) (id : Int32) (pre : List RegEv) (hs0 hs : List H)
    (hr : registration id h = some (pre, hs0)) : panics h (.addHandler id hs) := by
  have hst := registration_state id h
  rw [hr] at hst
  obtain ⟨⟨f, _, hf⟩, _⟩ := hst
  rw [panics_addHandler]; simp [addRefused, hf]

/-- C25: after a refused registration the id keeps its handler and every other route is as before, by id and by URL. -/
theorem C25_others_kept (h : List RegEv) (id : Int32) (hs : List H) (hp : panics h (.addHandler id hs)) :
    (runHist (.addHandler id hs :: h)).mux.handlers.get? id = (runHist h).mux.handlers.get? id ∧
    (∀ id', id' ≠ id → (runHist (.addHandler id hs :: h)).dispatchId id' = (runHist h).dispatchId id') ∧
    (∀ p, (runHist (.addHandler id hs :: h)).dispatchUrl p = (runHist h).dispatchUrl p) := by
  obtain ⟨_, c2, _⟩ := addHandler_cases (runHist h) id hs (ids_agree h id)
  obtain ⟨e1, e2, e3, e4⟩ := c2 ((panics_addHandler h id hs).1 hp)
  have fr := addHandler_frame (runHist h) id hs
  simp only at fr
  obtain ⟨f1, f2, f3, f4, f5, f6, f7⟩ := fr
  refine ⟨by simp only [runHist, RegEv.step, e1], ?_, ?_⟩
  · intro id' hne
    have hself : ((runHist h).addHandler id hs).st.mux.selfMw.get? id' = (runHist h).mux.selfMw.get? id' := by
      rcases e4 with e4 | ⟨_, _, e4⟩
      · rw [e4]
      · rw [e4, GoMap.get?_set, if_neg hne]
    simp only [runHist, RegEv.step, Srv.dispatchId, e1, e2, f1, f3, hself]
    rfl
  · intro p
    simp only [runHist, RegEv.step, Srv.dispatchUrl, f1, f3, f4, f5]

/-- C25 (partial): if the refused call carries no middlewares, or the registered handler has own middlewares (and no call
panicked before), nothing at all changes.
Missing: a refused registration with middlewares for a handler that has none, where the claim is false
(`C25_middleware_violated`). -/
theorem C25_unchanged_partial (h : List RegEv) (id : Int32) (pre : List RegEv) (hs0 hs : List H)
    (hr : registration id h = some (pre, hs0))
    (hcase : hs.length ≤ 1 ∨ (Clean h ∧ RegEv.removeHandler id ∉ h ∧ hs0.length > 1)) :
    runHist (.addHandler id hs :: h) = runHist h := by
  have hp := C25_second_panics h id pre hs0 hs hr
  have hst := registration_state id h
  rw [hr] at hst
  obtain ⟨⟨f, _, hf⟩, _⟩ := hst
  have hself : hs.length > 1 → ∃ l, (runHist h).mux.selfMw.get? id = some l := by
    intro hl
    rcases hcase with h1 | ⟨hc, hn, hg⟩
    · omega
    · have := selfMw_clean h hc id hn
      rw [hr] at this
      exact ⟨_, by rw [this, if_pos hg]⟩
  simp only [runHist, RegEv.step, Srv.addHandler, Srv.onMux]
  cases hs.getLast? with
  | none => rfl
  | some g =>
    by_cases hl : hs.length > 1
    · obtain ⟨l, hl'⟩ := hself hl
      simp [hl, Mux.addSelfMw, hl', Out.andThen, Out.panic]
    · simp only [hl, if_false, Out.andThen, Out.ret, Bool.false_eq_true, Mux.addHandleFunc, hf, Out.panic]
      split <;> rfl

/-- C25 is false in general: a refused registration leaves its middlewares on the existing handler.  Handler 10 is
registered alone for id 1; the refused `AddHandler(1, 7, 11)` makes messages with id 1 run 7 before 10. -/
theorem C25_middleware_violated :
    panics [.addHandler 1 [10]] (.addHandler 1 [7, 11]) ∧
    (runHist [.addHandler 1 [10]]).handle (.byId 1) = .chain [10] ∧
    (runHist [.addHandler 1 [7, 11], .addHandler 1 [10]]).handle (.byId 1) = .chain [7, 10] := by decide

example : registration 1 [.addHandler 2 [11], .addHandler 1 [10]] = some ([], [10]) := by decide

/-! ## C26 -/

/-- C26: a message routed by id runs the handler registered last for the id, as the last one of its chain (or alone), behind
middlewares only; without a registration nothing runs.  Framework code does not panic. -/
theorem C26_routed (h : List RegEv) (hm : onMessage h = none) (id : Int32) :
    match registration id h with
    | none => (runHist h).handle (.byId id) = .nothing
    | some (_, hs) => ∃ f, hs.getLast? = some f ∧
        ((runHist h).handle (.byId id) = .direct f ∨
         ∃ mws, (runHist h).handle (.byId id) = .chain (mws ++ [f]) ∧
           ∀ m ∈ mws, m ∈ globals h ∨ (∃ k, (k, m) ∈ firstUses h) ∨ ∃ hs', RegEv.addHandler id hs' ∈ h ∧ m ∈ hs'.dropLast) := by
  have hd := dispatchId_eq h id
  have ho := (cfg_eq h).2.2
  rw [hm] at ho
  have hh : (runHist h).handle (.byId id) = (runHist h).dispatchId id := by simp [Srv.handle, ho]
  rw [hh]
  cases hr : registration id h with
  | none => rw [hr] at hd; exact hd
  | some r =>
    obtain ⟨pre, hs⟩ := r
    rw [hr] at hd
    obtain ⟨f, post, hf, _, d1, d2⟩ := hd
    refine ⟨f, hf, ?_⟩
    by_cases hb : bypasses h id
    · exact .inl (d1 hb)
    · refine .inr ⟨_, d2 hb, ?_⟩
      intro m hmem
      rcases List.mem_append.1 hmem with hmem | hmem
      · rcases List.mem_append.1 hmem with hmem | hmem
        · exact .inl hmem
        · obtain ⟨⟨k, m'⟩, hx, rfl⟩ := List.mem_map.1 hmem
          exact .inr (.inl ⟨k, (List.mem_filter.1 hx).1⟩)
      · cases hl : (runHist h).mux.selfMw.get? id with
        | none => rw [hl] at hmem; simp at hmem
        | some l =>
          obtain ⟨hs', h1, _, h3⟩ := selfMw_origin h id l hl
          rw [hl] at hmem
          exact .inr (.inr ⟨hs', h1, by rw [← h3]; exact hmem⟩)

/-- C26: a message routed by URL pattern runs only middlewares and handlers given to `Any` for that pattern; without a
registration nothing runs. -/
theorem C26_routed_url (h : List RegEv) (hm : onMessage h = none) (p : String) :
    (urlRegistration p h = none → (runHist h).handle (.byUrl p) = .nothing) ∧
    ((runHist h).handle (.byUrl p) = .nothing ∨ ∃ mws hs, (runHist h).handle (.byUrl p) = .chain (mws ++ hs) ∧
      (∀ m ∈ mws, m ∈ globals h ∨ ∃ k, (k, m) ∈ firstUses h) ∧ ∀ f ∈ hs, ∃ given, RegEv.any p given ∈ h ∧ f ∈ given) := by
  have hd := dispatchUrl_eq h p
  have ho := (cfg_eq h).2.2
  rw [hm] at ho
  have hh : (runHist h).handle (.byUrl p) = (runHist h).dispatchUrl p := by simp [Srv.handle, ho]
  rw [hh]
  cases hr : urlRegistration p h with
  | none => rw [hr] at hd; exact ⟨fun _ => hd, .inl hd⟩
  | some r =>
    rw [hr] at hd
    obtain ⟨post, _, hd⟩ := hd
    refine ⟨fun hx => by simp at hx, ?_⟩
    cases hg : (runHist h).mux.urlMux.get? p with
    | none => rw [hg] at hd; exact .inl hd
    | some l =>
      rw [hg] at hd
      refine .inr ⟨_, l, hd, fun m hmem => ?_, fun f hf => url_origin h p l hg f hf⟩
      rcases List.mem_append.1 hmem with hmem | hmem
      · exact .inl hmem
      · obtain ⟨⟨k, m'⟩, hk, rfl⟩ := List.mem_map.1 hmem
        exact .inr ⟨k, (List.mem_filter.1 hk).1⟩

example : (runHist [.addHandler 2 [11], .useGlobal [5], .addHandler 1 [10]]).handle (.byId 2) = .chain [5, 11] ∧
    (runHist [.addHandler 2 [11], .useGlobal [5], .addHandler 1 [10]]).handle (.byId 3) = .nothing := by decide

/-! ## C27, C28 -/

/-- C27 (partial): in a history without panics the chain of a registered id (not bypassing) is: all globals in registration
order, then anchor middlewares in order of first Use, then exactly the functions given to AddHandler, in order.
Missing: an id whose handler was removed by `RewriteHeartBeatHandler` after a registration with own middlewares, where the
claim is false (`C27_leftover_middleware_violated`), and recovered panics (`C25_middleware_violated`). -/
theorem C27_order_partial (h : List RegEv) (hc : Clean h) (id : Int32)
    (hn : RegEv.removeHandler id ∉ h ∨ ∀ hs, RegEv.addHandler id hs ∈ h → hs.length ≤ 1)
    (pre : List RegEv) (hs : List H) (hr : registration id h = some (pre, hs)) (hb : ¬ bypasses h id) :
    ∃ post, h = post ++ .addHandler id hs :: pre ∧ (runHist h).dispatchId id =
      .chain (globals h ++ ((firstUses h).filter (fun x => inUse x.1 pre &&
        (!everEnded x.1 pre || decide (RegEv.unUse x.1 ∈ post)))).map (·.2) ++ hs) := by
  have hd := dispatchId_eq h id
  rw [hr] at hd
  obtain ⟨f, post, hf, hp, _, d2⟩ := hd
  refine ⟨post, hp, ?_⟩
  rw [d2 hb, own_middlewares h hc id hn pre hs hr]
  have : hs = hs.dropLast ++ [f] := by
    obtain ⟨l, rfl⟩ := List.getLast?_eq_some_iff.1 hf
    simp
  conv => rhs; rw [this]
  simp only [List.append_assoc]
  rfl

/-- C27 is false for an id freed by `RewriteHeartBeatHandler`: the middlewares of the removed handler stay with the id. -/
theorem C27_leftover_middleware_violated :
    Clean [.addHandler 7 [11], .addHandler 9 [20], .setHbId 9, .removeHandler 7, .addHandler 7 [3, 10], .setHeartBeat false true 7] ∧
    (runHist [.addHandler 7 [11], .addHandler 9 [20], .setHbId 9, .removeHandler 7, .addHandler 7 [3, 10],
      .setHeartBeat false true 7]).handle (.byId 7) = .chain [3, 11] := by
  refine ⟨⟨⟨⟨⟨⟨⟨trivial, ?_⟩, ?_⟩, ?_⟩, ?_⟩, ?_⟩, ?_⟩, ?_⟩ <;> decide

/-- What the code applies, exactly: for every history (recovered panics included), an anchor middleware is in the chain of
a handler iff its key was in use when the handler was registered and, if that period of use is not the first one of the key,
it has since been ended by UnUse.  `post` are the events after the registration. -/
theorem C28_exact (h : List RegEv) (id : Int32) (pre : List RegEv) (hs : List H) (hr : registration id h = some (pre, hs))
    (hb : ¬ bypasses h id) :
    ∃ post own f, h = post ++ .addHandler id hs :: pre ∧ (runHist h).dispatchId id =
      .chain (globals h ++ ((firstUses h).filter (fun x => inUse x.1 pre &&
        (!everEnded x.1 pre || decide (RegEv.unUse x.1 ∈ post)))).map (·.2) ++ own ++ [f]) := by
  have hd := dispatchId_eq h id
  rw [hr] at hd
  obtain ⟨f, post, _, hp, _, d2⟩ := hd
  exact ⟨post, _, f, hp, d2 hb⟩

theorem inUse_append_of_not_unUse (k : String) (pre post : List RegEv) (hi : inUse k pre = true)
    (hn : RegEv.unUse k ∉ post) : inUse k (post ++ pre) = true := by
  refine Decidable.byContradiction fun hc => ?_
  exact hn (ended_between k pre post hi (by simpa using hc))

theorem everEnded_append (k : String) (pre post : List RegEv) (he : everEnded k pre = true) :
    everEnded k (post ++ pre) = true := by
  induction post with
  | nil => exact he
  | cons e post ih =>
    cases e with
    | unUse k' => simp [everEnded, ih]
    | _ => exact ih

theorem covered_eq_inUse (h pre post : List RegEv) (e : RegEv) (he : e.touchesAnchors = false) (hh : h = post ++ e :: pre)
    (hno : ∀ k, inUse k h = true → everEnded k h = false) (k : String) : covered k pre post = inUse k pre := by
  have e1 : inUse k (e :: pre) = inUse k pre := by cases e <;> first | rfl | exact Bool.noConfusion he
  have e2 : everEnded k (e :: pre) = everEnded k pre := by cases e <;> first | rfl | exact Bool.noConfusion he
  simp only [covered]
  rcases Bool.eq_false_or_eq_true (inUse k pre) with hi | hi
  · rcases Bool.eq_false_or_eq_true (everEnded k pre) with hev | hev
    · have : RegEv.unUse k ∈ post := by
        refine Decidable.byContradiction fun hn => ?_
        have h1 : inUse k h = true := by rw [hh]; exact inUse_append_of_not_unUse k _ post (by rw [e1, hi]) hn
        have h2 : everEnded k h = true := by rw [hh]; exact everEnded_append k _ post (by rw [e2, hev])
        rw [hno k h1] at h2; exact Bool.noConfusion h2
      simp [hi, this]
    · simp [hi, hev]
  · simp [hi]

/-- C28 (partial), message ids: when no key is currently in a second or later period of use, the anchor middlewares applied to a
handler are exactly those whose key was in use when the handler was registered, whatever panics were recovered.
Missing: keys used again after UnUse and not UnUsed since (`C28_reuse_violated`), and a different function given at the
re-Use (`C28_reuse_function_violated`; here the function is the one of the first Use). -/
theorem C28_in_use_partial (h : List RegEv) (hno : ∀ k, inUse k h = true → everEnded k h = false) (id : Int32)
    (pre : List RegEv) (hs : List H) (hr : registration id h = some (pre, hs)) (hb : ¬ bypasses h id) :
    ∃ own f, (runHist h).dispatchId id = .chain (globals h ++ inUseAt h pre ++ own ++ [f]) := by
  have hd := dispatchId_eq h id
  rw [hr] at hd
  obtain ⟨f, post, _, hp, _, d2⟩ := hd
  refine ⟨((runHist h).mux.selfMw.get? id).getD [], f, ?_⟩
  have hc : (fun x : String × H => covered x.1 pre post) = fun x => inUse x.1 pre :=
    funext fun x => covered_eq_inUse h pre post _ rfl hp hno x.1
  rw [d2 hb, hc, inUseAt]

/-- C28 (partial), URL patterns.
Missing: as for `C28_in_use_partial`. -/
theorem C28_in_use_url_partial (h : List RegEv) (hno : ∀ k, inUse k h = true → everEnded k h = false) (p : String)
    (pre : List RegEv) (hs : List H) (hr : urlRegistration p h = some (pre, hs)) :
    (runHist h).dispatchUrl p = .nothing ∨
    ∃ own, (runHist h).dispatchUrl p = .chain (globals h ++ inUseAt h pre ++ own) := by
  have hd := dispatchUrl_eq h p
  rw [hr] at hd
  obtain ⟨post, hp, d2⟩ := hd
  cases hm : (runHist h).mux.urlMux.get? p with
  | none => rw [hm] at d2; exact .inl d2
  | some l =>
    rw [hm] at d2
    have hc : (fun x : String × H => covered x.1 pre post) = fun x => inUse x.1 pre :=
      funext fun x => covered_eq_inUse h pre post _ rfl hp hno x.1
    rw [hc] at d2
    exact .inr ⟨l, by rw [d2, inUseAt]⟩

/-- C28 is false for a key that is used again: the handler 12 is registered while "k" is in use (again), but runs without it. -/
theorem C28_reuse_violated :
    Clean [.addHandler 3 [12], .use "k" 5, .unUse "k", .use "k" 5] ∧
    inUse "k" [.use "k" 5, .unUse "k", .use "k" 5] = true ∧
    (runHist [.addHandler 3 [12], .use "k" 5, .unUse "k", .use "k" 5]).handle (.byId 3) = .chain [12] := by
  refine ⟨⟨⟨⟨⟨trivial, ?_⟩, ?_⟩, ?_⟩, ?_⟩, ?_, ?_⟩ <;> decide

/-- C28 is false for the function given at a re-Use: the middleware 6 given the second time is never run, 5 is. -/
theorem C28_reuse_function_violated :
    Clean [.unUse "k", .addHandler 3 [12], .use "k" 6, .unUse "k", .use "k" 5] ∧
    (runHist [.unUse "k", .addHandler 3 [12], .use "k" 6, .unUse "k", .use "k" 5]).handle (.byId 3) = .chain [5, 12] := by
  refine ⟨⟨⟨⟨⟨⟨trivial, ?_⟩, ?_⟩, ?_⟩, ?_⟩, ?_⟩, ?_⟩ <;> decide

/-- A history meeting the hypotheses of C27 and C28: two keys, one ended, handlers before, between and after. -/
example :
    let h : List RegEv := [.addHandler 3 [12], .useGlobal [1], .unUse "a", .addHandler 2 [8, 11], .use "b" 6, .addHandler 1 [10], .use "a" 5]
    registration 2 h = some ([.use "b" 6, .addHandler 1 [10], .use "a" 5], [8, 11]) ∧
    (runHist h).handle (.byId 1) = .chain [1, 5, 10] ∧
    (runHist h).handle (.byId 2) = .chain [1, 5, 6, 8, 11] ∧
    (runHist h).handle (.byId 3) = .chain [1, 6, 12] ∧ ¬ bypasses h 2 := by
  refine ⟨by decide, by decide, by decide, by decide, ?_⟩
  rintro (⟨h1, _⟩ | ⟨h1, _⟩) <;> exact absurd h1 (by decide)

/-! ## C29 -/

/-- C29: `Use` of a key panics exactly if the key is in use. -/
theorem C29_use_panics_iff (h : List RegEv) (k : String) (f : H) : panics h (.use k f) ↔ inUse k h = true :=
  panics_use h k f

/-- C29: `UnUse` of a key panics exactly if the key is not in use. -/
theorem C29_unUse_panics_iff (h : List RegEv) (k : String) : panics h (.unUse k) ↔ inUse k h = false :=
  panics_unUse h k

/-- C29: a refused Use or UnUse is invisible: whatever is registered afterwards, every message is dispatched, and every later call
panics or not, exactly as if the refused call had not been made. -/
theorem C29_refused_invisible (h : List RegEv) (e : RegEv) (he : e.touchesAnchors = true) (hp : panics h e)
    (post : List RegEv) :
    SameRoutes (runHist (post ++ e :: h)) (runHist (post ++ h)) ∧
    ∀ e', panics (post ++ e :: h) e' ↔ panics (post ++ h) e' := by
  have key : ∃ d, runHist (e :: h) = shS (seedOf h) d (runHist h) := by
    rcases refused_state h e he hp with hs | hs
    · exact ⟨0, by rw [hs, shift_zero]⟩
    · exact ⟨1, by rw [hs, bump_is_shift]⟩
  obtain ⟨d, hd⟩ := key
  have := shift_hist (seedOf h) d (e :: h) h hd (Nat.le_refl _) post
  refine ⟨fun r => by rw [this]; exact handle_sh _ _ _ r, fun e' => ?_⟩
  simp only [panics, this, step_sh _ _ _ (seedOf_append post h)]

/-- C29: the validity check made by ListenAndServe passes after every history. -/
theorem C29_checkPrepare (h : List RegEv) : (runHist h).checkPrepare = true := by
  simp only [Srv.checkPrepare, (anchors_eq h).2, List.all_map, List.all_eq_true]
  intro x _
  have hl := lens x.1 h
  simp only [Function.comp, MAnchor.validBeforeRun, sliceAnchor, reopened]
  rcases Bool.eq_false_or_eq_true (inUse x.1 h) with hi | hi <;> rw [hi] at hl <;> simp at hl
  · rcases Bool.eq_false_or_eq_true (everEnded x.1 h) with hev | hev <;> simp [hi, hl, hev]
  · simp [hi, hl]

/-- C29: and for API calls with several keys: the check passes after every sequence of calls, panics recovered. -/
theorem C29_checkPrepare_api (ops : List RegOp) : (runOps Srv.new ops).checkPrepare = true := by
  obtain ⟨h, hh⟩ := runOps_history ops
  rw [hh]; exact C29_checkPrepare h

/-- The arguments of a `Use` call written as pairs of key and middleware. -/
def Spec.pairArgs (ps : List (String × H)) : List Srv.UseArg := ps.flatMap fun p => [.key p.1, .fn p.2]

/-- What a `Use` call with the given pairs amounts to after history `h`: one registration per pair, up to and including the first whose
key is in use, which makes the call panic. -/
inductive Spec.UseRun : List RegEv → List (String × H) → List RegEv → Bool → Prop where
  | nil (h) : UseRun h [] h false
  | step (h p ps h' b) : inUse p.1 h = false → UseRun (.use p.1 p.2 :: h) ps h' b → UseRun h (p :: ps) h' b
  | stop (h p ps) : inUse p.1 h = true → UseRun h (p :: ps) (.use p.1 p.2 :: h) true

theorem useLoop_run {h : List RegEv} {ps : List (String × H)} {h' : List RegEv} {b : Bool} (hr : UseRun h ps h' b) (rest : List Srv.UseArg) :
    (runHist h).useLoop (pairArgs ps ++ rest) = if b then ⟨runHist h', true⟩ else (runHist h').useLoop rest := by
  induction hr with
  | nil h => rfl
  | step h p ps h' b hn _ ih =>
    have hp : ((runHist h).useOne p.1 p.2).panicked = false := by
      have : ¬ panics h (.use p.1 p.2) := by rw [C29_use_panics_iff, hn]; simp
      simpa [panics, RegEv.step] using this
    have hst : ((runHist h).useOne p.1 p.2).st = runHist (.use p.1 p.2 :: h) := rfl
    simp only [pairArgs, List.flatMap_cons, List.cons_append, List.nil_append, Srv.useLoop, Out.andThen, hp]
    rw [hst]
    exact ih
  | stop h p ps hu =>
    have hp : ((runHist h).useOne p.1 p.2).panicked = true := (C29_use_panics_iff h p.1 p.2).2 hu
    simp only [pairArgs, List.flatMap_cons, List.cons_append, List.nil_append, Srv.useLoop, Out.andThen, hp, if_true]
    rw [← hp]; rfl

theorem pairArgs_length (ps : List (String × H)) : (pairArgs ps).length = 2 * ps.length := by
  induction ps with
  | nil => rfl
  | cons p ps ih => simp only [pairArgs, List.flatMap_cons, List.length_append, List.length_cons, List.length_nil] at ih ⊢; omega

/-- C29: a `Use` call with several pairs of key and middleware does what one call per pair does, up to and including the first that
panics. -/
theorem C29_use_many (h : List RegEv) (ps : List (String × H)) (h' : List RegEv) (b : Bool) (hr : UseRun h ps h' b) :
    (runHist h).use (pairArgs ps) = ⟨runHist h', b⟩ := by
  have := useLoop_run hr []
  rw [List.append_nil] at this
  rw [Srv.use, if_neg (by rw [pairArgs_length]; omega), this]
  cases b <;> rfl

/-- C29: `Use` panics if its arguments are not pairs of a string and a middleware; an odd number registers nothing, otherwise the pairs
before the first ill-typed one have been registered. -/
theorem C29_use_ill_typed (h : List RegEv) :
    (∀ args, args.length % 2 ≠ 0 → (runHist h).use args = .panic (runHist h)) ∧
    (∀ ps h' x y rest, UseRun h ps h' false → (∀ k f, ¬ (x = .key k ∧ y = .fn f)) →
      ((runHist h).use (pairArgs ps ++ x :: y :: rest)).panicked = true ∧
      (rest.length % 2 = 0 → (runHist h).use (pairArgs ps ++ x :: y :: rest) = .panic (runHist h'))) := by
  refine ⟨fun args ha => by rw [Srv.use, if_pos ha], fun ps h' x y rest hr hxy => ?_⟩
  have hl := useLoop_run hr (x :: y :: rest)
  have hbad : (runHist h').useLoop (x :: y :: rest) = .panic (runHist h') := by
    cases x <;> cases y <;> first | rfl | exact absurd ⟨rfl, rfl⟩ (hxy _ _)
  rw [hbad] at hl
  by_cases hev : rest.length % 2 = 0
  · have : (runHist h).use (pairArgs ps ++ x :: y :: rest) = .panic (runHist h') := by
      rw [Srv.use, if_neg (by simp only [List.length_append, pairArgs_length, List.length_cons]; omega), hl]; rfl
    exact ⟨by rw [this]; rfl, fun _ => this⟩
  · refine ⟨?_, fun he => absurd he hev⟩
    rw [Srv.use, if_pos (by simp only [List.length_append, pairArgs_length, List.length_cons]; omega)]
    rfl

example : UseRun [] [("a", 1), ("b", 2), ("a", 3)] [.use "a" 3, .use "b" 2, .use "a" 1] true :=
  .step _ _ _ _ _ (by decide) (.step _ _ _ _ _ (by decide) (.stop _ _ _ (by decide)))
example : panics [.use "k" 5] (.use "k" 6) ∧ panics [.unUse "k", .use "k" 5] (.unUse "k") ∧ panics [] (.unUse "k") := by decide

/-! ## C30, C31 -/

/-- C30 (partial): a routed handler other than one explicitly configured to bypass runs behind all global middlewares, provided its
id is not 0.  (By URL pattern: always.)
Missing: id 0, which bypasses without having been configured (`C30_id_zero_violated`). -/
theorem C30_guarded_partial (h : List RegEv) (hm : onMessage h = none) (id : Int32) (h0 : id ≠ 0) :
    (runHist h).handle (.byId id) = .nothing ∨
    (∃ rest, (runHist h).handle (.byId id) = .chain (globals h ++ rest)) ∨
    (∃ on, RegEv.setHeartBeat on false id ∈ h) ∨ RegEv.setHbId id ∈ h ∨ (∃ on, RegEv.setAuth on false id ∈ h) := by
  have ho := (cfg_eq h).2.2
  rw [hm] at ho
  have hh : (runHist h).handle (.byId id) = (runHist h).dispatchId id := by simp [Srv.handle, ho]
  rw [hh]
  have hd := dispatchId_eq h id
  cases hr : registration id h with
  | none => rw [hr] at hd; exact .inl hd
  | some r =>
    rw [hr] at hd
    obtain ⟨f, post, _, _, d1, d2⟩ := hd
    refine .inr ?_
    by_cases hb : bypasses h id
    · refine .inr ?_
      rcases hb with ⟨b1, b2⟩ | ⟨b1, b2⟩
      · have : ∀ h : List RegEv, id = (heartbeatCfg h).2 → (heartbeatCfg h).1 = false →
            (∃ on, RegEv.setHeartBeat on false id ∈ h) ∨ RegEv.setHbId id ∈ h := by
          intro h
          induction h with
          | nil => intro hx _; exact absurd hx h0
          | cons e h ih =>
            intro b1 b2
            have up : ((∃ on, RegEv.setHeartBeat on false id ∈ h) ∨ RegEv.setHbId id ∈ h) →
                (∃ on, RegEv.setHeartBeat on false id ∈ e :: h) ∨ RegEv.setHbId id ∈ e :: h := by
              rintro (⟨on, h1⟩ | h1)
              · exact .inl ⟨on, List.mem_cons_of_mem _ h1⟩
              · exact .inr (List.mem_cons_of_mem _ h1)
            cases e with
            | setHeartBeat on th id' =>
              simp only [heartbeatCfg] at b1 b2
              subst b1; subst b2; exact .inl ⟨on, List.mem_cons_self⟩
            | setHbId id' =>
              simp only [heartbeatCfg] at b1
              subst b1; exact .inr List.mem_cons_self
            | _ => exact up (ih b1 b2)
        rcases this h b1 b2 with h1 | h1
        · exact .inl h1
        · exact .inr (.inl h1)
      · have : ∀ h : List RegEv, id = (authCfg h).2 → (authCfg h).1 = false → ∃ on, RegEv.setAuth on false id ∈ h := by
          intro h
          induction h with
          | nil => intro hx _; exact absurd hx h0
          | cons e h ih =>
            intro b1 b2
            cases e with
            | setAuth on th id' =>
              simp only [authCfg] at b1 b2
              subst b1; subst b2; exact ⟨on, List.mem_cons_self⟩
            | _ => obtain ⟨on, h1⟩ := ih b1 b2; exact ⟨on, List.mem_cons_of_mem _ h1⟩
        exact .inr (.inr (this h b1 b2))
    · exact .inl ⟨_, by rw [d2 hb, List.append_assoc, List.append_assoc]⟩

/-- C30 for URL patterns: always guarded. -/
theorem C30_guarded_url (h : List RegEv) (hm : onMessage h = none) (p : String) :
    (runHist h).handle (.byUrl p) = .nothing ∨ ∃ rest, (runHist h).handle (.byUrl p) = .chain (globals h ++ rest) := by
  have ho := (cfg_eq h).2.2
  rw [hm] at ho
  have hh : (runHist h).handle (.byUrl p) = (runHist h).dispatchUrl p := by simp [Srv.handle, ho]
  rw [hh]
  have hd := dispatchUrl_eq h p
  cases hr : urlRegistration p h with
  | none => rw [hr] at hd; exact .inl hd
  | some r =>
    rw [hr] at hd
    obtain ⟨post, _, hd⟩ := hd
    cases hx : (runHist h).mux.urlMux.get? p with
    | none => rw [hx] at hd; exact .inl hd
    | some l => rw [hx] at hd; simp only [List.append_assoc] at hd; exact .inr ⟨_, hd⟩

/-- C30 is false for message id 0: on a server where neither heartbeat nor auth was ever configured, the handler of id 0 runs
without the global middlewares. -/
theorem C30_id_zero_violated (m f : H) :
    (runHist [.addHandler 0 [f], .useGlobal [m]]).handle (.byId 0) = .direct f := by rfl

example : onMessage [.any "/a" [7], .addHandler 4 [8, 11], .useGlobal [1, 2]] = none ∧
    (runHist [.any "/a" [7], .addHandler 4 [8, 11], .useGlobal [1, 2]]).handle (.byId 4) = .chain [1, 2, 8, 11] := by decide

/-- C31: a registered handler runs alone exactly when its id is the heartbeat id and the heartbeat flag is false, or the auth id and
the auth flag is false; otherwise it runs at the end of the ordinary chain. -/
theorem C31_bypass_iff (h : List RegEv) (id : Int32) (pre : List RegEv) (hs : List H)
    (hr : registration id h = some (pre, hs)) :
    ∃ f, hs.getLast? = some f ∧
      ((runHist h).dispatchId id = .direct f ↔
        ((id = (heartbeatCfg h).2 ∧ (heartbeatCfg h).1 = false) ∨ (id = (authCfg h).2 ∧ (authCfg h).1 = false))) ∧
      (¬ ((id = (heartbeatCfg h).2 ∧ (heartbeatCfg h).1 = false) ∨ (id = (authCfg h).2 ∧ (authCfg h).1 = false)) →
        ∃ rest, (runHist h).dispatchId id = .chain (globals h ++ rest ++ [f])) := by
  have hd := dispatchId_eq h id
  rw [hr] at hd
  obtain ⟨f, post, hf, _, d1, d2⟩ := hd
  refine ⟨f, hf, ⟨fun hx => ?_, d1⟩, fun hb =>
    ⟨((firstUses h).filter (fun x => covered x.1 pre post)).map (·.2) ++ ((runHist h).mux.selfMw.get? id).getD [],
      by rw [d2 hb]; simp only [List.append_assoc]⟩⟩
  refine Decidable.byContradiction fun hb => ?_
  rw [d2 hb] at hx
  exact Dispatch.noConfusion hx

/-- C31, API level: `HeartBeatModeDetail(true, _, through, id)` on a server without a handler for `id` (and with another auth id)
makes the heartbeat handler run alone iff `through` is false. -/
theorem C31_heartbeat_flag (h : List RegEv) (id : Int32) (through : Bool) (hb : H)
    (hfree : registration id h = none) (hunl : locked h = false) (hauth : (authCfg h).2 ≠ id) :
    let s := (((runHist h).heartBeatModeDetail true through id hb).st)
    (through = false → s.dispatchId id = .direct hb) ∧
    (through = true → ∃ rest, s.dispatchId id = .chain (globals h ++ rest ++ [hb])) := by
  have hs : ((runHist h).heartBeatModeDetail true through id hb).st =
      runHist (.addHandler id [hb] :: .setHeartBeat true through id :: h) := rfl
  simp only [hs]
  generalize hh' : (RegEv.addHandler id [hb] :: .setHeartBeat true through id :: h) = h'
  have hnp : ¬ panics (.setHeartBeat true through id :: h) (.addHandler id [hb]) := by
    rw [panics_addHandler]
    have h1 := registration_state id h
    rw [hfree] at h1
    have h2 := allowAdd_eq h
    rw [hunl] at h2
    simp [addRefused, runHist, RegEv.step, Srv.setHeartBeat, Out.ret, h1.1, h2]
  have hreg : registration id h' = some (.setHeartBeat true through id :: h, [hb]) := by
    rw [← hh']; simp [registration, hnp]
  have hcfg : heartbeatCfg h' = (through, id) ∧ authCfg h' = authCfg h ∧ globals h' = globals h := by
    rw [← hh']; exact ⟨rfl, rfl, rfl⟩
  obtain ⟨f, hf, hiff, hch⟩ := C31_bypass_iff h' id _ _ hreg
  simp at hf
  subst hf
  rw [hcfg.1, hcfg.2.1, hcfg.2.2] at *
  refine ⟨fun ht => hiff.2 (.inl ⟨rfl, ht⟩), fun ht => hch ?_⟩
  rintro (⟨_, h2⟩ | ⟨h1, _⟩)
  · simp [ht] at h2
  · exact hauth h1.symm

/-- C31, API level: `HeartBeatMode(true, _)` on a server without a handler for id 1392 (and with another auth id) makes the built-in handler
run alone for that id, the one of the frames made by `PackHeartbeat` (`C04_packHeartbeat`), and turns heartbeats on. -/
theorem C31_heartbeat_default (h : List RegEv) (hb : H) (hfree : registration 1392 h = none) (hunl : locked h = false)
    (hauth : (authCfg h).2 ≠ 1392) :
    ((runHist h).heartBeatMode true hb).st.dispatchId 1392 = .direct hb ∧ ((runHist h).heartBeatMode true hb).st.hbOn = true :=
  ⟨(C31_heartbeat_flag h 1392 false hb hfree hunl hauth).1 rfl, rfl⟩

example := C31_heartbeat_default [.addHandler 5 [9], .useGlobal [1]] 7 (by decide) (by decide) (by decide)

example : (runHist [.addHandler 5 [9], .setHeartBeat true false 5, .useGlobal [1]]).handle (.byId 5) = .direct 9 ∧
    (runHist [.addHandler 5 [9], .setHeartBeat true true 5, .useGlobal [1]]).handle (.byId 5) = .chain [1, 9] := by decide

/-! ## C32 -/

/-- C32: with OnMessage set, every message runs all globals, all anchor middlewares ever used (in order of first Use) and
OnMessage, whatever it would otherwise be routed to. -/
theorem C32_onMessage (h : List RegEv) (f : H) (hm : onMessage h = some f) (r : Srv.Routed) :
    (runHist h).handle r = .chain (globals h ++ (firstUses h).map (·.2) ++ [f]) := by
  have ho := (cfg_eq h).2.2
  rw [hm] at ho
  simp only [Srv.handle, ho, Srv.dispatchOnMessage, globals_eq, (anchors_eq h).2, List.map_map]
  rfl

example : (runHist [.setOnMessage (some 9), .unUse "a", .addHandler 1 [10], .use "a" 5, .useGlobal [1]]).handle (.byId 1) =
    .chain [1, 5, 9] := by decide

/-! ## C33 -/

/-- C33 (partial): a pattern registered with a single handler runs the global middlewares, the anchored ones that C28 says and that
handler, once.  `post` are the events after the registration.
Missing: two or more handlers, where each is run twice (`C33_doubled_violated`). -/
theorem C33_any_once_partial (h : List RegEv) (hc : Clean h) (p : String) (pre : List RegEv) (f : H)
    (hr : urlRegistration p h = some (pre, [f])) (hl : locked pre = false) :
    ∃ post, h = post ++ .any p [f] :: pre ∧ (runHist h).dispatchUrl p =
      .chain (globals h ++ ((firstUses h).filter (fun x => inUse x.1 pre &&
        (!everEnded x.1 pre || decide (RegEv.unUse x.1 ∈ post)))).map (·.2) ++ [f]) := by
  have hd := dispatchUrl_eq h p
  have hu := url_handlers h hc p
  rw [hr] at hd hu
  obtain ⟨post, hp, hd⟩ := hd
  refine ⟨post, hp, ?_⟩
  rw [hd, hu]
  simp only [anyAdds, hl]
  rfl

/-- C33 is false for every registration with two or more handlers: each of them is run twice, behind the same middlewares. -/
theorem C33_doubled_violated (h : List RegEv) (hc : Clean h) (p : String) (pre : List RegEv) (hs : List H)
    (hr : urlRegistration p h = some (pre, hs)) (hl : locked pre = false) (h2 : hs.length > 1) :
    ∃ post, h = post ++ .any p hs :: pre ∧ (runHist h).dispatchUrl p =
      .chain (globals h ++ ((firstUses h).filter (fun x => inUse x.1 pre &&
        (!everEnded x.1 pre || decide (RegEv.unUse x.1 ∈ post)))).map (·.2) ++ hs ++ hs) := by
  have hd := dispatchUrl_eq h p
  have hu := url_handlers h hc p
  rw [hr] at hd hu
  obtain ⟨post, hp, hd⟩ := hd
  have ha : anyAdds (!locked pre) hs = hs ++ hs := by simp [anyAdds, hl, h2]
  have hne : hs ++ hs ≠ [] := by intro hx; rw [List.append_eq_nil_iff] at hx; rw [hx.1] at h2; simp at h2
  have hu' : (runHist h).mux.urlMux.get? p = some (hs ++ hs) := by
    rw [hu]; simp only [ha, if_neg hne]
  rw [hu'] at hd
  simp only [← List.append_assoc] at hd
  exact ⟨post, hp, hd⟩

example : (runHist [.any "/a" [7], .useGlobal [1]]).handle (.byUrl "/a") = .chain [1, 7] ∧
    (runHist [.any "/b" [7, 8], .useGlobal [1]]).handle (.byUrl "/b") = .chain [1, 7, 8, 7, 8] := by decide

/-! ## C41 -/

/-- C41 (partial): on a locked mux, AddHandler without middlewares (or for an id that has no handler) and Any with one handler
change no route.
Missing: AddHandler with middlewares for an existing id (`C41_addHandler_violated`) and Any with several handlers
(`C41_any_violated`). -/
theorem C41_locked_partial (h : List RegEv) (hl : locked h = true) :
    (∀ id hs, hs.length ≤ 1 ∨ registration id h = none → SameRoutes (runHist (.addHandler id hs :: h)) (runHist h)) ∧
    (∀ id hs, panics h (.addHandler id hs)) ∧
    (∀ p f, SameRoutes (runHist (.any p [f] :: h)) (runHist h)) := by
  have hal := allowAdd_eq h
  rw [hl] at hal
  have hpan : ∀ id hs, panics h (.addHandler id hs) := by
    intro id hs; rw [panics_addHandler]; simp [addRefused, hal]
  refine ⟨?_, hpan, ?_⟩
  · intro id hs hcase r
    obtain ⟨_, c2, _⟩ := addHandler_cases (runHist h) id hs (ids_agree h id)
    obtain ⟨e1, e2, e3, e4⟩ := c2 ((panics_addHandler h id hs).1 (hpan id hs))
    obtain ⟨f1, f2, f3, f4, f5, f6, f7⟩ := addHandler_frame (runHist h) id hs
    have hd : ∀ id', ((runHist h).addHandler id hs).st.dispatchId id' = (runHist h).dispatchId id' := by
      intro id'
      by_cases hid : id' = id
      · subst hid
        rcases hcase with hle | hno
        · have hself : ((runHist h).addHandler id' hs).st.mux.selfMw = (runHist h).mux.selfMw := by
            rcases e4 with e4 | ⟨hg, _⟩
            · exact e4
            · omega
          simp only [Srv.dispatchId, e1, e2, f1, f3, hself]; rfl
        · have := registration_state id' h
          rw [hno] at this
          simp only [Srv.dispatchId, e1, this.1]
      · exact (C25_others_kept h id hs (hpan id hs)).2.1 id' hid
    have hu := (C25_others_kept h id hs (hpan id hs)).2.2
    have ho : (runHist (.addHandler id hs :: h)).onMessage = (runHist h).onMessage := rfl
    simp only [Srv.handle, ho]
    cases (runHist h).onMessage with
    | some f => simp only [Srv.dispatchOnMessage, runHist, RegEv.step, f1, f3]
    | none =>
      cases r with
      | byId id' => exact hd id'
      | byUrl p => exact hu p
      | unreadable => rfl
      | unknownType => rfl
  · intro p f r
    obtain ⟨_, _, c3⟩ := any_cases (runHist h) p [f]
    obtain ⟨d1, d2, d3⟩ := c3 (by simp)
    obtain ⟨f1, f2, f3, f4, f5, f6, f7, f8⟩ := any_frame (runHist h) p [f]
    have hadds : anyAdds (runHist h).mux.allowAdd [f] = [] := by rw [hal]; rfl
    have ho : (runHist (.any p [f] :: h)).onMessage = (runHist h).onMessage := rfl
    simp only [Srv.handle, ho]
    cases (runHist h).onMessage with
    | some f => simp only [Srv.dispatchOnMessage, runHist, RegEv.step, f1, f3]
    | none =>
      cases r with
      | byId id' => simp only [Srv.dispatchId, runHist, RegEv.step, f1, f3, f4, f5, f6]; rfl
      | byUrl q =>
        simp only [Srv.dispatchUrl, runHist, RegEv.step, f1, f3, d2 q, hadds, d3]
        simp only [ne_eq, not_true_eq_false, and_false, if_false]
        cases hx : (runHist h).mux.urlMux.get? q with
        | none => rfl
        | some l =>
          have hsome := url_anchor_exists h q (by rw [hx]; rfl)
          have : GoMap.get? (if ((runHist h).mux.urlAnchors.get? p).isSome = true then (runHist h).mux.urlAnchors
              else (runHist h).mux.urlAnchors.set p ((runHist h).mux.seed + 1)) q = (runHist h).mux.urlAnchors.get? q := by
            split
            · rfl
            · rename_i hnone
              by_cases hq : q = p
              · subst hq; exact absurd hsome hnone
              · rw [GoMap.get?_set, if_neg hq]
          rw [this]
      | unreadable => rfl
      | unknownType => rfl

/-- C41 is false for Any: with several handlers it adds a route to a locked mux, and does not panic. -/
theorem C41_any_violated (f g : H) :
    ¬ panics [.setAllowAdd false] (.any "/a" [f, g]) ∧
    (runHist [.setAllowAdd false]).handle (.byUrl "/a") = .nothing ∧
    (runHist [.any "/a" [f, g], .setAllowAdd false]).handle (.byUrl "/a") = .chain [f, g] := by
  refine ⟨?_, rfl, rfl⟩
  simp [panics_any, runHist, RegEv.step, Out.ret, Srv.new]

/-- C41 is false for AddHandler: the refused call leaves its middlewares on an existing route of a locked mux. -/
theorem C41_addHandler_violated (f g m : H) :
    (runHist [.setAllowAdd false, .addHandler 1 [f]]).handle (.byId 1) = .chain [f] ∧
    (runHist [.addHandler 1 [m, g], .setAllowAdd false, .addHandler 1 [f]]).handle (.byId 1) = .chain [m, f] := ⟨rfl, rfl⟩

example : locked [.setAllowAdd false, .any "/a" [7], .addHandler 1 [10]] = true ∧
    registration 2 [.setAllowAdd false, .any "/a" [7], .addHandler 1 [10]] = none := by decide

/-! ## C42 -/

/-- C42 (partial): if the new id is free or is the heartbeat id itself, and the mux is not locked, then RewriteHeartBeatHandler(id, f)
succeeds, makes f the handler of id, leaves no handler at the old heartbeat id (if different), and leaves every
other route, by id and by URL, unchanged.
Missing: a heartbeat id that was never configured, where somebody else's handler is removed (`C42_unconfigured_violated`),
and a new id that is already taken (`C42_taken_violated`). -/
theorem C42_rewrite_partial (h : List RegEv) (id : Int32) (f : H) (hfree : registration id h = none ∨ id = (runHist h).hbId)
    (hl : locked h = false) :
    let s := (runHist h).rewriteHeartBeatHandler id f
    s.panicked = false ∧ s.st.mux.handlers.get? id = some f ∧
    ((runHist h).hbId ≠ id → s.st.dispatchId (runHist h).hbId = .nothing) ∧
    (∀ id', id' ≠ id → id' ≠ (runHist h).hbId → s.st.dispatchId id' = (runHist h).dispatchId id') ∧
    ∀ p, s.st.dispatchUrl p = (runHist h).dispatchUrl p := by
  generalize hold : (runHist h).hbId = old at *
  have hs : ((runHist h).rewriteHeartBeatHandler id f).st = runHist (.addHandler id [f] :: .setHbId id :: .removeHandler old :: h) := by
    rw [← hold]; rfl
  have hsp : ((runHist h).rewriteHeartBeatHandler id f).panicked = true ↔ panics (.setHbId id :: .removeHandler old :: h) (.addHandler id [f]) := by
    rw [← hold]; rfl
  simp only [hs]
  generalize hh1 : (RegEv.setHbId id :: .removeHandler old :: h) = h1 at *
  have hfree1 : registration id h1 = none := by
    rw [← hh1]
    rcases hfree with hx | hx
    · simp only [registration]; split
      · rfl
      · exact hx
    · simp [registration, hx]
  have hst1 := registration_state id h1
  rw [hfree1] at hst1
  have hal : (runHist h1).mux.allowAdd = true := by
    rw [allowAdd_eq, ← hh1]; simp [locked, hl]
  have hnr : addRefused (runHist h1).mux id [f] = false := by simp [addRefused, hal, hst1.1]
  obtain ⟨_, _, c3⟩ := addHandler_cases (runHist h1) id [f] (ids_agree h1 id)
  obtain ⟨f', hf', e1, e2, e3, e4⟩ := c3 hnr
  simp at hf'
  subst hf'
  have fr := addHandler_frame (runHist h1) id [f]
  simp only at fr
  obtain ⟨f1, f2, f3, f4, f5, f6, f7⟩ := fr
  have m1 : (runHist h1).mux = { (runHist h).mux with handlers := (runHist h).mux.handlers.delete old, idAnchors := (runHist h).mux.idAnchors.delete old } := by
    rw [← hh1]; rfl
  have srv1 : (runHist h1).hbThrough = (runHist h).hbThrough ∧ (runHist h1).authId = (runHist h).authId ∧
      (runHist h1).authThrough = (runHist h).authThrough ∧ (runHist h1).hbId = id := by rw [← hh1]; exact ⟨rfl, rfl, rfl, rfl⟩
  have hth : ∀ s : Srv, (s.addHandler id [f]).st.hbId = s.hbId ∧ (s.addHandler id [f]).st.hbThrough = s.hbThrough ∧
      (s.addHandler id [f]).st.authId = s.authId ∧ (s.addHandler id [f]).st.authThrough = s.authThrough :=
    fun s => ⟨rfl, rfl, rfl, rfl⟩
  refine ⟨?_, ?_, ?_, ?_, ?_⟩
  · have : ¬ panics h1 (.addHandler id [f]) := by rw [panics_addHandler, hnr]; simp
    rw [← hsp] at this; simpa using this
  · simp only [runHist, RegEv.step, e1]; exact GoMap.get?_set_self _ _ _
  · intro hne
    simp only [runHist, RegEv.step, Srv.dispatchId, e1, GoMap.get?_set, if_neg hne, m1, GoMap.get?_delete_self]
  · intro id' h1' h2'
    simp only [runHist, RegEv.step, Srv.dispatchId, e1, e2, e4, f1, f3, GoMap.get?_set, m1, GoMap.get?_delete,
      hth, srv1, h1', false_and, if_false, hold, h2']
    simp only [List.length_singleton, gt_iff_lt, Nat.lt_irrefl, if_false]
  · intro p
    simp only [runHist, RegEv.step, Srv.dispatchUrl, f1, f3, f4, f5, m1]

/-- C42 is false when heartbeat was never configured: the handler of id 0 is removed. -/
theorem C42_unconfigured_violated (f g : H) :
    (runHist [.addHandler 0 [g]]).handle (.byId 0) = .direct g ∧
    ((runHist [.addHandler 0 [g]]).rewriteHeartBeatHandler 5 f).st.handle (.byId 0) = .nothing := ⟨rfl, rfl⟩

/-- C42 is false when the new id is taken: the call panics having removed the old heartbeat handler, and the handler of
the taken id now runs without middlewares. -/
theorem C42_taken_violated (f g hb m : H) :
    let h : List RegEv := [.addHandler 5 [g], .addHandler 1392 [hb], .setHeartBeat true false 1392, .useGlobal [m]]
    (runHist h).handle (.byId 5) = .chain [m, g] ∧
    ((runHist h).rewriteHeartBeatHandler 5 f).panicked = true ∧
    ((runHist h).rewriteHeartBeatHandler 5 f).st.handle (.byId 1392) = .nothing ∧
    ((runHist h).rewriteHeartBeatHandler 5 f).st.handle (.byId 5) = .direct g := ⟨rfl, rfl, rfl, rfl⟩

example : let h : List RegEv := [.addHandler 7 [3], .addHandler 1392 [2], .setHeartBeat true false 1392]
    registration 5 h = none ∧ locked h = false ∧ ((runHist h).rewriteHeartBeatHandler 5 9).st.handle (.byId 5) = .direct 9 := by decide

end Tcpx
