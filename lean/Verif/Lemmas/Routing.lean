import Verif.Lemmas.Mux
/-! # Lemmas about registrations and dispatch -/
namespace Tcpx
open Spec

/-- When `AddHandler` panics, given that handlers and anchors agree on `id`. -/
def addRefused (m : Mux) (id : Int32) (hs : List H) : Bool :=
  hs.isEmpty || (decide (hs.length > 1) && (m.selfMw.get? id).isSome) || !m.allowAdd || (m.handlers.get? id).isSome

theorem addHandler_cases (s : Srv) (id : Int32) (hs : List H)
    (hag : (s.mux.handlers.get? id).isSome = (s.mux.idAnchors.get? id).isSome) :
    (s.addHandler id hs).panicked = addRefused s.mux id hs ∧
    (addRefused s.mux id hs = true → (s.addHandler id hs).st.mux.handlers = s.mux.handlers ∧
      (s.addHandler id hs).st.mux.idAnchors = s.mux.idAnchors ∧ (s.addHandler id hs).st.mux.seed = s.mux.seed ∧
      ((s.addHandler id hs).st.mux.selfMw = s.mux.selfMw ∨
        (2 ≤ hs.length ∧ s.mux.selfMw.get? id = none ∧ (s.addHandler id hs).st.mux.selfMw = s.mux.selfMw.set id hs.dropLast))) ∧
    (addRefused s.mux id hs = false → ∃ f, hs.getLast? = some f ∧
      (s.addHandler id hs).st.mux.handlers = s.mux.handlers.set id f ∧
      (s.addHandler id hs).st.mux.idAnchors = s.mux.idAnchors.set id (s.mux.seed + 1) ∧
      (s.addHandler id hs).st.mux.seed = s.mux.seed + 1 ∧
      (s.addHandler id hs).st.mux.selfMw = if hs.length > 1 then s.mux.selfMw.set id hs.dropLast else s.mux.selfMw) := by
  simp only [Srv.addHandler, Srv.onMux, addRefused, Mux.addSelfMw, Mux.addHandleFunc, Mux.addMessageIDAnchor, Mux.bump]
  rcases List.eq_nil_or_concat hs with rfl | ⟨l, f, hc⟩
  · simp [Out.panic]
  · rw [List.concat_eq_append] at hc
    subst hc
    have hlen : (l ++ [f]).length > 1 ↔ l ≠ [] := by cases l <;> simp
    have hde : (l ++ [f]).isEmpty = false := by cases l <;> rfl
    simp only [List.getLast?_append, List.getLast?_singleton, Option.some_or, List.dropLast_concat, hlen, hde, Bool.false_or]
    by_cases hl : l = []
    · subst hl
      cases ha : s.mux.allowAdd
      · simp [Out.andThen, Out.ret, Out.panic, ha]
      · cases hh : s.mux.handlers.get? id with
        | some x => simp [Out.andThen, Out.ret, Out.panic, ha, hh]
        | none =>
          have hi : s.mux.idAnchors.get? id = none := by
            rw [hh] at hag; simpa using hag.symm
          simp [Out.andThen, Out.ret, ha, hh, hi]
    · cases hsm : s.mux.selfMw.get? id with
      | some x => simp [hl, Out.andThen, Out.panic]
      | none =>
        have hlen2 : 2 ≤ l.length + 1 := by
          cases l with
          | nil => exact absurd rfl hl
          | cons _ _ => simp
        cases ha : s.mux.allowAdd
        · simp [hl, Out.andThen, Out.ret, Out.panic]
          exact .inr (by omega)
        · cases hh : s.mux.handlers.get? id with
          | some x => 
            simp [hl, Out.andThen, Out.ret, Out.panic, hh]
            exact .inr (by omega)
          | none =>
            have hi : s.mux.idAnchors.get? id = none := by
              rw [hh] at hag; simpa using hag.symm
            simp [hl, Out.andThen, Out.ret, hh, hi]

/-- Which events can change message-id routes. -/
def RegEv.touchesIds : RegEv → Bool
  | .addHandler _ _ => true
  | .removeHandler _ => true
  | _ => false

/-- Which events can change URL routes. -/
def RegEv.touchesUrls : RegEv → Bool
  | .any _ _ => true
  | _ => false

theorem registration_other (id : Int32) (e : RegEv) (h : List RegEv) (ht : e.touchesIds = false) :
    registration id (e :: h) = registration id h := by
  cases e <;> first | rfl | exact Bool.noConfusion ht

theorem urlRegistration_other (p : String) (e : RegEv) (h : List RegEv) (ht : e.touchesUrls = false) :
    urlRegistration p (e :: h) = urlRegistration p h := by
  cases e <;> first | rfl | exact Bool.noConfusion ht

theorem step_ids (s : Srv) (e : RegEv) (h : e.touchesIds = false) :
    (e.step s).st.mux.handlers = s.mux.handlers ∧ (e.step s).st.mux.idAnchors = s.mux.idAnchors ∧
    (e.step s).st.mux.selfMw = s.mux.selfMw := by
  cases e with
  | addHandler id hs => exact Bool.noConfusion h
  | removeHandler id => exact Bool.noConfusion h
  | use k f => have := useOne_frame s k f; exact ⟨this.2.1, this.2.2.1, this.2.2.2.1⟩
  | unUse k => have := unUseOne_frame s k; exact ⟨this.2.1, this.2.2.1, this.2.2.2.1⟩
  | any p hs => have := any_frame s p hs; exact ⟨this.2.2.2.1, this.2.2.2.2.1, this.2.2.2.2.2.1⟩
  | _ => exact ⟨rfl, rfl, rfl⟩

theorem ids_agree (h : List RegEv) (id : Int32) :
    ((runHist h).mux.handlers.get? id).isSome = ((runHist h).mux.idAnchors.get? id).isSome := by
  induction h generalizing id with
  | nil => rfl
  | cons e h ih =>
    by_cases ht : e.touchesIds = false
    · have := step_ids (runHist h) e ht
      simp only [runHist]; rw [this.1, this.2.1]; exact ih id
    · cases e with
      | addHandler id' hs =>
        obtain ⟨_, c2, c3⟩ := addHandler_cases (runHist h) id' hs (ih id')
        show (((runHist h).addHandler id' hs).st.mux.handlers.get? id).isSome = (((runHist h).addHandler id' hs).st.mux.idAnchors.get? id).isSome
        rcases Bool.eq_false_or_eq_true (addRefused (runHist h).mux id' hs) with hr | hr
        · obtain ⟨e1, e2, _⟩ := c2 hr
          rw [e1, e2]; exact ih id
        · obtain ⟨f, _, e1, e2, _⟩ := c3 hr
          rw [e1, e2, GoMap.get?_set, GoMap.get?_set]
          split
          · rfl
          · exact ih id
      | removeHandler id' =>
        show ((GoMap.delete _ _).get? id).isSome = ((GoMap.delete _ _).get? id).isSome
        rw [GoMap.get?_delete, GoMap.get?_delete]
        split
        · rfl
        · exact ih id
      | _ => exact absurd rfl ht

theorem panics_addHandler (h : List RegEv) (id : Int32) (hs : List H) :
    panics h (.addHandler id hs) ↔ addRefused (runHist h).mux id hs = true := by
  have := (addHandler_cases (runHist h) id hs (ids_agree h id)).1
  simp only [panics, RegEv.step, this]

/-- The route of `id` in the mux is the registration in force. -/
theorem registration_state (id : Int32) (h : List RegEv) :
    match registration id h with
    | none => (runHist h).mux.handlers.get? id = none ∧ (runHist h).mux.idAnchors.get? id = none
    | some (pre, hs) => (∃ f, hs.getLast? = some f ∧ (runHist h).mux.handlers.get? id = some f) ∧
        (runHist h).mux.idAnchors.get? id = some (seedOf pre + 1) ∧
        (∃ post, h = post ++ .addHandler id hs :: pre) ∧ ¬ panics pre (.addHandler id hs) ∧
        seedOf (.addHandler id hs :: pre) = seedOf pre + 1 := by
  induction h with
  | nil => exact ⟨rfl, rfl⟩
  | cons e h ih =>
    have lift : ∀ (e : RegEv), (e.step (runHist h)).st.mux.handlers.get? id = (runHist h).mux.handlers.get? id →
        (e.step (runHist h)).st.mux.idAnchors.get? id = (runHist h).mux.idAnchors.get? id →
        registration id (e :: h) = registration id h →
        match registration id (e :: h) with
        | none => (runHist (e :: h)).mux.handlers.get? id = none ∧ (runHist (e :: h)).mux.idAnchors.get? id = none
        | some (pre, hs) => (∃ f, hs.getLast? = some f ∧ (runHist (e :: h)).mux.handlers.get? id = some f) ∧
            (runHist (e :: h)).mux.idAnchors.get? id = some (seedOf pre + 1) ∧
            (∃ post, e :: h = post ++ .addHandler id hs :: pre) ∧ ¬ panics pre (.addHandler id hs) ∧
            seedOf (.addHandler id hs :: pre) = seedOf pre + 1 := by
      intro e h1 h2 h3
      rw [h3]
      simp only [runHist] at *
      rw [h1, h2]
      cases hr : registration id h with
      | none => rw [hr] at ih; exact ih
      | some r =>
        rw [hr] at ih
        obtain ⟨a, b, ⟨post, c⟩, d⟩ := ih
        exact ⟨a, b, ⟨e :: post, by rw [List.cons_append, ← c]⟩, d⟩
    by_cases ht : e.touchesIds = false
    · have hst := step_ids (runHist h) e ht
      exact lift _ (by rw [hst.1]) (by rw [hst.2.1]) (registration_other id e h ht)
    · cases e with
      | addHandler id' hs =>
        obtain ⟨c1, c2, c3⟩ := addHandler_cases (runHist h) id' hs (ids_agree h id')
        rcases Bool.eq_false_or_eq_true (addRefused (runHist h).mux id' hs) with hr | hr
        · obtain ⟨e1, e2, _⟩ := c2 hr
          have hp : panics h (.addHandler id' hs) := (panics_addHandler h id' hs).2 hr
          apply lift
          · show GoMap.get? ((runHist h).addHandler id' hs).st.mux.handlers id = _; rw [e1]
          · show GoMap.get? ((runHist h).addHandler id' hs).st.mux.idAnchors id = _; rw [e2]
          · simp [registration, hp]
        · obtain ⟨f, hf, e1, e2, e3, _⟩ := c3 hr
          have hp : ¬ panics h (.addHandler id' hs) := by rw [panics_addHandler, hr]; simp
          by_cases hid : id' = id
          · subst hid
            have hreg : registration id' (.addHandler id' hs :: h) = some (h, hs) := by simp [registration, hp]
            rw [hreg]
            refine ⟨⟨f, hf, ?_⟩, ?_, ⟨[], rfl⟩, hp, e3⟩
            · show GoMap.get? ((runHist h).addHandler id' hs).st.mux.handlers id' = _
              rw [e1]; exact GoMap.get?_set_self _ _ _
            · show GoMap.get? ((runHist h).addHandler id' hs).st.mux.idAnchors id' = _
              rw [e2]; exact GoMap.get?_set_self _ _ _
          · apply lift
            · show GoMap.get? ((runHist h).addHandler id' hs).st.mux.handlers id = _
              rw [e1, GoMap.get?_set, if_neg (Ne.symm hid)]
            · show GoMap.get? ((runHist h).addHandler id' hs).st.mux.idAnchors id = _
              rw [e2, GoMap.get?_set, if_neg (Ne.symm hid)]
            · simp [registration, hid]
      | removeHandler id' =>
        by_cases hid : id' = id
        · subst hid
          have hreg : registration id' (.removeHandler id' :: h) = none := by simp [registration]
          rw [hreg]
          exact ⟨GoMap.get?_delete_self _ _, GoMap.get?_delete_self _ _⟩
        · apply lift
          · show GoMap.get? (GoMap.delete _ _) id = _; rw [GoMap.get?_delete, if_neg (Ne.symm hid)]
          · show GoMap.get? (GoMap.delete _ _) id = _; rw [GoMap.get?_delete, if_neg (Ne.symm hid)]
          · simp [registration, hid]
      | _ => exact absurd rfl ht

/-- The anchor middlewares applied to a handler registered after `pre`. -/
theorem anchorsAt_eq (pre : List RegEv) (e : RegEv) (he : e.touchesAnchors = false)
    (hs : seedOf (e :: pre) = seedOf pre + 1) (post : List RegEv) :
    anchorsAt (runHist (post ++ e :: pre)).mux.anchors (seedOf pre + 1) =
      some (((firstUses (post ++ e :: pre)).filter (fun x => covered x.1 pre post)).map (·.2)) := by
  rw [(anchors_eq _).2]
  generalize firstUses (post ++ e :: pre) = l
  induction l with
  | nil => rfl
  | cons x l ih =>
    obtain ⟨k, f⟩ := x
    simp only [List.map_cons, anchorsAt, slice_covers k pre e he hs post f, ih, Option.map_some]
    cases hc : covered k pre post <;> simp [hc, sliceAnchor]

/-! ## URL routes -/

theorem step_urls (s : Srv) (e : RegEv) (h : e.touchesUrls = false) :
    (e.step s).st.mux.urlMux = s.mux.urlMux ∧ (e.step s).st.mux.urlAnchors = s.mux.urlAnchors := by
  cases e with
  | any p hs => exact Bool.noConfusion h
  | addHandler id hs => have := addHandler_frame s id hs; exact ⟨this.2.2.2.1, this.2.2.2.2.1⟩
  | use k f => have := useOne_frame s k f; exact ⟨this.2.2.2.2.1, this.2.2.2.2.2.1⟩
  | unUse k => have := unUseOne_frame s k; exact ⟨this.2.2.2.2.1, this.2.2.2.2.2.1⟩
  | _ => exact ⟨rfl, rfl⟩

/-- What one `Any` appends to the handlers of its pattern. -/
def anyAdds (allowAdd : Bool) (hs : List H) : List H :=
  (if hs.length > 1 then hs else []) ++ (if allowAdd then hs else [])

theorem any_cases (s : Srv) (p : String) (hs : List H) :
    ((s.any p hs).panicked = true ↔ hs = [] ∨ (s.mux.urlAnchors.get? p).isSome = true) ∧
    (hs = [] → (s.any p hs).st.mux = s.mux) ∧
    (hs ≠ [] → (s.any p hs).st.mux.seed = s.mux.seed + 1 ∧
      (∀ q, (s.any p hs).st.mux.urlMux.get? q =
        if q = p ∧ anyAdds s.mux.allowAdd hs ≠ [] then some ((s.mux.urlMux.get? p).getD [] ++ anyAdds s.mux.allowAdd hs)
        else s.mux.urlMux.get? q) ∧
      (s.any p hs).st.mux.urlAnchors =
        if (s.mux.urlAnchors.get? p).isSome then s.mux.urlAnchors else s.mux.urlAnchors.set p (s.mux.seed + 1)) := by
  simp only [Srv.any, Srv.onMux, Mux.any, Mux.addURLAnchor, Mux.bump]
  by_cases hn : hs = []
  · simp [hn, Out.panic]
  · have hlen : hs.length ≥ 1 := by cases hs with
      | nil => exact absurd rfl hn
      | cons _ _ => simp
    simp only [hn, if_false, false_or, ne_eq, not_false_eq_true, true_implies, false_implies, true_and, anyAdds]
    by_cases hl : hs.length > 1 <;> cases ha : s.mux.allowAdd <;> cases hm : s.mux.urlMux.get? p <;>
      cases hu : s.mux.urlAnchors.get? p <;>
      simp [hl, hn, ha, hm, hu, Mux.addURLPatternHandler, Out.ret, Out.panic, GoMap.get?_set] <;>
      (try (intro q; by_cases hq : q = p <;> simp [hq]))

theorem url_anchor_exists (h : List RegEv) (p : String) (hp : ((runHist h).mux.urlMux.get? p).isSome = true) :
    ((runHist h).mux.urlAnchors.get? p).isSome = true := by
  induction h with
  | nil => exact Bool.noConfusion hp
  | cons e h ih =>
    by_cases ht : e.touchesUrls = false
    · have hst := step_urls (runHist h) e ht
      simp only [runHist] at hp ⊢
      rw [hst.1] at hp; rw [hst.2]; exact ih hp
    · cases e with
      | any q hs =>
        obtain ⟨_, c2, c3⟩ := any_cases (runHist h) q hs
        simp only [runHist, RegEv.step] at hp ⊢
        by_cases hn : hs = []
        · rw [c2 hn] at hp ⊢; exact ih hp
        · obtain ⟨_, d2, d3⟩ := c3 hn
          rw [d3]
          by_cases hq : p = q
          · subst hq
            split
            · rename_i hs'; exact hs'
            · simp
          · rw [d2 p, if_neg (by simp [hq])] at hp
            have := ih hp
            split
            · exact this
            · rw [GoMap.get?_set, if_neg hq]; exact this
      | _ => exact absurd rfl ht

theorem panics_any (h : List RegEv) (p : String) (hs : List H) :
    panics h (.any p hs) ↔ hs = [] ∨ ((runHist h).mux.urlAnchors.get? p).isSome = true :=
  (any_cases (runHist h) p hs).1

theorem allowAdd_eq (h : List RegEv) : (runHist h).mux.allowAdd = !locked h := by
  induction h with
  | nil => rfl
  | cons e h ih =>
    cases e with
    | use k f => have := useOne_frame (runHist h) k f; exact this.2.2.2.2.2.2.1.trans ih
    | unUse k => have := unUseOne_frame (runHist h) k; exact this.2.2.2.2.2.2.1.trans ih
    | addHandler id hs => have := addHandler_frame (runHist h) id hs; exact this.2.2.2.2.2.1.trans ih
    | any p hs => have := any_frame (runHist h) p hs; exact this.2.2.2.2.2.2.1.trans ih
    | setAllowAdd b => simp [runHist, RegEv.step, Out.ret, locked]
    | _ => exact ih

/-- The anchor of a URL pattern is the one of its registration. -/
theorem url_state (p : String) (h : List RegEv) :
    match urlRegistration p h with
    | none => (runHist h).mux.urlAnchors.get? p = none ∧ (runHist h).mux.urlMux.get? p = none
    | some (pre, hs) => (runHist h).mux.urlAnchors.get? p = some (seedOf pre + 1) ∧
        (∃ post, h = post ++ .any p hs :: pre) ∧ ¬ panics pre (.any p hs) ∧
        seedOf (.any p hs :: pre) = seedOf pre + 1 := by
  induction h with
  | nil => exact ⟨rfl, rfl⟩
  | cons e h ih =>
    have lift : ∀ (e : RegEv), (e.step (runHist h)).st.mux.urlAnchors.get? p = (runHist h).mux.urlAnchors.get? p →
        urlRegistration p (e :: h) = urlRegistration p h →
        (urlRegistration p h = none → (e.step (runHist h)).st.mux.urlMux.get? p = none) →
        match urlRegistration p (e :: h) with
        | none => (runHist (e :: h)).mux.urlAnchors.get? p = none ∧ (runHist (e :: h)).mux.urlMux.get? p = none
        | some (pre, hs) => (runHist (e :: h)).mux.urlAnchors.get? p = some (seedOf pre + 1) ∧
            (∃ post, e :: h = post ++ .any p hs :: pre) ∧ ¬ panics pre (.any p hs) ∧
            seedOf (.any p hs :: pre) = seedOf pre + 1 := by
      intro e h1 h3 h4
      rw [h3]
      simp only [runHist] at *
      rw [h1]
      cases hr : urlRegistration p h with
      | none => rw [hr] at ih; exact ⟨ih.1, h4 hr⟩
      | some r =>
        rw [hr] at ih
        obtain ⟨b, ⟨post, c⟩, d⟩ := ih
        exact ⟨b, ⟨e :: post, by rw [List.cons_append, ← c]⟩, d⟩
    by_cases ht : e.touchesUrls = false
    · have hst := step_urls (runHist h) e ht
      exact lift _ (by rw [hst.2]) (urlRegistration_other p e h ht) (fun hr => by rw [hr] at ih; rw [hst.1]; exact ih.2)
    · cases e with
      | any q hs =>
        obtain ⟨c1, c2, c3⟩ := any_cases (runHist h) q hs
        by_cases hn : hs = []
        · apply lift
          · show GoMap.get? ((runHist h).any q hs).st.mux.urlAnchors p = _; rw [c2 hn]
          · have : panics h (.any q hs) := (panics_any h q hs).2 (.inl hn)
            simp [urlRegistration, this]
          · intro hr; rw [hr] at ih; show GoMap.get? ((runHist h).any q hs).st.mux.urlMux p = _; rw [c2 hn]; exact ih.2
        · obtain ⟨d1, d2, d3⟩ := c3 hn
          by_cases hq : q = p
          · subst hq
            by_cases hu : ((runHist h).mux.urlAnchors.get? q).isSome = true
            · apply lift
              · show GoMap.get? ((runHist h).any q hs).st.mux.urlAnchors q = _; rw [d3, if_pos hu]
              · have : panics h (.any q hs) := (panics_any h q hs).2 (.inr hu)
                simp [urlRegistration, this]
              · intro hr; rw [hr] at ih; rw [ih.1] at hu; exact Bool.noConfusion hu
            · have hnp : ¬ panics h (.any q hs) := by
                intro hp; rcases (panics_any h q hs).1 hp with h1 | h1
                · exact hn h1
                · exact hu h1
              have hreg : urlRegistration q (.any q hs :: h) = some (h, hs) := by simp [urlRegistration, hnp]
              rw [hreg]
              refine ⟨?_, ⟨[], rfl⟩, hnp, d1⟩
              show GoMap.get? ((runHist h).any q hs).st.mux.urlAnchors q = _
              rw [d3, if_neg hu]; exact GoMap.get?_set_self _ _ _
          · apply lift
            · show GoMap.get? ((runHist h).any q hs).st.mux.urlAnchors p = _
              rw [d3]; split
              · rfl
              · rw [GoMap.get?_set, if_neg (Ne.symm hq)]
            · simp [urlRegistration, hq]
            · intro hr; rw [hr] at ih
              show GoMap.get? ((runHist h).any q hs).st.mux.urlMux p = _
              rw [d2 p, if_neg (by simp [Ne.symm hq])]; exact ih.2
      | _ => exact absurd rfl ht

/-! ## Configuration -/

theorem cfg_eq (h : List RegEv) :
    ((runHist h).hbThrough, (runHist h).hbId) = heartbeatCfg h ∧
    ((runHist h).authThrough, (runHist h).authId) = authCfg h ∧ (runHist h).onMessage = onMessage h := by
  induction h with
  | nil => exact ⟨rfl, rfl, rfl⟩
  | cons e h ih =>
    cases e with
    | setHbId id =>
      refine ⟨?_, ih.2⟩
      rw [show heartbeatCfg (.setHbId id :: h) = ((heartbeatCfg h).1, id) from rfl, ← ih.1]; rfl
    | setHeartBeat on th id => exact ⟨rfl, ih.2⟩
    | setAuth on th id => exact ⟨ih.1, rfl, ih.2.2⟩
    | setOnMessage o => exact ⟨ih.1, ih.2.1, rfl⟩
    | _ => exact ih

/-! ## Own middlewares -/

theorem selfMw_origin (h : List RegEv) (id : Int32) (l : List H) (hl : (runHist h).mux.selfMw.get? id = some l) :
    ∃ hs, RegEv.addHandler id hs ∈ h ∧ hs.length > 1 ∧ l = hs.dropLast := by
  induction h with
  | nil => simp [runHist, Srv.new] at hl
  | cons e h ih =>
    have up : (∃ hs, RegEv.addHandler id hs ∈ h ∧ hs.length > 1 ∧ l = hs.dropLast) →
        ∃ hs, RegEv.addHandler id hs ∈ e :: h ∧ hs.length > 1 ∧ l = hs.dropLast :=
      fun ⟨hs, a, b⟩ => ⟨hs, List.mem_cons_of_mem _ a, b⟩
    by_cases ht : e.touchesIds = false
    · have hst := step_ids (runHist h) e ht
      simp only [runHist] at hl
      rw [hst.2.2] at hl
      exact up (ih hl)
    · cases e with
      | addHandler id' hs =>
        obtain ⟨_, c2, c3⟩ := addHandler_cases (runHist h) id' hs (ids_agree h id')
        simp only [runHist, RegEv.step] at hl
        have fin : ((runHist h).addHandler id' hs).st.mux.selfMw = (runHist h).mux.selfMw ∨
            (hs.length > 1 ∧ ((runHist h).addHandler id' hs).st.mux.selfMw = (runHist h).mux.selfMw.set id' hs.dropLast) := by
          rcases Bool.eq_false_or_eq_true (addRefused (runHist h).mux id' hs) with hr | hr
          · obtain ⟨_, _, _, h4 | ⟨h4, _, h5⟩⟩ := c2 hr
            · exact .inl h4
            · exact .inr ⟨h4, h5⟩
          · obtain ⟨f, _, _, _, _, h4⟩ := c3 hr
            by_cases hg : hs.length > 1
            · rw [if_pos hg] at h4; exact .inr ⟨hg, h4⟩
            · rw [if_neg hg] at h4; exact .inl h4
        rcases fin with h4 | ⟨hg, h4⟩
        · rw [h4] at hl; exact up (ih hl)
        · rw [h4, GoMap.get?_set] at hl
          split at hl
          · rename_i hid; subst hid
            exact ⟨hs, List.mem_cons_self, hg, (Option.some.inj hl).symm⟩
          · exact up (ih hl)
      | removeHandler id' => exact up (ih hl)
      | _ => exact absurd rfl ht

/-- In a history without panics and without removal of `id`, the own middlewares are those of the registration. -/
theorem selfMw_clean (h : List RegEv) (hc : Clean h) (id : Int32) (hn : RegEv.removeHandler id ∉ h) :
    match registration id h with
    | none => (runHist h).mux.selfMw.get? id = none
    | some (_, hs) => (runHist h).mux.selfMw.get? id = if hs.length > 1 then some hs.dropLast else none := by
  induction h with
  | nil => exact rfl
  | cons e h ih =>
    have ih := ih hc.1 (fun hm => hn (List.mem_cons_of_mem _ hm))
    by_cases ht : e.touchesIds = false
    · have hst := step_ids (runHist h) e ht
      rw [registration_other id e h ht]
      simp only [runHist]; rw [hst.2.2]; exact ih
    · cases e with
      | addHandler id' hs =>
        have hnp := hc.2
        obtain ⟨c1, _, c3⟩ := addHandler_cases (runHist h) id' hs (ids_agree h id')
        have hr : addRefused (runHist h).mux id' hs = false := by
          rw [panics_addHandler] at hnp; simpa using hnp
        obtain ⟨f, _, e1, e2, e3, e4⟩ := c3 hr
        simp only [runHist, RegEv.step]
        rw [e4]
        by_cases hid : id' = id
        · subst hid
          have hreg : registration id' (.addHandler id' hs :: h) = some (h, hs) := by simp [registration, hnp]
          have hrn : registration id' h = none := by
            have := registration_state id' h
            cases hx : registration id' h with
            | none => rfl
            | some r =>
              rw [hx] at this
              obtain ⟨⟨f', _, hf'⟩, _⟩ := this
              simp [addRefused, hf'] at hr
          rw [hrn] at ih
          rw [hreg]
          show GoMap.get? _ id' = if hs.length > 1 then some hs.dropLast else none
          split
          · exact GoMap.get?_set_self _ _ _
          · exact ih
        · have hreg : registration id (.addHandler id' hs :: h) = registration id h := by simp [registration, hid]
          have hg : GoMap.get? (if hs.length > 1 then (runHist h).mux.selfMw.set id' hs.dropLast else (runHist h).mux.selfMw) id
              = (runHist h).mux.selfMw.get? id := by
            split
            · rw [GoMap.get?_set, if_neg (Ne.symm hid)]
            · rfl
          rw [hreg, hg]; exact ih
      | removeHandler id' =>
        have hid : id' ≠ id := by intro hh; subst hh; exact hn List.mem_cons_self
        have hreg : registration id (.removeHandler id' :: h) = registration id h := by simp [registration, hid]
        rw [hreg]; exact ih
      | _ => exact absurd rfl ht

/-- The own middlewares in force for `id` are the ones given with its registration. -/
theorem own_middlewares (h : List RegEv) (hc : Clean h) (id : Int32)
    (hn : RegEv.removeHandler id ∉ h ∨ ∀ hs, RegEv.addHandler id hs ∈ h → hs.length ≤ 1)
    (pre : List RegEv) (hs : List H) (hr : registration id h = some (pre, hs)) :
    ((runHist h).mux.selfMw.get? id).getD [] = hs.dropLast := by
  have hst := registration_state id h
  rw [hr] at hst
  obtain ⟨⟨f, hf, _⟩, _, ⟨post, hpost⟩, _⟩ := hst
  rcases hn with hn | hn
  · have := selfMw_clean h hc id hn
    rw [hr] at this
    simp only at this
    rw [this]
    split
    · rfl
    · rename_i hl
      match hs, hl with
      | [], _ => rfl
      | [x], _ => rfl
      | x :: y :: l, hl => simp at hl
  · have hl : hs.length ≤ 1 := hn hs (by rw [hpost]; simp)
    cases hx : (runHist h).mux.selfMw.get? id with
    | some l =>
      obtain ⟨hs', hm, hg, _⟩ := selfMw_origin h id l hx
      have := hn hs' hm; omega
    | none =>
      match hs, hl with
      | [], _ => rfl
      | [x], _ => rfl
      | x :: y :: l, hl => simp at hl

/-! ## The chain of a registered message -/

/-- Is `id` one of the ids whose handler is run without a chain? -/
def bypasses (h : List RegEv) (id : Int32) : Prop :=
  (id = (heartbeatCfg h).2 ∧ (heartbeatCfg h).1 = false) ∨ (id = (authCfg h).2 ∧ (authCfg h).1 = false)

theorem dispatchId_eq (h : List RegEv) (id : Int32) :
    match registration id h with
    | none => (runHist h).dispatchId id = .nothing
    | some (pre, hs) => ∃ f post, hs.getLast? = some f ∧ h = post ++ .addHandler id hs :: pre ∧
        (bypasses h id → (runHist h).dispatchId id = .direct f) ∧
        (¬ bypasses h id → (runHist h).dispatchId id = .chain (globals h ++
          ((firstUses h).filter (fun x => covered x.1 pre post)).map (·.2) ++
          ((runHist h).mux.selfMw.get? id).getD [] ++ [f])) := by
  have hst := registration_state id h
  have hcfg := cfg_eq h
  have hb : bypasses h id ↔ ((id = (runHist h).hbId ∧ (runHist h).hbThrough = false) ∨
      (id = (runHist h).authId ∧ (runHist h).authThrough = false)) := by
    rw [bypasses, ← hcfg.1, ← hcfg.2.1]
  cases hr : registration id h with
  | none =>
    rw [hr] at hst
    simp [Srv.dispatchId, hst.1]
  | some r =>
    obtain ⟨pre, hs⟩ := r
    rw [hr] at hst
    obtain ⟨⟨f, hf, hh⟩, hi, ⟨post, hpost⟩, hnp, hseed⟩ := hst
    refine ⟨f, post, hf, hpost, ?_, ?_⟩
    · intro hbp
      simp only [Srv.dispatchId, hh]
      rcases hb.1 hbp with h1 | h1
      · rw [if_pos h1]
      · split
        · rfl
        · rfl
    · intro hbp
      have hbp' := fun x => hbp (hb.2 x)
      simp only [Srv.dispatchId, hh]
      rw [if_neg (fun h1 => hbp' (.inl h1)), if_neg (fun h1 => hbp' (.inr h1)), hi]
      have ha := anchorsAt_eq pre (.addHandler id hs) rfl hseed post
      rw [← hpost] at ha
      simp only [ha, globals_eq]

theorem dispatchUrl_eq (h : List RegEv) (p : String) :
    match urlRegistration p h with
    | none => (runHist h).dispatchUrl p = .nothing
    | some (pre, hs) => ∃ post, h = post ++ .any p hs :: pre ∧
        (runHist h).dispatchUrl p = match (runHist h).mux.urlMux.get? p with
          | none => .nothing
          | some l => .chain (globals h ++ ((firstUses h).filter (fun x => covered x.1 pre post)).map (·.2) ++ l) := by
  have hst := url_state p h
  cases hr : urlRegistration p h with
  | none =>
    rw [hr] at hst
    simp [Srv.dispatchUrl, hst.2]
  | some r =>
    obtain ⟨pre, hs⟩ := r
    rw [hr] at hst
    obtain ⟨hi, ⟨post, hpost⟩, hnp, hseed⟩ := hst
    refine ⟨post, hpost, ?_⟩
    have ha := anchorsAt_eq pre (.any p hs) rfl hseed post
    rw [← hpost] at ha
    cases hm : (runHist h).mux.urlMux.get? p with
    | none => simp [Srv.dispatchUrl, hm]
    | some l => simp [Srv.dispatchUrl, hm, hi, ha, globals_eq]

/-- The handlers of a pattern after a history without panics. -/
theorem url_handlers (h : List RegEv) (hc : Clean h) (p : String) :
    (runHist h).mux.urlMux.get? p = match urlRegistration p h with
      | none => none
      | some (pre, hs) => if anyAdds (!locked pre) hs = [] then none else some (anyAdds (!locked pre) hs) := by
  induction h with
  | nil => rfl
  | cons e h ih =>
    have ih := ih hc.1
    by_cases ht : e.touchesUrls = false
    · have hst := step_urls (runHist h) e ht
      rw [urlRegistration_other p e h ht]
      simp only [runHist]; rw [hst.1]; exact ih
    · cases e with
      | any q hs =>
        have hnp := hc.2
        obtain ⟨_, _, c3⟩ := any_cases (runHist h) q hs
        have hnp' := fun x => hnp ((panics_any h q hs).2 x)
        obtain ⟨d1, d2, d3⟩ := c3 (fun hn => hnp' (.inl hn))
        simp only [runHist, RegEv.step]
        rw [d2 p, allowAdd_eq]
        by_cases hq : q = p
        · subst hq
          have hreg : urlRegistration q (.any q hs :: h) = some (h, hs) := by simp [urlRegistration, hnp]
          have hnone : (runHist h).mux.urlMux.get? q = none := by
            cases hx : (runHist h).mux.urlMux.get? q with
            | none => rfl
            | some l =>
              exact absurd (.inr (url_anchor_exists h q (by rw [hx]; rfl))) hnp'
          rw [hreg, hnone]
          by_cases ha : anyAdds (!locked h) hs = []
          · simp [ha]
          · simp [ha]
        · have hreg : urlRegistration p (.any q hs :: h) = urlRegistration p h := by simp [urlRegistration, hq]
          rw [hreg, if_neg (by simp [Ne.symm hq])]
          exact ih
      | _ => exact absurd rfl ht

end Tcpx
