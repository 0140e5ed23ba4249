import Verif.Spec.Where
import Verif.Lemmas.Mux
/-!
# Invariants of the places written down
-/
namespace Tcpx.Where
open Spec

/-- What is written down after the calls recorded in `ds`. -/
structure Inv (w : WSrv) (ds : List Done) : Prop where
  hist : ∃ h, w.srv = runHist h
  some : ∀ k, (w.srv.mux.anchorMap.get? k).isSome = (w.info.get? k).isSome
  info : ∀ k, (w.info.get? k).getD {} = ⟨usePlaces k ds, unUsePlaces k ds⟩

theorem inv_key {w : WSrv} (h : ∃ h, w.srv = runHist h) (k : String) (a : MAnchor) (ha : w.srv.mux.anchorMap.get? k = some a) :
    a.key = k := by
  obtain ⟨h, hh⟩ := h
  rw [hh, (anchors_eq h).1 k] at ha
  cases hg : GoMap.get? (firstUses h) k with
  | none => simp [hg] at ha
  | some f => simp [hg] at ha; rw [← ha]; rfl

theorem inv_new : Inv {} [] := ⟨⟨[], rfl⟩, fun _ => rfl, fun _ => rfl⟩

theorem usePlaces_append (k : String) (a b : List Done) : usePlaces k (a ++ b) = usePlaces k a ++ usePlaces k b :=
  List.filterMap_append
theorem unUsePlaces_append (k : String) (a b : List Done) : unUsePlaces k (a ++ b) = unUsePlaces k a ++ unUsePlaces k b :=
  List.filterMap_append

theorem step_srv (w : WSrv) (p : String) (e : RegEv) : (step w p e).1.srv = (e.step w.srv).st := by
  cases e with
  | use k f => simp only [step, useOne, RegEv.step]; split <;> (try split) <;> rfl
  | unUse k => simp only [step, unUseOne, RegEv.step]; split <;> (try split) <;> rfl
  | _ => rfl

theorem step_inv {w : WSrv} {ds : List Done} (iv : Inv w ds) (p : String) (e : RegEv) :
    Inv (step w p e).1 (ds ++ [⟨p, e, (step w p e).2⟩]) := by
  have hh : ∃ h, (step w p e).1.srv = runHist h := by
    obtain ⟨h, hh⟩ := iv.hist
    exact ⟨e :: h, by rw [step_srv, hh]; rfl⟩
  have other : e.touchesAnchors = false → (step w p e).1.info = w.info → Inv (step w p e).1 (ds ++ [⟨p, e, (step w p e).2⟩]) := by
    intro he hi
    refine ⟨hh, ?_, ?_⟩
    · intro k
      rw [step_srv, (step_anchors _ e he).2, hi]
      exact iv.some k
    · intro k
      rw [hi, iv.info k, usePlaces_append, unUsePlaces_append]
      cases e <;> simp_all [RegEv.touchesAnchors, usePlaces, unUsePlaces]
  cases e with
  | use k f =>
    refine ⟨hh, ?_, ?_⟩
    · intro k'
      have hu := use_anchors w.srv k f
      rw [step_srv]
      simp only [RegEv.step, step, useOne]
      cases hm : w.srv.mux.anchorMap.get? k with
      | none =>
        simp only [hm] at hu
        rw [hu.2]
        simp only [GoMap.get?_set]
        split
        · rfl
        · exact iv.some k'
      | some a =>
        simp only [hm] at hu
        rw [hu.2]
        by_cases hl : a.ends.length < a.starts.length
        · simp only [hl, if_true]; exact iv.some k'
        · simp only [hl, if_false, GoMap.get?_set]
          split
          · rfl
          · exact iv.some k'
    · intro k'
      rw [usePlaces_append, unUsePlaces_append]
      simp only [step, useOne]
      cases hm : w.srv.mux.anchorMap.get? k with
      | none =>
        have hn : w.info.get? k = none := by
          have := iv.some k; rw [hm] at this; simpa using this.symm
        have hi := iv.info k
        rw [hn] at hi
        simp only [GoMap.get?_set]
        split
        · next hk =>
          subst hk
          simp only [Option.getD_none, Info.mk.injEq] at hi
          simp [usePlaces, unUsePlaces, Info.mergeUse] at hi ⊢
          exact ⟨hi.1, hi.2⟩
        · next hk =>
          rw [iv.info k']
          simp [usePlaces, unUsePlaces, Ne.symm hk]
      | some a =>
        by_cases hl : a.ends.length < a.starts.length
        · simp only [hl, if_true]
          rw [iv.info k']
          simp [usePlaces, unUsePlaces]
        · simp only [hl, if_false, GoMap.get?_set]
          split
          · next hk =>
            subst hk
            simp only [Option.getD_some, Info.mergeUse, iv.info]
            simp [usePlaces, unUsePlaces]
          · next hk =>
            rw [iv.info k']
            simp [usePlaces, unUsePlaces, Ne.symm hk]
  | unUse k =>
    refine ⟨hh, ?_, ?_⟩
    · intro k'
      have hu := unUse_anchors w.srv k
      rw [step_srv]
      simp only [RegEv.step, step, unUseOne]
      cases hm : w.srv.mux.anchorMap.get? k with
      | none =>
        simp only [hm] at hu
        rw [hu]
        exact iv.some k'
      | some a =>
        simp only [hm] at hu
        by_cases hl : a.ends.length ≥ a.starts.length
        · simp only [hl, if_true] at hu ⊢; rw [hu]; exact iv.some k'
        · simp only [hl, if_false] at hu ⊢
          have hak := inv_key iv.hist k a hm
          rw [hak, hm] at hu
          simp only at hu
          rw [hu]
          simp only [GoMap.get?_set]
          split
          · rfl
          · exact iv.some k'
    · intro k'
      rw [usePlaces_append, unUsePlaces_append]
      simp only [step, unUseOne]
      cases hm : w.srv.mux.anchorMap.get? k with
      | none =>
        rw [iv.info k']
        simp [usePlaces, unUsePlaces]
      | some a =>
        by_cases hl : a.ends.length ≥ a.starts.length
        · simp only [hl, if_true]
          rw [iv.info k']
          simp [usePlaces, unUsePlaces]
        · simp only [hl, if_false, GoMap.get?_set]
          split
          · next hk =>
            subst hk
            simp only [Option.getD_some, Info.mergeUnUse, iv.info]
            simp [usePlaces, unUsePlaces]
          · next hk =>
            rw [iv.info k']
            simp [usePlaces, unUsePlaces, Ne.symm hk]
  | _ => exact other rfl rfl

theorem step_panics {w : WSrv} (hh : ∃ h, w.srv = runHist h) (p : String) (e : RegEv) :
    (∃ t, (step w p e).2 = .panicked t) ↔ (e.step w.srv).panicked = true := by
  cases e with
  | use k f =>
    simp only [step, useOne, RegEv.step, Srv.useOne, Srv.onMux, MAnchor.callUse]
    cases hm : w.srv.mux.anchorMap.get? k with
    | none => simp [Out.ret]
    | some a =>
      by_cases hl : a.ends.length < a.starts.length
      · simp [hl, Out.panic]
      · simp [hl, Out.ret]
  | unUse k =>
    simp only [step, unUseOne, RegEv.step, Srv.unUseOne, Srv.onMux, MAnchor.callUnUse]
    cases hm : w.srv.mux.anchorMap.get? k with
    | none => simp [Out.panic]
    | some a =>
      by_cases hl : a.ends.length ≥ a.starts.length
      · simp [hl, Out.panic]
      · have hak := inv_key hh k a hm
        have : w.srv.mux.bump.anchorMap.get? k = some a := hm
        simp [hl, Mux.replaceMiddlewareAnchor, hak, this, Out.ret]
  | _ => simp only [step]; split <;> simp_all

theorem runHist_foldl (h : List RegEv) (es : List RegEv) :
    es.foldl (fun s e => (e.step s).st) (runHist h) = runHist (es.reverse ++ h) := by
  induction es generalizing h with
  | nil => rfl
  | cons e es ih => simpa [runHist] using ih (e :: h)

/-- The state before each recorded call. -/
theorem runAll_split' {w : WSrv} {ds0 : List Done} (iv : Inv w ds0) (cs : List (String × RegEv)) (l1 l2 : List Done) (d : Done)
    (h : (runAll w cs).2 = l1 ++ d :: l2) :
    ∃ w', Inv w' (ds0 ++ l1) ∧ w'.srv = l1.foldl (fun s d => (d.call.step s).st) w.srv ∧ d.outcome = (step w' d.place d.call).2 := by
  induction cs generalizing w ds0 l1 with
  | nil => simp [runAll] at h
  | cons c cs ih =>
    obtain ⟨p, c⟩ := c
    simp only [runAll] at h
    cases l1 with
    | nil =>
      simp only [List.nil_append, List.cons.injEq] at h
      refine ⟨w, by simpa using iv, rfl, ?_⟩
      rw [← h.1]
    | cons x l1 =>
      simp only [List.cons_append, List.cons.injEq] at h
      obtain ⟨w', h1, h3, h2⟩ := ih (step_inv iv p c) l1 h.2
      refine ⟨w', ?_, ?_, h2⟩
      · rw [← h.1]
        simpa using h1
      · rw [h3, ← h.1, step_srv]
        rfl

theorem runAll_split {ds0 : List Done} (iv : Inv {} ds0) (cs : List (String × RegEv)) (l1 l2 : List Done) (d : Done)
    (h : (runAll {} cs).2 = l1 ++ d :: l2) :
    ∃ w', Inv w' (ds0 ++ l1) ∧ w'.srv = runHist (l1.map (·.call)).reverse ∧ d.outcome = (step w' d.place d.call).2 := by
  obtain ⟨w', h1, h2, h3⟩ := runAll_split' iv cs l1 l2 d h
  refine ⟨w', h1, ?_, h3⟩
  rw [h2]
  have := runHist_foldl [] (l1.map (·.call))
  simpa [List.foldl_map, runHist] using this

/-! ## `URLMux` on its own -/

/-- What a `URLMux` holds after the calls recorded in `ds`. -/
structure UInv (m : URLMux) (ds : List UrlDone) : Prop where
  locked : m.readOnly = true ↔ ∃ d ∈ ds, d.call = .lockWrite
  strict : m.panicOnExistRouting = true ↔ ∃ d ∈ ds, d.call = .panicOnExistRouter ∧ d.outcome = .returned
  hs : ∀ p, m.urlPatternMux.get? p = if addPlaces p ds = [] then none else some (addedHandlers p ds)
  info : ∀ p, m.urlRouteInfo.get? p = if addPlaces p ds = [] then none else some ⟨p, 0, addPlaces p ds⟩

theorem uinv_new : UInv {} [] := by
  refine ⟨by simp, by simp, ?_, ?_⟩ <;> intro p <;> simp [addPlaces]

theorem addPlaces_append (p : String) (a b : List UrlDone) : addPlaces p (a ++ b) = addPlaces p a ++ addPlaces p b :=
  List.filterMap_append
theorem addedHandlers_append (p : String) (a b : List UrlDone) :
    addedHandlers p (a ++ b) = addedHandlers p a ++ addedHandlers p b := by
  simp [addedHandlers]

theorem added_nil {p : String} {ds : List UrlDone} (h : addPlaces p ds = []) : addedHandlers p ds = [] := by
  induction ds with
  | nil => rfl
  | cons d ds ih =>
    rw [show d :: ds = [d] ++ ds from rfl, addPlaces_append, List.append_eq_nil_iff] at h
    rw [show d :: ds = [d] ++ ds from rfl, addedHandlers_append, ih h.2]
    obtain ⟨pl, c, o⟩ := d
    have h := h.1
    cases c <;> cases o <;> simp_all [addPlaces, addedHandlers]

theorem url_step {m : URLMux} {ds : List UrlDone} (iv : UInv m ds) (pl : String) (c : UrlCall) :
    UInv (c.run m pl).1 (ds ++ [⟨pl, c, (c.run m pl).2⟩]) := by
  cases c with
  | lockWrite =>
    refine ⟨by simp [UrlCall.run], ?_, ?_, ?_⟩
    · simp only [UrlCall.run, iv.strict]; simp
    · intro p; simp only [UrlCall.run, iv.hs]; simp [addPlaces, addedHandlers]
    · intro p; simp only [UrlCall.run, iv.info]; simp [addPlaces]
  | panicOnExistRouter =>
    simp only [UrlCall.run]
    cases hr : m.readOnly with
    | true =>
      simp only [if_true]
      refine ⟨?_, ?_, ?_, ?_⟩
      · rw [iv.locked]; simp
      · rw [iv.strict]; simp
      · intro p; rw [iv.hs]; simp [addPlaces, addedHandlers]
      · intro p; rw [iv.info]; simp [addPlaces]
    | false =>
      simp only [Bool.false_eq_true, if_false]
      refine ⟨?_, by simp, ?_, ?_⟩
      · show false = true ↔ _
        rw [show false = true ↔ _ from hr ▸ iv.locked]; simp
      · intro p; show m.urlPatternMux.get? p = _; rw [iv.hs]; simp [addPlaces, addedHandlers]
      · intro p; show m.urlRouteInfo.get? p = _; rw [iv.info]; simp [addPlaces]
  | add p hs =>
    simp only [UrlCall.run, URLMux.add]
    cases hr : m.readOnly with
    | true =>
      simp only [if_true]
      refine ⟨?_, ?_, ?_, ?_⟩
      · rw [iv.locked]; simp
      · rw [iv.strict]; simp
      · intro p; rw [iv.hs]; simp [addPlaces, addedHandlers]
      · intro p; rw [iv.info]; simp [addPlaces]
    | false =>
      simp only [Bool.false_eq_true, if_false]
      by_cases hp : addPlaces p ds = []
      · have h1 := iv.hs p
        have h2 := iv.info p
        rw [if_pos hp] at h1 h2
        simp only [h1, h2]
        refine ⟨?_, ?_, ?_, ?_⟩
        · show false = true ↔ _
          rw [show false = true ↔ _ from hr ▸ iv.locked]; simp
        · show m.panicOnExistRouting = true ↔ _
          rw [iv.strict]; simp
        · intro p'
          simp only [GoMap.get?_set, addPlaces_append, addedHandlers_append]
          split
          · next hk => subst hk; simp [addPlaces, addedHandlers] at hp ⊢; simpa [addedHandlers] using added_nil (by simpa [addPlaces] using hp)
          · next hk => rw [iv.hs]; simp [addPlaces, addedHandlers, Ne.symm hk]
        · intro p'
          simp only [GoMap.get?_set, addPlaces_append]
          split
          · next hk => subst hk; rw [hp]; simp [addPlaces]
          · next hk => rw [iv.info]; simp [addPlaces, Ne.symm hk]
      · have h1 := iv.hs p
        have h2 := iv.info p
        rw [if_neg hp] at h1 h2
        simp only [h1, h2]
        cases hs' : m.panicOnExistRouting with
        | true =>
          simp only [if_true]
          refine ⟨?_, ?_, ?_, ?_⟩
          · rw [iv.locked]; simp
          · rw [iv.strict]; simp
          · intro p; rw [iv.hs]; simp [addPlaces, addedHandlers]
          · intro p; rw [iv.info]; simp [addPlaces]
        | false =>
          simp only [Bool.false_eq_true, if_false]
          refine ⟨?_, ?_, ?_, ?_⟩
          · show false = true ↔ _
            rw [show false = true ↔ _ from hr ▸ iv.locked]; simp
          · show false = true ↔ _
            rw [show false = true ↔ _ from hs' ▸ iv.strict]; simp
          · intro p'
            simp only [GoMap.get?_set, addPlaces_append, addedHandlers_append]
            split
            · next hk => subst hk; simp [addPlaces, addedHandlers]
            · next hk => rw [iv.hs]; simp [addPlaces, addedHandlers, Ne.symm hk]
          · intro p'
            simp only [GoMap.get?_set, addPlaces_append]
            split
            · next hk => subst hk; simp [addPlaces, Route.merge]
            · next hk => rw [iv.info]; simp [addPlaces, Ne.symm hk]

theorem runUrl_split {m : URLMux} {ds0 : List UrlDone} (iv : UInv m ds0) (cs : List (String × UrlCall)) (l1 l2 : List UrlDone)
    (d : UrlDone) (h : (runUrl m cs).2 = l1 ++ d :: l2) :
    ∃ m', UInv m' (ds0 ++ l1) ∧ d.outcome = (d.call.run m' d.place).2 := by
  induction cs generalizing m ds0 l1 with
  | nil => simp [runUrl] at h
  | cons c cs ih =>
    obtain ⟨p, c⟩ := c
    simp only [runUrl] at h
    cases l1 with
    | nil =>
      simp only [List.nil_append, List.cons.injEq] at h
      refine ⟨m, by simpa using iv, ?_⟩
      rw [← h.1]
    | cons x l1 =>
      simp only [List.cons_append, List.cons.injEq] at h
      obtain ⟨m', h1, h2⟩ := ih (url_step iv p c) l1 h.2
      refine ⟨m', ?_, h2⟩
      rw [← h.1]
      simpa using h1

theorem runUrl_inv {m : URLMux} {ds0 : List UrlDone} (iv : UInv m ds0) (cs : List (String × UrlCall)) :
    UInv (runUrl m cs).1 (ds0 ++ (runUrl m cs).2) := by
  induction cs generalizing m ds0 with
  | nil => simpa [runUrl] using iv
  | cons c cs ih => simpa [runUrl] using ih (url_step iv c.1 c.2)

end Tcpx.Where
