import Verif.Lemmas.Register
import Verif.Lemmas.Mux
/-!
# Lemmas about goroutines that register and dispatch: one goroutine alone
-/
namespace Tcpx
namespace Register
open Spec

/-- A system with one goroutine. -/
def sole (s : Srv) (cur : Option (Call × List Act)) (l : Loc) (t : List Call) (lg : List (Call × Outcome)) : Sys :=
  ⟨s, none, [], [⟨cur, l, t, lg⟩]⟩

/-- The goroutine comes from here to such a state. -/
def Gets (y : Sys) (P : Sys → Prop) : Prop := ∃ n, P (y.run (List.replicate n 0))

theorem Gets.refl {y : Sys} {P : Sys → Prop} (h : P y) : Gets y P := ⟨0, h⟩

theorem Gets.step {y : Sys} {P : Sys → Prop} (h : Gets (y.step 0) P) : Gets y P := by
  obtain ⟨n, h⟩ := h
  exact ⟨n + 1, h⟩

section
variable {s s' : Srv} {c : Call} {a : Act} {r r' : List Act} {l l' : Loc} {t : List Call} {lg : List (Call × Outcome)} {z : Sys → Prop}

theorem gets_plain (hp : a.plain = true) (he : a.exec s l r = (s', l', r'))
    (h : Gets (sole s' (some (c, r')) l' t lg) z) : Gets (sole s (some (c, a :: r)) l t lg) z := by
  apply Gets.step
  rw [step_plain (sole s (some (c, a :: r)) l t lg) 0 _ c a r rfl rfl hp]
  simp only [sole] at he ⊢
  rw [he]
  exact h

theorem gets_ret (o : Outcome) (h : Gets (sole s none l t ((c, o) :: lg)) z) : Gets (sole s (some (c, .ret o :: r)) l t lg) z :=
  Gets.step h

theorem gets_locked (hp : a.plain = true) (he : a.exec s l (.unlock :: r) = (s', l', .unlock :: r))
    (h : Gets (sole s' (some (c, r)) l' t lg) z) : Gets (sole s (some (c, .lock :: a :: .unlock :: r)) l t lg) z := by
  apply Gets.step
  apply Gets.step
  have e1 : (sole s (some (c, .lock :: a :: .unlock :: r)) l t lg).step 0 = ⟨s, some 0, [], [⟨some (c, a :: .unlock :: r), l, t, lg⟩]⟩ := rfl
  rw [e1, step_plain _ 0 _ c a (.unlock :: r) rfl rfl hp]
  simp only
  rw [he]
  exact Gets.step h

theorem gets_locked_panic (hp : a.plain = true) (he : a.exec s l (.unlock :: r) = (s', l', unwind (.unlock :: r)))
    (h : Gets (sole s' none l' t ((c, .panicked) :: lg)) z) : Gets (sole s (some (c, .lock :: a :: .unlock :: r)) l t lg) z := by
  apply Gets.step
  apply Gets.step
  have e1 : (sole s (some (c, .lock :: a :: .unlock :: r)) l t lg).step 0 = ⟨s, some 0, [], [⟨some (c, a :: .unlock :: r), l, t, lg⟩]⟩ := rfl
  rw [e1, step_plain _ 0 _ c a (.unlock :: r) rfl rfl hp]
  simp only
  rw [he]
  exact Gets.step (Gets.step h)

theorem gets_rlocked (hp : a.plain = true) (he : a.exec s l (.runlock :: r) = (s', l', .runlock :: r))
    (h : Gets (sole s' (some (c, r)) l' t lg) z) : Gets (sole s (some (c, .rlock :: a :: .runlock :: r)) l t lg) z := by
  apply Gets.step
  apply Gets.step
  have e1 : (sole s (some (c, .rlock :: a :: .runlock :: r)) l t lg).step 0 = ⟨s, none, [0], [⟨some (c, a :: .runlock :: r), l, t, lg⟩]⟩ := rfl
  rw [e1, step_plain _ 0 _ c a (.runlock :: r) rfl rfl hp]
  simp only
  rw [he]
  exact Gets.step h

theorem gets_rlocked_panic (hp : a.plain = true) (he : a.exec s l (.runlock :: r) = (s', l', unwind (.runlock :: r)))
    (h : Gets (sole s' none l' t ((c, .panicked) :: lg)) z) : Gets (sole s (some (c, .rlock :: a :: .runlock :: r)) l t lg) z := by
  apply Gets.step
  apply Gets.step
  have e1 : (sole s (some (c, .rlock :: a :: .runlock :: r)) l t lg).step 0 = ⟨s, none, [0], [⟨some (c, a :: .runlock :: r), l, t, lg⟩]⟩ := rfl
  rw [e1, step_plain _ 0 _ c a (.runlock :: r) rfl rfl hp]
  simp only
  rw [he]
  exact Gets.step (Gets.step h)

/-- The outcome of a registration call. -/
def outcome (o : Out Srv) : Outcome := if o.panicked then .panicked else .returned

/-- From where `handleFunc` is called. -/
theorem gets_handle (id : Int32) (f : H)
    (hz : ∀ l', Gets (sole { s with mux := ((s.mux.addHandleFunc id f).andThen fun m => m.bump.addMessageIDAnchor id m.bump.seed).st } none l' t
      ((c, if ((s.mux.addHandleFunc id f).andThen fun m => m.bump.addMessageIDAnchor id m.bump.seed).panicked
        then .panicked else .returned) :: lg)) z) :
    Gets (sole s (some (c, [.allow] ++ locked (.handle id f) ++ [.index] ++ locked (.idAnchor id) ++ [.ret .returned])) l t lg) z := by
  simp only [locked, List.cons_append, List.nil_append]
  unfold Mux.addHandleFunc at hz
  cases ha : s.mux.allowAdd with
  | false =>
    rw [if_pos ha] at hz
    refine gets_plain (a := .allow) rfl (by simp only [Act.exec, ha]; rfl) ?_
    exact gets_ret _ (hz _)
  | true =>
    rw [if_neg (by rw [ha]; decide)] at hz
    refine gets_plain (a := .allow) rfl (by simp only [Act.exec, ha]; rfl) ?_
    cases hh : s.mux.handlers.get? id with
    | some h0 =>
      rw [hh] at hz
      exact gets_locked_panic rfl (by simp only [Act.exec, hh]; rfl) (hz _)
    | none =>
      rw [hh] at hz
      refine gets_locked rfl (by simp only [Act.exec, hh]; rfl) ?_
      refine gets_plain (a := .index) rfl rfl ?_
      simp only [Out.andThen, Out.ret, Mux.addMessageIDAnchor, Mux.bump, Bool.false_eq_true, if_false] at hz ⊢
      cases hi : s.mux.idAnchors.get? id with
      | some i0 =>
        rw [hi] at hz
        exact gets_locked_panic rfl (by simp only [Act.exec, hi]; rfl) (hz _)
      | none =>
        rw [hi] at hz
        refine gets_locked rfl (by simp only [Act.exec, hi]; rfl) ?_
        exact gets_ret _ (hz _)

theorem gets_addHandler (id : Int32) (hs : List H)
    (hz : ∀ l', Gets (sole (s.addHandler id hs).st none l' t ((c, outcome (s.addHandler id hs)) :: lg)) z) :
    Gets (sole s (some (c, addHandlerCode id hs)) l t lg) z := by
  unfold addHandlerCode
  unfold Srv.addHandler Srv.onMux outcome at hz
  cases hl : hs.getLast? with
  | none =>
    simp only [hl] at hz
    exact gets_ret _ (hz _)
  | some f =>
    simp only [hl] at hz ⊢
    by_cases hn : hs.length > 1
    · rw [if_pos hn]
      simp only [if_pos hn] at hz
      unfold Mux.addSelfMw at hz
      simp only [locked, List.cons_append, List.nil_append]
      have hd : hs.dropLast ≠ [] := by
        intro e
        have := congrArg List.length e
        simp only [List.length_dropLast, List.length_nil] at this
        omega
      cases hm : s.mux.selfMw.get? id with
      | some l0 =>
        simp only [hm, Out.panic, Out.andThen, if_true] at hz
        exact gets_locked_panic rfl (by simp only [Act.exec, hm]; rfl) (hz _)
      | none =>
        simp only [hm, if_neg hd, Out.andThen_ret] at hz
        refine gets_locked (a := .selfMw id hs.dropLast) rfl (by simp only [Act.exec, hm, if_neg hd]; rfl) ?_
        exact gets_handle id f hz
    · rw [if_neg hn]
      simp only [if_neg hn, Out.andThen_ret] at hz
      exact gets_handle id f hz

/-- The loop over the anchors. -/
theorem gets_scan (n j : Nat) (hn : n = s.mux.anchors.length) (hj : j ≤ n)
    (hz : match anchorsAt (s.mux.anchors.drop j) l.idx with
      | none => ∀ l', Gets (sole s none l' t ((c, .panicked) :: lg)) z
      | some as => Gets (sole s (some (c, r)) { l with chain := l.chain ++ as } t lg) z)
    (hr : unwind r = [.ret .panicked]) : Gets (sole s (some (c, .scan n j :: r)) l t lg) z := by
  induction hk : n - j generalizing j l with
  | zero =>
    have : j = s.mux.anchors.length := by omega
    rw [this, List.drop_length] at hz
    simp only [anchorsAt, List.append_nil] at hz
    exact gets_plain (s' := s) (l' := l) (r' := r) rfl (by simp only [Act.exec]; rw [if_neg (by omega)]) hz
  | succ k ih =>
    have hlt : j < s.mux.anchors.length := by omega
    have hd : s.mux.anchors.drop j = s.mux.anchors[j] :: s.mux.anchors.drop (j + 1) := List.drop_eq_getElem_cons hlt
    rw [hd] at hz
    simp only [anchorsAt] at hz
    have hg : s.mux.anchors[j]? = some s.mux.anchors[j] := by simp [hlt]
    cases hb : (s.mux.anchors[j]).contains l.idx with
    | none =>
      rw [hb] at hz
      refine gets_plain (s' := s) (l' := l) (r' := unwind r) rfl (by simp only [Act.exec]; rw [if_pos (by omega)]; simp only [hg, hb]) ?_
      rw [hr]
      exact gets_ret _ (hz _)
    | some b =>
      rw [hb] at hz
      refine gets_plain (s' := s) (l' := { l with chain := if b then l.chain ++ [(s.mux.anchors[j]).mw] else l.chain })
        (r' := .scan n (j + 1) :: r) rfl (by simp only [Act.exec]; rw [if_pos (by omega)]; simp only [hg, hb]) ?_
      refine ih (j := j + 1) (l := { l with chain := if b then l.chain ++ [(s.mux.anchors[j]).mw] else l.chain }) (by omega) ?_ (by omega)
      dsimp only
      cases ha : anchorsAt (s.mux.anchors.drop (j + 1)) l.idx with
      | none => rw [ha] at hz; exact hz
      | some as =>
        rw [ha] at hz
        simp only [Option.map_some] at hz
        cases b <;> simpa using hz

theorem gets_scanLen
    (hz : match anchorsAt s.mux.anchors l.idx with
      | none => ∀ l', Gets (sole s none l' t ((c, .panicked) :: lg)) z
      | some as => Gets (sole s (some (c, r)) { l with chain := l.chain ++ as } t lg) z)
    (hr : unwind r = [.ret .panicked]) : Gets (sole s (some (c, .scanLen :: r)) l t lg) z := by
  refine gets_plain (s' := s) (l' := l) rfl rfl ?_
  exact gets_scan _ 0 rfl (Nat.zero_le _) hz hr

/-- One call. -/
theorem gets_call (hz : ∀ l', Gets (sole (alone s c).1 none l' t ((c, (alone s c).2) :: lg)) z) :
    Gets (sole s (some (c, c.code)) l t lg) z := by
  cases c with
  | addHandler id hs => exact gets_addHandler id hs hz
  | useGlobal ms => exact gets_locked rfl rfl (gets_ret _ (hz _))
  | use k f =>
    simp only [alone, Srv.useOne, Srv.onMux] at hz
    cases ha : s.mux.anchorMap.get? k with
    | none =>
      simp only [ha, MAnchor.callUse, List.length_nil, Nat.lt_irrefl, if_false] at hz
      refine gets_plain rfl (by simp only [Act.exec, ha]; rfl) ?_
      refine gets_plain (a := .index) rfl rfl ?_
      refine gets_plain (a := .callUse) rfl rfl ?_
      refine gets_locked (a := .addAnchor) rfl rfl ?_
      exact gets_ret _ (hz _)
    | some a =>
      simp only [ha] at hz
      refine gets_plain rfl (by simp only [Act.exec, ha]; rfl) ?_
      refine gets_plain (a := .index) rfl rfl ?_
      cases hu : a.callUse s.mux.bump.seed with
      | none =>
        simp only [hu] at hz
        refine gets_plain (a := .callUse) rfl (by simp only [Act.exec, Option.bind_some, hu]; rfl) ?_
        exact gets_ret _ (hz _)
      | some a' =>
        simp only [hu] at hz
        refine gets_plain (a := .callUse) rfl (by simp only [Act.exec, Option.bind_some, hu]; rfl) ?_
        refine gets_plain (a := .usePut k) rfl rfl ?_
        exact gets_ret _ (hz _)
  | unUse k =>
    simp only [alone, Srv.unUseOne, Srv.onMux] at hz
    cases ha : s.mux.anchorMap.get? k with
    | none =>
      simp only [ha] at hz
      refine gets_plain (a := .unLook k) rfl (by simp only [Act.exec, ha]; rfl) ?_
      exact gets_ret _ (hz _)
    | some a =>
      simp only [ha] at hz
      refine gets_plain (a := .unLook k) rfl (by simp only [Act.exec, ha]; rfl) ?_
      refine gets_plain (a := .index) rfl rfl ?_
      cases hu : a.callUnUse s.mux.bump.seed with
      | none =>
        simp only [hu] at hz
        refine gets_plain (a := .callUnUse) rfl (by simp only [Act.exec, Option.bind_some, hu]; rfl) ?_
        exact gets_ret _ (hz _)
      | some a' =>
        simp only [hu] at hz
        refine gets_plain (a := .callUnUse) rfl (by simp only [Act.exec, Option.bind_some, hu]; rfl) ?_
        cases hp : (s.mux.bump.replaceMiddlewareAnchor a').panicked with
        | true =>
          simp only [hp] at hz
          exact gets_locked_panic (a := .replAnchor) rfl (by simp only [Act.exec, hp]; rfl) (hz _)
        | false =>
          simp only [hp] at hz
          refine gets_locked (a := .replAnchor) rfl (by simp only [Act.exec, hp]; rfl) ?_
          exact gets_ret _ (hz _)
  | any p hs =>
    simp only [Call.code, anyCode]
    simp only [alone, Srv.any, Srv.onMux] at hz
    by_cases he : hs = []
    · rw [if_pos he]
      simp only [if_pos he] at hz
      exact gets_ret _ (hz _)
    · rw [if_neg he]
      simp only [if_neg he] at hz
      have tail : ∀ (s : Srv) (l : Loc),
          (∀ l', Gets (sole { s with mux := ((s.mux.any p hs).bump.addURLAnchor p (s.mux.any p hs).bump.seed).st } none l' t
            ((.any p hs, if ((s.mux.any p hs).bump.addURLAnchor p (s.mux.any p hs).bump.seed).panicked then .panicked else .returned) :: lg)) z) →
          Gets (sole s (some (.any p hs, [.urlAllow p hs, .index] ++ locked (.urlAnchor p) ++ [.ret .returned])) l t lg) z := by
        intro s l hz
        have fin : ∀ (s : Srv) (l : Loc),
            (∀ l', Gets (sole { s with mux := (s.mux.bump.addURLAnchor p s.mux.bump.seed).st } none l' t
              ((.any p hs, if (s.mux.bump.addURLAnchor p s.mux.bump.seed).panicked then .panicked else .returned) :: lg)) z) →
            Gets (sole s (some (.any p hs, .index :: (locked (.urlAnchor p) ++ [.ret .returned]))) l t lg) z := by
          intro s l hz
          refine gets_plain (a := .index) rfl rfl ?_
          simp only [Mux.addURLAnchor, Mux.bump] at hz
          cases hi : s.mux.urlAnchors.get? p with
          | some i0 =>
            simp only [hi] at hz
            exact gets_locked_panic (a := .urlAnchor p) rfl (by simp only [Act.exec, Mux.bump, hi]; rfl) (hz _)
          | none =>
            simp only [hi] at hz
            refine gets_locked (a := .urlAnchor p) rfl (by simp only [Act.exec, Mux.bump, hi]; rfl) ?_
            exact gets_ret _ (hz _)
        unfold Mux.any at hz
        cases hal : s.mux.allowAdd with
        | true =>
          rw [if_pos hal] at hz
          refine gets_plain (a := .urlAllow p hs) rfl (by simp only [Act.exec, hal]; rfl) ?_
          refine gets_plain (a := .urlPut p hs) rfl rfl ?_
          exact fin _ _ hz
        | false =>
          rw [if_neg (by rw [hal]; decide)] at hz
          refine gets_plain (a := .urlAllow p hs) rfl (by simp only [Act.exec, hal]; rfl) ?_
          exact fin _ _ hz
      by_cases hn : hs.length > 1
      · rw [if_pos hn]
        simp only [if_pos hn] at hz
        refine gets_plain (a := .urlPut p hs) rfl rfl ?_
        exact tail _ _ hz
      · rw [if_neg hn]
        simp only [if_neg hn] at hz
        exact tail _ _ hz
  | rewriteHeartBeat id f =>
    refine gets_plain (a := .readHb) rfl rfl ?_
    refine gets_plain (a := .delHandler) rfl rfl ?_
    refine gets_plain (a := .delIdAnchor) rfl rfl ?_
    refine gets_plain (a := .setHb id) rfl rfl ?_
    exact gets_addHandler id [f] hz
  | listen =>
    simp only [alone] at hz
    cases hp : s.checkPrepare with
    | true =>
      simp only [hp] at hz
      refine gets_plain (a := .prep) rfl (by simp only [Act.exec, hp]; rfl) ?_
      exact gets_ret _ (hz _)
    | false =>
      simp only [hp] at hz
      refine gets_plain (a := .prep) rfl (by simp only [Act.exec, hp]; rfl) ?_
      exact gets_ret _ (hz _)
  | byId id =>
    simp only [alone, Srv.dispatchId] at hz
    cases hh : s.mux.handlers.get? id with
    | none =>
      simp only [hh] at hz
      refine gets_plain (a := .lookId id) rfl (by simp only [Act.exec, hh]; rfl) ?_
      exact gets_ret _ (hz _)
    | some h =>
      simp only [hh] at hz
      refine gets_plain (a := .lookId id) rfl (by simp only [Act.exec, hh]; rfl) ?_
      by_cases h1 : id = s.hbId ∧ s.hbThrough = false
      · simp only [if_pos h1] at hz
        refine gets_plain (a := .bypass id) rfl (by simp only [Act.exec]; rw [if_pos (.inl h1)]) ?_
        exact gets_ret _ (hz _)
      · by_cases h2 : id = s.authId ∧ s.authThrough = false
        · simp only [if_neg h1, if_pos h2] at hz
          refine gets_plain (a := .bypass id) rfl (by simp only [Act.exec]; rw [if_pos (.inr h2)]) ?_
          exact gets_ret _ (hz _)
        · simp only [if_neg h1, if_neg h2] at hz
          refine gets_plain (a := .bypass id) rfl (by simp only [Act.exec]; rw [if_neg (fun e => e.elim h1 h2)]) ?_
          refine gets_plain (a := .readGlobals) rfl rfl ?_
          cases hi : s.mux.idAnchors.get? id with
          | none =>
            simp only [hi] at hz
            exact gets_rlocked_panic (a := .readIdx id) rfl (by simp only [Act.exec, hi]; rfl) (hz _)
          | some i =>
            simp only [hi] at hz
            refine gets_rlocked (a := .readIdx id) rfl (by simp only [Act.exec, hi]; rfl) ?_
            refine gets_scanLen ?_ rfl
            dsimp only
            cases has : anchorsAt s.mux.anchors i with
            | none => simp only [has] at hz; exact hz
            | some as =>
              simp only [has] at hz
              refine gets_plain (a := .readSelf id) rfl rfl ?_
              refine gets_plain (a := .next) rfl rfl ?_
              refine gets_ret _ ?_
              have := hz
              simpa using this _
  | byUrl p =>
    simp only [alone, Srv.dispatchUrl] at hz
    cases hh : s.mux.urlMux.get? p with
    | none =>
      simp only [hh] at hz
      refine gets_plain (a := .lookUrl p) rfl (by simp only [Act.exec, hh]; rfl) ?_
      exact gets_ret _ (hz _)
    | some h =>
      simp only [hh] at hz
      refine gets_plain (a := .lookUrl p) rfl (by simp only [Act.exec, hh]; rfl) ?_
      refine gets_plain (a := .readGlobals) rfl rfl ?_
      cases hi : s.mux.urlAnchors.get? p with
      | none =>
        simp only [hi] at hz
        exact gets_rlocked_panic (a := .readUrlIdx p) rfl (by simp only [Act.exec, hi]; rfl) (hz _)
      | some i =>
        simp only [hi] at hz
        refine gets_rlocked (a := .readUrlIdx p) rfl (by simp only [Act.exec, hi]; rfl) ?_
        refine gets_scanLen ?_ rfl
        dsimp only
        cases has : anchorsAt s.mux.anchors i with
        | none => simp only [has] at hz; exact hz
        | some as =>
          simp only [has] at hz
          refine gets_plain (a := .next) rfl rfl ?_
          refine gets_ret _ ?_
          have := hz
          simpa using this _

/-- Calls one after another. -/
theorem gets_calls (cs : List Call) (s : Srv) (l : Loc) (lg : List (Call × Outcome))
    (hz : ∀ l', z (sole (inTurn s cs).1 none l' [] ((inTurn s cs).2 ++ lg))) : Gets (sole s none l cs lg) z := by
  induction cs generalizing s l lg with
  | nil => exact Gets.refl (hz l)
  | cons c cs ih =>
    refine Gets.step (gets_call (s := s) (c := c) (l := {}) (t := cs) (lg := lg) fun l'' => ih _ _ _ fun l' => ?_)
    simpa [inTurn] using hz l'

end
end Register
end Tcpx
