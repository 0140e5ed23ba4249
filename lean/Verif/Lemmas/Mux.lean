import Verif.Spec.Routing
/-! # Lemmas about registration histories -/
namespace Tcpx
open Spec

/-! ## API calls as histories of elementary events -/

theorem Out.andThen_ret {σ : Type} (s : σ) (f : σ → Out σ) : (Out.ret s).andThen f = f s := rfl

/-- The server after the events `es` (oldest first) from `s`. -/
def runEvents (s : Srv) (es : List RegEv) : Srv := es.foldl (fun s e => (e.step s).st) s

theorem useLoop_events (n : Nat) : ∀ (args : List Srv.UseArg) (s : Srv), args.length ≤ n →
    ∃ es, (s.useLoop args).st = runEvents s es := by
  induction n with
  | zero =>
    intro args s h
    cases args with
    | nil => exact ⟨[], rfl⟩
    | cons _ _ => simp at h
  | succ n ih =>
    intro args s h
    match args, h with
    | [], _ => exact ⟨[], rfl⟩
    | [.key _], _ => exact ⟨[], rfl⟩
    | .key k :: .fn f :: rest, h =>
      simp only [Srv.useLoop, Out.andThen]
      split
      · exact ⟨[.use k f], rfl⟩
      · obtain ⟨es, he⟩ := ih rest (s.useOne k f).st (by simp at h; omega)
        exact ⟨.use k f :: es, by rw [he]; rfl⟩
    | .key _ :: .key _ :: _, _ => exact ⟨[], rfl⟩
    | .key _ :: .other :: _, _ => exact ⟨[], rfl⟩
    | .fn _ :: _, _ => exact ⟨[], rfl⟩
    | .other :: _, _ => exact ⟨[], rfl⟩

theorem unUse_events (ks : List String) : ∀ (s : Srv), ∃ es, (s.unUse ks).st = runEvents s es := by
  induction ks with
  | nil => intro s; exact ⟨[], rfl⟩
  | cons k ks ih =>
    intro s
    simp only [Srv.unUse, Out.andThen]
    split
    · exact ⟨[.unUse k], rfl⟩
    · obtain ⟨es, he⟩ := ih (s.unUseOne k).st
      exact ⟨.unUse k :: es, by rw [he]; rfl⟩

theorem op_events (s : Srv) (op : RegOp) : ∃ es, (op.run s).st = runEvents s es := by
  cases op with
  | useGlobal ms => exact ⟨[.useGlobal ms], rfl⟩
  | use args =>
    simp only [RegOp.run, Srv.use]
    split
    · exact ⟨[], rfl⟩
    · exact useLoop_events _ args s (Nat.le_refl _)
  | unUse ks => exact unUse_events ks s
  | addHandler id hs => exact ⟨[.addHandler id hs], rfl⟩
  | any p hs => exact ⟨[.any p hs], rfl⟩
  | setAllowAdd b => exact ⟨[.setAllowAdd b], rfl⟩
  | setOnMessage o => exact ⟨[.setOnMessage o], rfl⟩
  | heartBeatMode on hb =>
    cases on with
    | false => exact ⟨[.setHeartBeat false false defaultHeartbeatMessageID], rfl⟩
    | true => exact ⟨[.setHeartBeat true false defaultHeartbeatMessageID, .addHandler defaultHeartbeatMessageID [hb]], rfl⟩
  | heartBeatModeDetail on th id hb =>
    cases on with
    | false => exact ⟨[.setHeartBeat false th id], rfl⟩
    | true => exact ⟨[.setHeartBeat true th id, .addHandler id [hb]], rfl⟩
  | rewriteHeartBeatHandler id f => exact ⟨[.removeHandler s.hbId, .setHbId id, .addHandler id [f]], rfl⟩
  | withAuthDetail yes th id f =>
    cases yes with
    | false => exact ⟨[.setAuth false th id], rfl⟩
    | true => exact ⟨[.setAuth true th id, .addHandler id [f]], rfl⟩

theorem runEvents_append (s : Srv) (a b : List RegEv) : runEvents s (a ++ b) = runEvents (runEvents s a) b := by
  simp [runEvents]

theorem runHist_reverse (es : List RegEv) : runHist es.reverse = runEvents Srv.new es := by
  have key : ∀ (es : List RegEv) (h : List RegEv), runHist (es.reverse ++ h) = runEvents (runHist h) es := by
    intro es
    induction es with
    | nil => intro h; rfl
    | cons e es ih =>
      intro h
      rw [List.reverse_cons, List.append_assoc, ih]
      rfl
  have := key es []
  rw [List.append_nil] at this
  exact this

/-- Every sequence of API calls (panics recovered) is a history of elementary events. -/
theorem runOps_history (ops : List RegOp) : ∃ h : List RegEv, runOps Srv.new ops = runHist h := by
  have key : ∀ (ops : List RegOp) (s : Srv), ∃ es, runOps s ops = runEvents s es := by
    intro ops
    induction ops with
    | nil => intro s; exact ⟨[], rfl⟩
    | cons op ops ih =>
      intro s
      obtain ⟨e1, h1⟩ := op_events s op
      obtain ⟨e2, h2⟩ := ih (op.run s).st
      exact ⟨e1 ++ e2, by rw [runEvents_append, ← h1, ← h2]; rfl⟩
  obtain ⟨es, he⟩ := key ops Srv.new
  exact ⟨es.reverse, by rw [he, runHist_reverse]⟩

/-! ## Effect of single events on the parts of the mux -/

/-- The two ways AddHandler can go, on the parts of the mux it can touch. -/
theorem addHandler_frame (s : Srv) (id : Int32) (hs : List H) :
    let m := s.mux; let m' := (s.addHandler id hs).st.mux
    m'.anchors = m.anchors ∧ m'.anchorMap = m.anchorMap ∧ m'.globals = m.globals ∧ m'.urlMux = m.urlMux ∧
    m'.urlAnchors = m.urlAnchors ∧ m'.allowAdd = m.allowAdd ∧ m.seed ≤ m'.seed := by
  simp only [Srv.addHandler, Srv.onMux, Out.andThen, Mux.addSelfMw, Mux.addHandleFunc, Mux.addMessageIDAnchor, Mux.bump,
    Out.ret, Out.panic]
  repeat' split
  all_goals simp_all
  all_goals (repeat' split) <;> simp_all

theorem any_frame (s : Srv) (p : String) (hs : List H) :
    let m := s.mux; let m' := (s.any p hs).st.mux
    m'.anchors = m.anchors ∧ m'.anchorMap = m.anchorMap ∧ m'.globals = m.globals ∧ m'.handlers = m.handlers ∧
    m'.idAnchors = m.idAnchors ∧ m'.selfMw = m.selfMw ∧ m'.allowAdd = m.allowAdd ∧ m.seed ≤ m'.seed := by
  simp only [Srv.any, Srv.onMux, Mux.any, Mux.addURLPatternHandler, Mux.addURLAnchor, Mux.bump, Out.ret, Out.panic]
  repeat' split
  all_goals simp_all
  all_goals (repeat' split) <;> simp_all

theorem useOne_frame (s : Srv) (k : String) (f : H) :
    let m := s.mux; let m' := (s.useOne k f).st.mux
    m'.globals = m.globals ∧ m'.handlers = m.handlers ∧ m'.idAnchors = m.idAnchors ∧ m'.selfMw = m.selfMw ∧
    m'.urlMux = m.urlMux ∧ m'.urlAnchors = m.urlAnchors ∧ m'.allowAdd = m.allowAdd ∧ m'.seed = m.seed + 1 := by
  simp only [Srv.useOne, Srv.onMux, Mux.addMiddlewareAnchor, Mux.bump, Out.ret, Out.panic]
  repeat' split
  all_goals simp_all
  all_goals (repeat' split) <;> simp_all

theorem unUseOne_frame (s : Srv) (k : String) :
    let m := s.mux; let m' := (s.unUseOne k).st.mux
    m'.globals = m.globals ∧ m'.handlers = m.handlers ∧ m'.idAnchors = m.idAnchors ∧ m'.selfMw = m.selfMw ∧
    m'.urlMux = m.urlMux ∧ m'.urlAnchors = m.urlAnchors ∧ m'.allowAdd = m.allowAdd ∧ m.seed ≤ m'.seed := by
  simp only [Srv.unUseOne, Srv.onMux, Mux.replaceMiddlewareAnchor, Mux.bump, Out.ret, Out.panic]
  repeat' split
  all_goals simp_all
  all_goals (repeat' split) <;> simp_all

/-- Which events leave the anchor structures alone. -/
def RegEv.touchesAnchors : RegEv → Bool
  | .use _ _ => true
  | .unUse _ => true
  | _ => false

theorem step_anchors (s : Srv) (e : RegEv) (h : e.touchesAnchors = false) :
    (e.step s).st.mux.anchors = s.mux.anchors ∧ (e.step s).st.mux.anchorMap = s.mux.anchorMap := by
  cases e with
  | use k f => simp [RegEv.touchesAnchors] at h
  | unUse k => simp [RegEv.touchesAnchors] at h
  | addHandler id hs => have := addHandler_frame s id hs; exact ⟨this.1, this.2.1⟩
  | any p hs => have := any_frame s p hs; exact ⟨this.1, this.2.1⟩
  | _ => exact ⟨rfl, rfl⟩

theorem step_seed (s : Srv) (e : RegEv) : s.mux.seed ≤ (e.step s).st.mux.seed := by
  cases e with
  | use k f => have := useOne_frame s k f; simp only [RegEv.step]; omega
  | unUse k => exact (unUseOne_frame s k).2.2.2.2.2.2.2
  | addHandler id hs => exact (addHandler_frame s id hs).2.2.2.2.2.2
  | any p hs => exact (any_frame s p hs).2.2.2.2.2.2.2
  | _ => exact Nat.le_refl _

theorem globals_eq (h : List RegEv) : (runHist h).mux.globals = Spec.globals h := by
  induction h with
  | nil => rfl
  | cons e h ih =>
    cases e with
    | use k f => rw [show Spec.globals (.use k f :: h) = Spec.globals h from rfl, ← ih]; exact (useOne_frame _ k f).1
    | unUse k => rw [show Spec.globals (.unUse k :: h) = Spec.globals h from rfl, ← ih]; exact (unUseOne_frame _ k).1
    | addHandler id hs =>
      rw [show Spec.globals (.addHandler id hs :: h) = Spec.globals h from rfl, ← ih]; exact (addHandler_frame _ id hs).2.2.1
    | any p hs => rw [show Spec.globals (.any p hs :: h) = Spec.globals h from rfl, ← ih]; exact (any_frame _ p hs).2.2.1
    | useGlobal ms => rw [show Spec.globals (.useGlobal ms :: h) = Spec.globals h ++ ms from rfl, ← ih]; rfl
    | setAllowAdd b => exact ih
    | setOnMessage o => exact ih
    | setHeartBeat on th id => exact ih
    | setHbId id => exact ih
    | setAuth on th id => exact ih
    | removeHandler id => exact ih

/-! ## The anchor structures as functions of the history -/

/-- The index counter after a history. -/
def seedOf (h : List RegEv) : Nat := (runHist h).mux.seed

theorem seedOf_cons (e : RegEv) (h : List RegEv) : seedOf h ≤ seedOf (e :: h) := step_seed _ _

theorem seedOf_append (post h : List RegEv) : seedOf h ≤ seedOf (post ++ h) := by
  induction post with
  | nil => exact Nat.le_refl _
  | cons e post ih => exact Nat.le_trans ih (seedOf_cons _ _)

/-- Start indices recorded for a key. -/
def startsOf (k : String) : List RegEv → List Nat
  | [] => []
  | .use k' _ :: h => if k' = k ∧ inUse k h = false then startsOf k h ++ [seedOf h + 1] else startsOf k h
  | _ :: h => startsOf k h

/-- End indices recorded for a key. -/
def endsOf (k : String) : List RegEv → List Nat
  | [] => []
  | .unUse k' :: h => if k' = k ∧ inUse k h = true then endsOf k h ++ [seedOf h + 1] else endsOf k h
  | _ :: h => endsOf k h

/-- The key is in use again after an earlier period of use was ended. -/
def reopened (k : String) (h : List RegEv) : Bool := inUse k h && everEnded k h

theorem lens (k : String) (h : List RegEv) :
    (startsOf k h).length = (endsOf k h).length + (if inUse k h then 1 else 0) := by
  induction h with
  | nil => rfl
  | cons e h ih =>
    cases e with
    | use k' f =>
      simp only [startsOf, endsOf, inUse]
      by_cases hk : k' = k
      · subst hk
        rcases Bool.eq_false_or_eq_true (inUse k' h) with hu | hu <;> simp [hu] at ih ⊢ <;> omega
      · simp [hk]; exact ih
    | unUse k' =>
      simp only [startsOf, endsOf, inUse]
      by_cases hk : k' = k
      · subst hk
        rcases Bool.eq_false_or_eq_true (inUse k' h) with hu | hu <;> simp [hu] at ih ⊢ <;> omega
      · simp [hk]; exact ih
    | _ => exact ih

theorem ever_ends (k : String) (h : List RegEv) : everEnded k h = true ↔ endsOf k h ≠ [] := by
  induction h with
  | nil => simp [everEnded, endsOf]
  | cons e h ih =>
    cases e with
    | unUse k' =>
      simp only [everEnded, endsOf]
      by_cases hk : k' = k
      · subst hk
        rcases Bool.eq_false_or_eq_true (inUse k' h) with hu | hu <;> simp [hu, ih]
      · simp [hk, ih]
    | _ => exact ih

/-- What `MiddlewareAnchorMap` holds. -/
def mapAnchor (h : List RegEv) (e : String × H) : MAnchor := ⟨e.1, e.2, startsOf e.1 h, endsOf e.1 h⟩
/-- What `MiddlewareAnchors` holds: after a re-`Use` it is one start behind. -/
def sliceAnchor (h : List RegEv) (e : String × H) : MAnchor :=
  ⟨e.1, e.2, if reopened e.1 h then (startsOf e.1 h).dropLast else startsOf e.1 h, endsOf e.1 h⟩

theorem use_nil (k : String) (h : List RegEv) (hn : k ∉ (firstUses h).map (·.1)) :
    inUse k h = false ∧ startsOf k h = [] ∧ endsOf k h = [] ∧ everEnded k h = false := by
  induction h with
  | nil => exact ⟨rfl, rfl, rfl, rfl⟩
  | cons e h ih =>
    cases e with
    | use k' f =>
      simp only [firstUses] at hn
      have hk : k' ≠ k := by
        intro hk; subst hk
        split at hn
        · contradiction
        · simp at hn
      have hn' : k ∉ (firstUses h).map (·.1) := by
        split at hn
        · exact hn
        · intro hm; exact hn (by rw [List.map_append]; exact List.mem_append_left _ hm)
      obtain ⟨a, b, c, d⟩ := ih hn'
      simp [inUse, startsOf, endsOf, everEnded, hk, a, b, c, d]
    | unUse k' =>
      obtain ⟨a, b, c, d⟩ := ih hn
      simp [inUse, startsOf, endsOf, everEnded, a, b, c, d]
    | _ => exact ih hn

theorem firstUses_nodup (h : List RegEv) : ((firstUses h).map (·.1)).Nodup := by
  induction h with
  | nil => simp [firstUses]
  | cons e h ih =>
    cases e with
    | use k f =>
      simp only [firstUses]
      split
      · exact ih
      · rename_i hn
        rw [List.map_append, List.nodup_append]
        refine ⟨ih, by simp, ?_⟩
        intro a ha b hb
        simp at hb; subst hb
        intro hab; subst hab; exact hn ha
    | _ => exact ih

theorem get?_append_none {κ ν : Type} [DecidableEq κ] (m : GoMap κ ν) (k : κ) (v : ν) (k' : κ)
    (h : k ∉ m.map (·.1)) :
    GoMap.get? (m ++ [(k, v)]) k' = if k' = k then some v else m.get? k' := by
  induction m with
  | nil => simp [GoMap.get?]; split <;> simp_all [eq_comm]
  | cons e m ih =>
    obtain ⟨a, w⟩ := e
    simp only [List.map_cons, List.mem_cons, not_or] at h
    simp only [List.cons_append, GoMap.get?, ih h.2]
    by_cases ha : a = k'
    · subst ha; simp [Ne.symm h.1]
    · simp [ha]

theorem get?_of_mem_nodup {κ ν : Type} [DecidableEq κ] {m : GoMap κ ν} {x : κ × ν} (hx : x ∈ m)
    (hd : (m.map (·.1)).Nodup) : m.get? x.1 = some x.2 := by
  induction m with
  | nil => simp at hx
  | cons e m ih =>
    obtain ⟨a, v⟩ := e
    rw [List.map_cons, List.nodup_cons] at hd
    rcases List.mem_cons.1 hx with rfl | hx
    · simp [GoMap.get?]
    · have : a ≠ x.1 := by
        intro ha; apply hd.1; rw [show (a, v).1 = x.1 from ha]; exact List.mem_map_of_mem hx
      simp only [GoMap.get?, if_neg this]
      exact ih hx hd.2

theorem get?_none_iff {κ ν : Type} [DecidableEq κ] (m : GoMap κ ν) (k : κ) : m.get? k = none ↔ k ∉ m.map (·.1) := by
  have := GoMap.get?_isSome_iff_mem m k
  rw [← Option.not_isSome_iff_eq_none, this]; rfl

theorem replaceFirst_map (l : List (String × H)) (f : String × H → MAnchor) (hf : ∀ e, (f e).key = e.1) (a : MAnchor)
    (hd : (l.map (·.1)).Nodup) :
    Mux.replaceFirst a (l.map f) = l.map (fun e => if e.1 = a.key then a else f e) := by
  induction l with
  | nil => rfl
  | cons e l ih =>
    simp only [List.map_cons, Mux.replaceFirst, hf]
    rw [List.map_cons, List.nodup_cons] at hd
    split
    · rename_i he
      congr 1
      apply List.map_congr_left
      intro x hx
      have : x.1 ≠ a.key := by
        intro hxa; apply hd.1; rw [he, ← hxa]; exact List.mem_map_of_mem hx
      simp [this]
    · rw [ih hd.2]

theorem sliceAnchor_congr (e : RegEv) (h : List RegEv) (he : e.touchesAnchors = false) :
    sliceAnchor (e :: h) = sliceAnchor h ∧ mapAnchor (e :: h) = mapAnchor h ∧ firstUses (e :: h) = firstUses h := by
  cases e <;> first | (simp [RegEv.touchesAnchors] at he; done) | exact ⟨rfl, rfl, rfl⟩

theorem starts_ne_nil (k : String) (h : List RegEv) (hm : k ∈ (firstUses h).map (·.1)) : startsOf k h ≠ [] := by
  induction h with
  | nil => simp [firstUses] at hm
  | cons e h ih =>
    cases e with
    | use k' f =>
      simp only [firstUses] at hm
      simp only [startsOf]
      by_cases hk : k ∈ (firstUses h).map (·.1)
      · split
        · simp
        · exact ih hk
      · have := use_nil k h hk
        have hkk : k' = k := by
          split at hm
          · exact absurd hm hk
          · rw [List.map_append] at hm
            rcases List.mem_append.1 hm with hm | hm
            · exact absurd hm hk
            · simp at hm; exact hm.symm
        simp [hkk, this.1]
    | _ => exact ih hm

/-- Only the anchor of key `k` is affected by events about `k`. -/
theorem anchor_other (k : String) (e : RegEv) (he : (∃ f, e = .use k f) ∨ e = .unUse k) (h : List RegEv) (x : String × H)
    (hx : x.1 ≠ k) : sliceAnchor (e :: h) x = sliceAnchor h x ∧ mapAnchor (e :: h) x = mapAnchor h x := by
  rcases he with ⟨f, rfl⟩ | rfl <;>
    simp [sliceAnchor, mapAnchor, reopened, startsOf, endsOf, inUse, everEnded, Ne.symm hx]

theorem use_anchors (s : Srv) (k : String) (f : H) :
    let m := s.mux; let m' := (s.useOne k f).st.mux
    (match m.anchorMap.get? k with
     | some a => m'.anchors = m.anchors ∧
        m'.anchorMap = (if a.ends.length < a.starts.length then m.anchorMap else m.anchorMap.set k { a with starts := a.starts ++ [m.seed + 1] })
     | none => m'.anchors = m.anchors ++ [⟨k, f, [m.seed + 1], []⟩] ∧
        m'.anchorMap = m.anchorMap.set k ⟨k, f, [m.seed + 1], []⟩) := by
  simp only [Srv.useOne, Srv.onMux, Mux.addMiddlewareAnchor, Mux.bump, Out.ret, Out.panic, MAnchor.callUse]
  cases hm : s.mux.anchorMap.get? k with
  | none => simp [hm]
  | some a =>
    by_cases hl : a.ends.length < a.starts.length
    · simp [hl]
    · simp [hl]

theorem unUse_anchors (s : Srv) (k : String) :
    let m := s.mux; let m' := (s.unUseOne k).st.mux
    (match m.anchorMap.get? k with
     | none => m' = m
     | some a => if a.ends.length ≥ a.starts.length then m' = m.bump else
        (match m.anchorMap.get? a.key with
         | none => m' = m.bump
         | some _ => m' = { m.bump with
          anchorMap := m.anchorMap.set a.key { a with ends := a.ends ++ [m.seed + 1] },
          anchors := Mux.replaceFirst { a with ends := a.ends ++ [m.seed + 1] } m.anchors })) := by
  simp only [Srv.unUseOne, Srv.onMux, Mux.replaceMiddlewareAnchor, Mux.bump, Out.ret, Out.panic, MAnchor.callUnUse]
  cases hm : s.mux.anchorMap.get? k with
  | none => simp
  | some a =>
    by_cases hl : a.ends.length ≥ a.starts.length
    · simp [hl]
    · cases ha : s.mux.anchorMap.get? a.key <;> simp [hl, ha]

/-- `MiddlewareAnchorMap` and `MiddlewareAnchors` after any history. -/
theorem anchors_eq (h : List RegEv) :
    (∀ k, (runHist h).mux.anchorMap.get? k = (GoMap.get? (firstUses h) k).map (fun f => mapAnchor h (k, f))) ∧
    (runHist h).mux.anchors = (firstUses h).map (sliceAnchor h) := by
  induction h with
  | nil => exact ⟨fun _ => rfl, rfl⟩
  | cons e h ih =>
    obtain ⟨ih1, ih2⟩ := ih
    by_cases ht : e.touchesAnchors = false
    · obtain ⟨c1, c2, c3⟩ := sliceAnchor_congr e h ht
      obtain ⟨s1, s2⟩ := step_anchors (runHist h) e ht
      rw [c1, c2, c3]
      exact ⟨fun k => by rw [← ih1 k]; exact congrArg (fun m => GoMap.get? m k) s2, by rw [← ih2]; exact s1⟩
    · cases e with
      | use k f =>
        have hu := use_anchors (runHist h) k f
        have hl := lens k h
        simp only at hu
        show (∀ k', ((runHist h).useOne k f).st.mux.anchorMap.get? k' = _) ∧ ((runHist h).useOne k f).st.mux.anchors = _
        rw [ih1 k] at hu
        have oth : ∀ x : String × H, x.1 ≠ k → sliceAnchor (.use k f :: h) x = sliceAnchor h x ∧
            mapAnchor (.use k f :: h) x = mapAnchor h x := fun x hx => anchor_other k _ (.inl ⟨f, rfl⟩) h x hx
        cases hg : GoMap.get? (firstUses h) k with
        | none =>
          have hn := (get?_none_iff _ _).1 hg
          obtain ⟨n1, n2, n3, n4⟩ := use_nil k h hn
          rw [hg] at hu
          simp only [Option.map_none] at hu
          have hfu : firstUses (.use k f :: h) = firstUses h ++ [(k, f)] := by simp only [firstUses, if_neg hn]
          have hself : mapAnchor (.use k f :: h) (k, f) = ⟨k, f, [seedOf h + 1], []⟩ := by
            simp [mapAnchor, startsOf, endsOf, n1, n2, n3]
          have hself' : sliceAnchor (.use k f :: h) (k, f) = ⟨k, f, [seedOf h + 1], []⟩ := by
            simp [sliceAnchor, reopened, everEnded, startsOf, endsOf, n1, n2, n3, n4]
          refine ⟨?_, ?_⟩
          · intro k'
            rw [hu.2, GoMap.get?_set, hfu, get?_append_none _ _ _ _ hn]
            by_cases hk : k' = k
            · subst hk; simp only [if_pos, Option.map_some, hself]; rfl
            · simp only [if_neg hk]
              rw [ih1 k']
              congr 1; funext f'; exact ((oth (k', f') hk).2).symm
          · rw [hu.1, hfu, List.map_append, ih2, List.map_singleton, hself']
            congr 1
            apply List.map_congr_left
            intro x hx
            have : x.1 ≠ k := fun hxk => hn (hxk ▸ List.mem_map_of_mem hx)
            exact ((oth x this).1).symm
        | some f0 =>
          have hmem : k ∈ (firstUses h).map (·.1) := by
            have := (GoMap.get?_isSome_iff_mem (firstUses h) k).1 (by rw [hg]; rfl)
            exact this
          have hne := starts_ne_nil k h hmem
          rw [hg] at hu
          simp only [Option.map_some] at hu
          have hfu : firstUses (.use k f :: h) = firstUses h := by simp only [firstUses, if_pos hmem]
          rcases Bool.eq_false_or_eq_true (inUse k h) with hi | hi
          · -- in use: panics
            have hlt : (mapAnchor h (k, f0)).ends.length < (mapAnchor h (k, f0)).starts.length := by
              simp [mapAnchor, hi] at hl ⊢; omega
            rw [if_pos hlt] at hu
            have hm' : ∀ x, mapAnchor (.use k f :: h) x = mapAnchor h x := by
              intro x; simp [mapAnchor, startsOf, endsOf]
              intro hx; subst hx; simp [hi]
            have hs' : ∀ x, sliceAnchor (.use k f :: h) x = sliceAnchor h x := by
              intro x
              by_cases hx : x.1 = k
              · subst hx; simp [sliceAnchor, reopened, inUse, everEnded, startsOf, endsOf, hi]
              · exact (oth x hx).1
            rw [hfu]
            exact ⟨fun k' => by rw [hu.2, ih1 k']; congr 1; funext f'; exact (hm' _).symm,
              by rw [hu.1, ih2]; exact List.map_congr_left (fun x _ => (hs' x).symm)⟩
          · have hge : ¬ (mapAnchor h (k, f0)).ends.length < (mapAnchor h (k, f0)).starts.length := by
              simp [mapAnchor, hi] at hl ⊢; omega
            rw [if_neg hge] at hu
            have hever : everEnded k h = true := by
              rw [ever_ends]; intro he; apply hne
              rw [he, hi] at hl; exact List.eq_nil_of_length_eq_zero (by simpa using hl)
            rw [hfu]
            refine ⟨?_, ?_⟩
            · intro k'
              rw [hu.2, GoMap.get?_set]
              by_cases hk : k' = k
              · subst hk
                rw [if_pos rfl, hg]
                simp [mapAnchor, startsOf, endsOf, hi, seedOf]
              · rw [if_neg hk, ih1 k']; congr 1; funext f'; exact ((oth (k', f') hk).2).symm
            · rw [hu.1, ih2]
              apply List.map_congr_left
              intro x _
              by_cases hx : x.1 = k
              · subst hx
                simp [sliceAnchor, reopened, inUse, everEnded, startsOf, endsOf, hi, hever]
              · exact ((oth x hx).1).symm
      | unUse k =>
        have hu := unUse_anchors (runHist h) k
        have hl := lens k h
        simp only at hu
        show (∀ k', ((runHist h).unUseOne k).st.mux.anchorMap.get? k' = _) ∧ ((runHist h).unUseOne k).st.mux.anchors = _
        have hfu : firstUses (.unUse k :: h) = firstUses h := rfl
        have oth : ∀ x : String × H, x.1 ≠ k → sliceAnchor (.unUse k :: h) x = sliceAnchor h x ∧
            mapAnchor (.unUse k :: h) x = mapAnchor h x := fun x hx => anchor_other k _ (.inr rfl) h x hx
        have same : inUse k h = false → (∀ x, sliceAnchor (.unUse k :: h) x = sliceAnchor h x) ∧
            ∀ x, mapAnchor (.unUse k :: h) x = mapAnchor h x := by
          intro hi
          constructor
          · intro x
            by_cases hx : x.1 = k
            · subst hx; simp [sliceAnchor, reopened, inUse, everEnded, startsOf, endsOf, hi]
            · exact (oth x hx).1
          · intro x
            by_cases hx : x.1 = k
            · subst hx; simp [mapAnchor, startsOf, endsOf, hi]
            · exact (oth x hx).2
        have keep : inUse k h = false → ((runHist h).unUseOne k).st.mux.anchorMap = (runHist h).mux.anchorMap →
            ((runHist h).unUseOne k).st.mux.anchors = (runHist h).mux.anchors →
            (∀ k', ((runHist h).unUseOne k).st.mux.anchorMap.get? k' =
              (GoMap.get? (firstUses (.unUse k :: h)) k').map (fun f => mapAnchor (.unUse k :: h) (k', f))) ∧
            ((runHist h).unUseOne k).st.mux.anchors = (firstUses (.unUse k :: h)).map (sliceAnchor (.unUse k :: h)) := by
          intro hi e1 e2
          obtain ⟨hs, hm⟩ := same hi
          exact ⟨fun k' => by rw [e1, ih1 k', hfu]; congr 1; funext f'; exact (hm _).symm,
            by rw [e2, ih2, hfu]; exact List.map_congr_left (fun x _ => (hs x).symm)⟩
        rw [ih1 k] at hu
        cases hg : GoMap.get? (firstUses h) k with
        | none =>
          have hn := (get?_none_iff _ _).1 hg
          rw [hg] at hu
          simp only [Option.map_none] at hu
          exact keep (use_nil k h hn).1 (by rw [hu]) (by rw [hu])
        | some f0 =>
          rw [hg] at hu
          simp only [Option.map_some] at hu
          rcases Bool.eq_false_or_eq_true (inUse k h) with hi | hi
          · have hlt : ¬ (mapAnchor h (k, f0)).ends.length ≥ (mapAnchor h (k, f0)).starts.length := by
              simp [mapAnchor, hi] at hl ⊢; omega
            rw [if_neg hlt, show (mapAnchor h (k, f0)).key = k from rfl, ih1 k, hg] at hu
            simp only [Option.map_some] at hu
            rw [hu, hfu]
            refine ⟨?_, ?_⟩
            · intro k'
              show GoMap.get? (GoMap.set _ _ _) _ = _
              rw [GoMap.get?_set]
              by_cases hk : k' = k
              · subst hk
                rw [if_pos rfl, hg]
                simp [mapAnchor, startsOf, endsOf, hi, seedOf]
              · rw [if_neg hk, ih1 k']; congr 1; funext f'; exact ((oth (k', f') hk).2).symm
            · show Mux.replaceFirst _ (runHist h).mux.anchors = _
              rw [ih2, replaceFirst_map _ _ (fun _ => rfl) _ (firstUses_nodup h)]
              apply List.map_congr_left
              intro x hxm
              by_cases hx : x.1 = k
              · subst hx
                have hx2 : x.2 = f0 := by
                  have : GoMap.get? (firstUses h) x.1 = some x.2 := get?_of_mem_nodup hxm (firstUses_nodup h)
                  rw [this] at hg; exact Option.some.inj hg
                simp [sliceAnchor, mapAnchor, reopened, inUse, startsOf, endsOf, hi, hx2, seedOf]
              · simp only [if_neg hx]
                exact ((oth x hx).1).symm
          · have hge : (mapAnchor h (k, f0)).ends.length ≥ (mapAnchor h (k, f0)).starts.length := by
              simp [mapAnchor, hi] at hl ⊢; omega
            rw [if_pos hge] at hu
            exact keep hi (by rw [hu]; rfl) (by rw [hu]; rfl)
      | _ => exact absurd rfl ht

theorem inUse_mem {k : String} {h : List RegEv} (hi : inUse k h = true) : k ∈ (firstUses h).map (·.1) := by
  refine Decidable.byContradiction fun hn => ?_
  rw [(use_nil k h hn).1] at hi; exact Bool.noConfusion hi

theorem seedOf_use (k : String) (f : H) (h : List RegEv) : seedOf (.use k f :: h) = seedOf h + 1 :=
  (useOne_frame (runHist h) k f).2.2.2.2.2.2.2

theorem seedOf_unUse (k : String) (h : List RegEv) (hi : inUse k h = true) : seedOf (.unUse k :: h) = seedOf h + 1 := by
  have hu := unUse_anchors (runHist h) k
  have hm := inUse_mem hi
  simp only at hu
  rw [(anchors_eq h).1 k] at hu
  cases hg : GoMap.get? (firstUses h) k with
  | none => exact absurd hm ((get?_none_iff _ _).1 hg)
  | some f =>
    rw [hg] at hu
    simp only [Option.map_some] at hu
    rw [show (mapAnchor h (k, f)).key = k from rfl, (anchors_eq h).1 k, hg] at hu
    simp only [Option.map_some] at hu
    show ((runHist h).unUseOne k).st.mux.seed = _
    split at hu
    · rw [hu]; rfl
    · rw [hu]; rfl

theorem bounds (k : String) (h : List RegEv) :
    (∀ x ∈ startsOf k h, x ≤ seedOf h) ∧ (∀ x ∈ endsOf k h, x ≤ seedOf h) := by
  induction h with
  | nil => simp [startsOf, endsOf]
  | cons e h ih =>
    have hm := seedOf_cons e h
    have ih1 : ∀ x ∈ startsOf k h, x ≤ seedOf (e :: h) := fun x hx => Nat.le_trans (ih.1 x hx) hm
    have ih2 : ∀ x ∈ endsOf k h, x ≤ seedOf (e :: h) := fun x hx => Nat.le_trans (ih.2 x hx) hm
    cases e with
    | use k' f =>
      refine ⟨?_, ih2⟩
      simp only [startsOf]
      split
      · intro x hx
        rcases List.mem_append.1 hx with hx | hx
        · exact ih1 x hx
        · simp only [List.mem_singleton] at hx
          subst hx
          have := (useOne_frame (runHist h) k' f).2.2.2.2.2.2.2
          exact Nat.le_of_eq this.symm
      · exact ih1
    | unUse k' => 
      refine ⟨ih1, ?_⟩
      simp only [endsOf]
      split
      · intro x hx
        rcases List.mem_append.1 hx with hx | hx
        · exact ih2 x hx
        · simp only [List.mem_singleton] at hx
          subst hx
          rename_i hc
          rw [seedOf_unUse k' h (hc.1 ▸ hc.2)]; exact Nat.le_refl _
      · exact ih2
    | _ => exact ⟨ih1, ih2⟩


/-! ## Which handler indices an anchor covers -/

theorem scan_none_covered (ss es : List Nat) (i : Nat) (hl : es.length ≤ ss.length) (he : ∀ x ∈ es, x < i) :
    MAnchor.scan ss es i = some false := by
  induction es generalizing ss with
  | nil => cases ss <;> rfl
  | cons e es ih =>
    cases ss with
    | nil => simp at hl
    | cons s ss =>
      have : ¬ (s ≤ i ∧ e ≥ i) := by have := he e (by simp); omega
      simp only [MAnchor.scan, if_neg this]
      exact ih ss (by simpa using hl) (fun x hx => he x (List.mem_cons_of_mem _ hx))

theorem scan_append_starts (ss es xs : List Nat) (i : Nat) (hl : es.length ≤ ss.length) :
    MAnchor.scan (ss ++ xs) es i = MAnchor.scan ss es i := by
  induction es generalizing ss with
  | nil => cases ss <;> cases xs <;> rfl
  | cons e es ih =>
    cases ss with
    | nil => simp at hl
    | cons s ss =>
      simp only [List.cons_append, MAnchor.scan]
      rw [ih ss (by simpa using hl)]

theorem scan_snoc (ss es : List Nat) (l y i : Nat) (hl : es.length = ss.length) (hy : i ≤ y) :
    MAnchor.scan (ss ++ [l]) (es ++ [y]) i = if l ≤ i then some true else MAnchor.scan ss es i := by
  induction es generalizing ss with
  | nil =>
    cases ss with
    | nil => simp [MAnchor.scan, hy]
    | cons _ _ => simp at hl
  | cons e es ih =>
    cases ss with
    | nil => simp at hl
    | cons s ss =>
      simp only [List.cons_append, MAnchor.scan]
      rw [ih ss (by simpa using hl)]
      split <;> split <;> rfl

/-- `Contains` on ranges. -/
def containsR (ss es : List Nat) (i : Nat) : Option Bool := (MAnchor.mk "" 0 ss es).contains i

theorem contains_eq (a : MAnchor) (i : Nat) : a.contains i = containsR a.starts a.ends i := rfl

theorem containsR_closed (ss es : List Nat) (i : Nat) (hl : ss.length = es.length) :
    containsR ss es i = MAnchor.scan ss es i := by
  simp [containsR, MAnchor.contains, hl]

theorem containsR_open (ss es : List Nat) (l i : Nat) (hl : ss.length = es.length) :
    containsR (ss ++ [l]) es i = if l ≤ i then some true else MAnchor.scan ss es i := by
  simp only [containsR, MAnchor.contains, List.length_append, List.length_singleton, List.getLast?_append,
    List.getLast?_singleton, Option.some_or]
  rw [if_neg (by omega), scan_append_starts _ _ _ _ (by omega)]

/-- The ranges recorded in `MiddlewareAnchorMap` cover a handler registered after `pre` exactly if the key was in use. -/
theorem map_covers (k : String) (pre : List RegEv) (e : RegEv) (he : e.touchesAnchors = false)
    (hs : seedOf (e :: pre) = seedOf pre + 1) (post : List RegEv) :
    containsR (startsOf k (post ++ e :: pre)) (endsOf k (post ++ e :: pre)) (seedOf pre + 1) = some (inUse k pre) := by
  induction post with
  | nil =>
    have e1 : startsOf k (e :: pre) = startsOf k pre := by cases e <;> first | rfl | exact Bool.noConfusion he
    have e2 : endsOf k (e :: pre) = endsOf k pre := by cases e <;> first | rfl | exact Bool.noConfusion he
    rw [List.nil_append, e1, e2]
    obtain ⟨b1, b2⟩ := bounds k pre
    have hl := lens k pre
    rcases Bool.eq_false_or_eq_true (inUse k pre) with hi | hi
    · rw [hi] at hl ⊢
      rcases List.eq_nil_or_concat (startsOf k pre) with hn | ⟨ss, l, hc⟩
      · rw [hn] at hl; simp at hl
      · rw [List.concat_eq_append] at hc
        have hlb : l ≤ seedOf pre := b1 l (by rw [hc]; simp)
        rw [hc] at hl ⊢
        rw [containsR_open _ _ _ _ (by simpa using hl), if_pos (by omega)]
    · rw [hi] at hl ⊢
      rw [containsR_closed _ _ _ (by simpa using hl)]
      exact scan_none_covered _ _ _ (by simp at hl; omega) (fun x hx => by have := b2 x hx; omega)
  | cons e' post ih =>
    rw [List.cons_append]
    have hseed : seedOf pre + 1 ≤ seedOf (post ++ e :: pre) := by rw [← hs]; exact seedOf_append _ _
    have hl := lens k (post ++ e :: pre)
    generalize hh : post ++ e :: pre = h at ih hseed hl
    cases e' with
    | use k' f =>
      simp only [startsOf, endsOf]
      split
      · rename_i hc
        rw [hc.2] at hl
        rw [containsR_open _ _ _ _ (by simpa using hl), if_neg (by omega), ← containsR_closed _ _ _ (by simpa using hl)]
        exact ih
      · exact ih
    | unUse k' =>
      simp only [startsOf, endsOf]
      split
      · rename_i hc
        rw [hc.2] at hl
        rcases List.eq_nil_or_concat (startsOf k h) with hn | ⟨ss, l, hcc⟩
        · rw [hn] at hl; simp at hl
        · rw [List.concat_eq_append] at hcc
          rw [hcc] at ih hl ⊢
          rw [containsR_open _ _ _ _ (by simpa using hl)] at ih
          rw [containsR_closed _ _ _ (by simp at hl ⊢; omega), scan_snoc _ _ _ _ _ (by simp at hl; omega) (by omega)]
          exact ih
      · exact ih
    | _ => exact ih

theorem ended_between (k : String) (pre post : List RegEv) (hi : inUse k pre = true) (hn : inUse k (post ++ pre) = false) :
    RegEv.unUse k ∈ post := by
  induction post with
  | nil => rw [List.nil_append, hi] at hn; exact Bool.noConfusion hn
  | cons e post ih =>
    cases e with
    | use k' f =>
      simp only [List.cons_append, inUse] at hn
      split at hn
      · exact Bool.noConfusion hn
      · exact List.mem_cons_of_mem _ (ih hn)
    | unUse k' =>
      simp only [List.cons_append, inUse] at hn
      by_cases hk : k' = k
      · subst hk; exact List.mem_cons_self
      · rw [if_neg hk] at hn; exact List.mem_cons_of_mem _ (ih hn)
    | _ => exact List.mem_cons_of_mem _ (ih hn)

/-- What the running server really applies: the middleware of a key in use at registration, except while the key is
re-used and the registration falls into that still open later period. -/
def covered (k : String) (pre post : List RegEv) : Bool :=
  inUse k pre && (!everEnded k pre || decide (RegEv.unUse k ∈ post))

/-- The ranges recorded in `MiddlewareAnchors`. -/
theorem slice_covers (k : String) (pre : List RegEv) (e : RegEv) (he : e.touchesAnchors = false)
    (hs : seedOf (e :: pre) = seedOf pre + 1) (post : List RegEv) (f : H) :
    (sliceAnchor (post ++ e :: pre) (k, f)).contains (seedOf pre + 1) = some (covered k pre post) := by
  rw [contains_eq]
  simp only [sliceAnchor]
  induction post with
  | nil =>
    have hm := map_covers k pre e he hs []
    have e1 : startsOf k (e :: pre) = startsOf k pre := by cases e <;> first | rfl | exact Bool.noConfusion he
    have e2 : endsOf k (e :: pre) = endsOf k pre := by cases e <;> first | rfl | exact Bool.noConfusion he
    have e3 : reopened k (e :: pre) = reopened k pre := by cases e <;> first | rfl | exact Bool.noConfusion he
    rw [List.nil_append, e1, e2] at hm ⊢
    rw [e3]
    obtain ⟨b1, b2⟩ := bounds k pre
    have hl := lens k pre
    simp only [covered, reopened, List.not_mem_nil, decide_false, Bool.or_false]
    rcases Bool.eq_false_or_eq_true (inUse k pre) with hi | hi
    · rcases Bool.eq_false_or_eq_true (everEnded k pre) with hev | hev
      · rw [hi] at hl
        simp only [hi, hev, Bool.and_self, if_true, Bool.not_true, Bool.and_false]
        rw [containsR_closed _ _ _ (by simp at hl ⊢; omega)]
        exact scan_none_covered _ _ _ (by simp at hl ⊢; omega) (fun x hx => by have := b2 x hx; omega)
      · simp only [hi, hev, Bool.and_false, Bool.false_eq_true, if_false, Bool.not_false, Bool.and_self]
        rw [hi] at hm; exact hm
    · simp only [hi, Bool.false_and, Bool.false_eq_true, if_false]
      rw [hi] at hm; exact hm
  | cons e' post ih =>
    have hm := map_covers k pre e he hs (e' :: post)
    rw [List.cons_append] at hm ⊢
    have hseed : seedOf pre + 1 ≤ seedOf (post ++ e :: pre) := by rw [← hs]; exact seedOf_append _ _
    have hl := lens k (post ++ e :: pre)
    have hev := ever_ends k (post ++ e :: pre)
    have hbetween : inUse k pre = true → inUse k (post ++ e :: pre) = false → RegEv.unUse k ∈ post := by
      intro h1 h2
      have h1' : inUse k (e :: pre) = true := by
        rw [← h1]; cases e <;> first | rfl | exact Bool.noConfusion he
      exact ended_between k (e :: pre) post h1' h2
    generalize hh : post ++ e :: pre = h at ih hseed hl hm hev hbetween
    have same : ∀ ev : RegEv, ev ≠ .unUse k → covered k pre (ev :: post) = covered k pre post := by
      intro ev hne; simp [covered, Ne.symm hne]
    cases e' with
    | use k' f' =>
      rw [same _ (by simp)]
      by_cases hk : k' = k
      · subst hk
        rcases Bool.eq_false_or_eq_true (inUse k' h) with hi | hi
        · simp only [reopened, inUse, everEnded, startsOf, endsOf, hi, if_true, Bool.true_and] at ih ⊢
          simpa using ih
        · rw [hi] at hl
          rcases Bool.eq_false_or_eq_true (everEnded k' h) with hev' | hev'
          · simp only [reopened, inUse, everEnded, startsOf, endsOf, hi, hev'] at ih ⊢
            simpa using ih
          · have hen : endsOf k' h = [] := by
              refine Decidable.byContradiction fun hne => ?_
              rw [hev.2 hne] at hev'; exact Bool.noConfusion hev'
            have hsn : startsOf k' h = [] := by rw [hen] at hl; simpa using hl
            rw [← ih]
            have : ¬ seedOf h + 1 ≤ seedOf pre + 1 := by omega
            simp [reopened, inUse, everEnded, startsOf, endsOf, hi, hev', hen, hsn, containsR, MAnchor.contains,
              MAnchor.scan]
            omega
      · simp only [reopened, inUse, everEnded, startsOf, endsOf, hk, if_false, false_and] at ih ⊢
        exact ih
    | unUse k' =>
      by_cases hk : k' = k
      · subst hk
        have hcov : covered k' pre (.unUse k' :: post) = inUse k' pre := by simp [covered]
        rw [hcov]
        have hr : reopened k' (.unUse k' :: h) = false := by simp [reopened, inUse]
        rw [hr]
        exact hm
      · rw [same _ (by simp [hk])]
        simp only [reopened, inUse, everEnded, startsOf, endsOf, hk, if_false, false_and, decide_false, Bool.false_and,
          Bool.false_or] at ih ⊢
        exact ih
    | useGlobal _ => rw [same _ (by simp)]; exact ih
    | addHandler _ _ => rw [same _ (by simp)]; exact ih
    | any _ _ => rw [same _ (by simp)]; exact ih
    | setAllowAdd _ => rw [same _ (by simp)]; exact ih
    | setOnMessage _ => rw [same _ (by simp)]; exact ih
    | setHeartBeat _ _ _ => rw [same _ (by simp)]; exact ih
    | setHbId _ => rw [same _ (by simp)]; exact ih
    | setAuth _ _ _ => rw [same _ (by simp)]; exact ih
    | removeHandler _ => rw [same _ (by simp)]; exact ih

end Tcpx
