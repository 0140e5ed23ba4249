import Verif.Lemmas.RegisterHist
/-!
# Lemmas about goroutines that register and dispatch: URL patterns
-/
namespace Tcpx
namespace Register
open Spec

theorem set_self {α : Type} {l : List α} {j : Nat} {x : α} (h : l[j]? = some x) : l.set j x = l := by
  obtain ⟨hj, rfl⟩ := List.getElem?_eq_some_iff.1 h
  exact List.set_getElem_self hj

/-! ## What a step does to a pattern -/

/-- The step has to do with the registration of this pattern. -/
def Act.touchesUrl (p : String) : Act → Bool
  | .urlPut p' _ => p' = p
  | .urlAllow p' _ => p' = p
  | .urlAnchor p' => p' = p
  | _ => false

structure SameUrl (p : String) (s s' : Srv) : Prop where
  u : s'.mux.urlMux.get? p = s.mux.urlMux.get? p
  a : s'.mux.urlAnchors.get? p = s.mux.urlAnchors.get? p

theorem SameUrl.rfl' (p : String) (s : Srv) : SameUrl p s s := ⟨rfl, rfl⟩

theorem SameUrl.trans {p : String} {s s' s'' : Srv} (h : SameUrl p s s') (h' : SameUrl p s' s'') : SameUrl p s s'' :=
  ⟨h'.u.trans h.u, h'.a.trans h.a⟩

theorem put_get (m : Mux) (p q : String) (hs : List H) :
    (m.addURLPatternHandler q hs).urlMux.get? p = if q = p then some ((m.urlMux.get? p).getD [] ++ hs) else m.urlMux.get? p := by
  unfold Mux.addURLPatternHandler
  by_cases hq : q = p
  · subst hq
    rw [if_pos rfl]
    split
    · next old ho => simp [ho]
    · next ho => simp [ho]
  · have hq' : ¬ p = q := fun e => hq e.symm
    rw [if_neg hq]
    split <;> simp [GoMap.get?_set, hq']

theorem put_anchors (m : Mux) (q : String) (hs : List H) : (m.addURLPatternHandler q hs).urlAnchors = m.urlAnchors := by
  unfold Mux.addURLPatternHandler
  split <;> rfl

theorem exec_urls (a : Act) (hu : ∀ p hs, a ≠ .urlPut p hs) (ha : ∀ p, a ≠ .urlAnchor p) (s : Srv) (l : Loc) (r : List Act) :
    (a.exec s l r).1.mux.urlMux = s.mux.urlMux ∧ (a.exec s l r).1.mux.urlAnchors = s.mux.urlAnchors := by
  cases a
  case urlPut p hs => exact absurd rfl (hu p hs)
  case urlAnchor p => exact absurd rfl (ha p)
  case index => simp [Act.exec, Mux.bump]
  case selfMw id ms =>
    simp only [Act.exec]; split
    · simp
    · dsimp only; split <;> simp
  case addAnchor =>
    simp only [Act.exec]
    unfold Mux.addMiddlewareAnchor
    (repeat' split) <;> simp
  case replAnchor =>
    simp only [Act.exec]
    unfold Mux.replaceMiddlewareAnchor
    (repeat' split) <;> simp [Out.ret, Out.panic]
  all_goals simp only [Act.exec]
  all_goals (repeat' split)
  all_goals simp

theorem exec_sameUrl (p : String) (a : Act) (ht : a.touchesUrl p = false) (s : Srv) (l : Loc) (r : List Act) : SameUrl p s (a.exec s l r).1 := by
  by_cases hu : ∃ q hs, a = .urlPut q hs
  · obtain ⟨q, hs, rfl⟩ := hu
    simp only [Act.touchesUrl, decide_eq_false_iff_not] at ht
    refine ⟨?_, ?_⟩
    · simp only [Act.exec]
      rw [put_get, if_neg ht]
    · simp only [Act.exec, put_anchors]
  · by_cases ha : ∃ q, a = .urlAnchor q
    · obtain ⟨q, rfl⟩ := ha
      simp only [Act.touchesUrl, decide_eq_false_iff_not] at ht
      have ht' : ¬ p = q := fun e => ht e.symm
      simp only [Act.exec]
      split
      · exact SameUrl.rfl' _ _
      · exact ⟨rfl, by simp [GoMap.get?_set, ht']⟩
    · have := exec_urls a (fun q hs e => hu ⟨q, hs, e⟩) (fun q e => ha ⟨q, e⟩) s l r
      exact ⟨by rw [this.1], by rw [this.2]⟩

theorem unwind_touchesUrl (p : String) (r : List Act) : ∀ a ∈ unwind r, a.touchesUrl p = false := by
  unfold unwind; split <;> simp [Act.touchesUrl]

theorem exec_touchesUrl (p : String) (a : Act) (ha : a.touchesUrl p = false) (s : Srv) (l : Loc) (r : List Act) (hr : ∀ b ∈ r, b.touchesUrl p = false) :
    ∀ b ∈ (a.exec s l r).2.2, b.touchesUrl p = false := by
  have hu := unwind_touchesUrl p r
  cases a <;> simp only [Act.exec]
  all_goals (repeat' split)
  all_goals first
    | exact hr
    | exact hu
    | (intro b hb; simp only [List.mem_cons] at hb
       rcases hb with rfl | hb
       · first | rfl | exact ha
       · exact hr b hb)
    | (simp [Act.touchesUrl, locked]; done)

theorem code_touchesUrl (p : String) (c : Call) (hc : registersUrl p c = false) : ∀ a ∈ c.code, a.touchesUrl p = false := by
  cases c with
  | any q hs =>
    simp only [registersUrl, decide_eq_false_iff_not] at hc
    simp only [Call.code, anyCode]
    (repeat' split) <;> simp [locked, Act.touchesUrl, hc]
  | addHandler id hs =>
    simp only [Call.code, addHandlerCode]
    (repeat' split) <;> simp [locked, Act.touchesUrl]
  | rewriteHeartBeat id f => simp [Call.code, addHandlerCode, locked, Act.touchesUrl]
  | _ => simp [Call.code, locked, rlocked, Act.touchesUrl]

/-! ## What stays -/

structure StaysU (s s' : Srv) : Prop where
  u : ∀ p, (s.mux.urlMux.get? p).isSome = true → (s'.mux.urlMux.get? p).isSome = true
  a : ∀ p i, s.mux.urlAnchors.get? p = some i → s'.mux.urlAnchors.get? p = some i

theorem StaysU.rfl' (s : Srv) : StaysU s s := ⟨fun _ h => h, fun _ _ h => h⟩

theorem exec_staysU (a : Act) (s : Srv) (l : Loc) (r : List Act) : StaysU s (a.exec s l r).1 := by
  by_cases hu : ∃ q hs, a = .urlPut q hs
  · obtain ⟨q, hs, rfl⟩ := hu
    refine ⟨?_, ?_⟩
    · intro p hp
      simp only [Act.exec]
      rw [put_get]
      split
      · rfl
      · exact hp
    · intro p i hi
      simp only [Act.exec, put_anchors]; exact hi
  · by_cases ha : ∃ q, a = .urlAnchor q
    · obtain ⟨q, rfl⟩ := ha
      simp only [Act.exec]
      split
      · exact StaysU.rfl' _
      · next hn =>
        refine ⟨fun _ h => h, ?_⟩
        intro p i hi
        simp only [GoMap.get?_set]
        split
        · next e => subst e; rw [hn] at hi; cases hi
        · exact hi
    · have := exec_urls a (fun q hs e => hu ⟨q, hs, e⟩) (fun q e => ha ⟨q, e⟩) s l r
      exact ⟨fun p h => by rw [this.1]; exact h, fun p i h => by rw [this.2]; exact h⟩

theorem step_staysU (y : Sys) (j : Nat) : StaysU y.srv (y.step j).srv := by
  have hw := went y j
  generalize y.step j = z at hw
  cases hw with
  | plain g c a r hg hcur hp => exact exec_staysU _ _ _ _
  | _ => exact StaysU.rfl' _

/-! ## A pattern not registered before -/

theorem fresh_url (p : String) (h : List RegEv) (hid : ∀ hs, RegEv.any p hs ∉ h) :
    (runHist h).mux.urlMux.get? p = none ∧ (runHist h).mux.urlAnchors.get? p = none := by
  have hr : urlRegistration p h = none := by
    induction h with
    | nil => rfl
    | cons e h ih =>
      have ih := ih fun hs hm => hid hs (List.mem_cons_of_mem _ hm)
      cases e with
      | any p' hs =>
        have : p' ≠ p := by rintro rfl; exact hid hs List.mem_cons_self
        simp [urlRegistration, this, ih]
      | _ => exact ih
  have hs := url_state p h
  rw [hr] at hs
  exact ⟨hs.2, hs.1⟩

/-! ## A pattern nobody registers -/

/-- Nothing under way or to come touches the pattern. -/
def CleanU (p : String) (g : Gor) : Prop :=
  (∀ c ∈ g.todo, registersUrl p c = false) ∧ ∀ c r, g.cur = some (c, r) → ∀ a ∈ r, a.touchesUrl p = false

/-- How a step of a goroutine goes that does not touch the pattern. -/
theorem clean_went {p : String} {y z : Sys} {j : Nat} (hw : Went y j z) (g : Gor) (hg : y.gors[j]? = some g)
    (hc : ∀ c r, g.cur = some (c, r) → ∀ a ∈ r, a.touchesUrl p = false)
    (hb : ∀ c cs, g.cur = none → g.todo = c :: cs → registersUrl p c = false) :
    SameUrl p y.srv z.srv ∧ ∃ g', z.gors = y.gors.set j g' ∧ (∀ c r, g'.cur = some (c, r) → ∀ a ∈ r, a.touchesUrl p = false) ∧
      (g'.todo = g.todo ∨ ∃ c, g.cur = none ∧ g.todo = c :: g'.todo) := by
  have same : ∀ g0, y.gors[j]? = some g0 → g0 = g := by
    intro g0 h0; rw [hg, Option.some.injEq] at h0; exact h0.symm
  have tail : ∀ {c : Call} {a : Act} {r : List Act}, g.cur = some (c, a :: r) →
      ∀ c' r', some (c, r) = some (c', r') → ∀ b ∈ r', b.touchesUrl p = false := by
    intro c a r hcur c' r' e b hb
    simp only [Option.some.injEq, Prod.mk.injEq] at e
    obtain ⟨rfl, rfl⟩ := e
    exact hc _ _ hcur b (List.mem_cons_of_mem _ hb)
  cases hw with
  | stay =>
    refine ⟨SameUrl.rfl' _ _, g, ?_, hc, .inl rfl⟩
    rw [set_self hg]
  | begin g0 c cs hg0 hcur ht =>
    obtain rfl := same g0 hg0
    refine ⟨SameUrl.rfl' _ _, _, rfl, ?_, .inr ⟨c, hcur, ht⟩⟩
    intro c' r' e
    simp only [Option.some.injEq, Prod.mk.injEq] at e
    obtain ⟨rfl, rfl⟩ := e
    exact code_touchesUrl p c (hb c cs hcur ht)
  | lock g0 c r hg0 hcur _ _ => obtain rfl := same g0 hg0; exact ⟨SameUrl.rfl' _ _, _, rfl, tail hcur, .inl rfl⟩
  | unlock g0 c r hg0 hcur _ => obtain rfl := same g0 hg0; exact ⟨SameUrl.rfl' _ _, _, rfl, tail hcur, .inl rfl⟩
  | rlock g0 c r hg0 hcur _ => obtain rfl := same g0 hg0; exact ⟨SameUrl.rfl' _ _, _, rfl, tail hcur, .inl rfl⟩
  | runlock g0 c r hg0 hcur _ => obtain rfl := same g0 hg0; exact ⟨SameUrl.rfl' _ _, _, rfl, tail hcur, .inl rfl⟩
  | ret g0 c o r hg0 hcur =>
    obtain rfl := same g0 hg0
    exact ⟨SameUrl.rfl' _ _, _, rfl, (by intro c r e; cases e), .inl rfl⟩
  | plain g0 c a r hg0 hcur hp =>
    obtain rfl := same g0 hg0
    have hs := hc _ _ hcur
    refine ⟨exec_sameUrl p a (hs a List.mem_cons_self) _ _ _, _, rfl, ?_, .inl rfl⟩
    intro c' r' e
    simp only [Option.some.injEq, Prod.mk.injEq] at e
    obtain ⟨rfl, rfl⟩ := e
    exact exec_touchesUrl p a (hs a List.mem_cons_self) _ _ _ (fun b hb => hs b (List.mem_cons_of_mem _ hb))

theorem CleanU.step {p : String} {y : Sys} {j : Nat} {g : Gor} (hg : y.gors[j]? = some g) (h : CleanU p g) :
    SameUrl p y.srv (y.step j).srv ∧ ∃ g', (y.step j).gors = y.gors.set j g' ∧ CleanU p g' := by
  obtain ⟨h1, g', h2, h3, h4⟩ := clean_went (went y j) g hg h.2 (fun c cs _ ht => h.1 c (by rw [ht]; exact List.mem_cons_self))
  refine ⟨h1, g', h2, ?_, h3⟩
  rcases h4 with e | ⟨c, _, e⟩
  · rw [e]; exact h.1
  · intro c' hc'; exact h.1 c' (by rw [e]; exact List.mem_cons_of_mem _ hc')

theorem calmU_run (p : String) (y : Sys) (h : ∀ g ∈ y.gors, CleanU p g) (sched : List Nat) : SameUrl p y.srv (y.run sched).srv := by
  induction sched generalizing y with
  | nil => exact SameUrl.rfl' _ _
  | cons j t ih =>
    cases hg : y.gors[j]? with
    | none =>
      have : y.step j = y := by unfold Sys.step; rw [hg]
      show SameUrl p y.srv ((y.step j).run t).srv
      rw [this]; exact ih y h
    | some g =>
      obtain ⟨h1, g', h2, h3⟩ := (h g (List.mem_of_getElem? hg)).step hg
      refine h1.trans (ih (y.step j) ?_)
      intro gi hi
      rw [h2] at hi
      rcases List.mem_or_eq_of_mem_set hi with hi | rfl
      · exact h gi hi
      · exact h3

/-! ## A pattern that one call registers -/

/-- How far the only registration of the pattern is. -/
inductive UrlAt (p : String) (hs : List H) (s : Srv) (g : Gor) : Prop
  | before (pre post : List Call) (ht : g.todo = pre ++ .any p hs :: post) (hpre : ∀ c ∈ pre, registersUrl p c = false)
      (hpost : ∀ c ∈ post, registersUrl p c = false) (hc : ∀ c r, g.cur = some (c, r) → ∀ a ∈ r, a.touchesUrl p = false)
      (hu : s.mux.urlMux.get? p = none) (ha : s.mux.urlAnchors.get? p = none)
  | put1 (ht : ∀ c ∈ g.todo, registersUrl p c = false) (hc : g.cur = some (.any p hs, .urlPut p hs :: .urlAllow p hs :: atail p)) (hl : hs.length > 1)
      (hu : s.mux.urlMux.get? p = none) (ha : s.mux.urlAnchors.get? p = none)
  | allow (ht : ∀ c ∈ g.todo, registersUrl p c = false) (hc : g.cur = some (.any p hs, .urlAllow p hs :: atail p))
      (hu : s.mux.urlMux.get? p = if hs.length > 1 then some hs else none) (ha : s.mux.urlAnchors.get? p = none)
  | put2 (ht : ∀ c ∈ g.todo, registersUrl p c = false) (hc : g.cur = some (.any p hs, .urlPut p hs :: atail p))
      (hu : s.mux.urlMux.get? p = if hs.length > 1 then some hs else none) (ha : s.mux.urlAnchors.get? p = none)
  | tail (j : Nat) (hj : j ≤ 2) (ht : ∀ c ∈ g.todo, registersUrl p c = false) (hc : g.cur = some (.any p hs, (atail p).drop j))
      (hu : s.mux.urlMux.get? p = some (if hs.length > 1 then hs ++ hs else hs)) (ha : s.mux.urlAnchors.get? p = none)
  | after (h : CleanU p g) (hu : s.mux.urlMux.get? p = some (if hs.length > 1 then hs ++ hs else hs)) (ha : (s.mux.urlAnchors.get? p).isSome = true)

theorem UrlAt.same {p : String} {hs : List H} {s s' : Srv} {g : Gor} (h : UrlAt p hs s g) (hs' : SameUrl p s s') : UrlAt p hs s' g := by
  cases h with
  | before pre post ht hpre hpost hc hu ha => exact .before pre post ht hpre hpost hc (hs'.u.trans hu) (hs'.a.trans ha)
  | put1 ht hc hl hu ha => exact .put1 ht hc hl (hs'.u.trans hu) (hs'.a.trans ha)
  | allow ht hc hu ha => exact .allow ht hc (hs'.u.trans hu) (hs'.a.trans ha)
  | put2 ht hc hu ha => exact .put2 ht hc (hs'.u.trans hu) (hs'.a.trans ha)
  | tail j hj ht hc hu ha => exact .tail j hj ht hc (hs'.u.trans hu) (hs'.a.trans ha)
  | after h hu ha => exact .after h (hs'.u.trans hu) (by rw [hs'.a]; exact ha)

theorem UrlAt.step {p : String} {hs : List H} (hne : hs ≠ []) {y : Sys} (hal : y.srv.mux.allowAdd = true) {n : Nat} {g : Gor} (hg : y.gors[n]? = some g)
    (h : UrlAt p hs y.srv g) : ∃ g', (y.step n).gors = y.gors.set n g' ∧ UrlAt p hs (y.step n).srv g' := by
  have stay : ∀ {s : Srv} {w : Option Nat} {rd : List Nat}, s = y.srv → UrlAt p hs y.srv g →
      ∃ g', (⟨s, w, rd, y.gors⟩ : Sys).gors = y.gors.set n g' ∧ UrlAt p hs s g' := by
    rintro s w rd rfl h
    exact ⟨g, by rw [set_self hg], h⟩
  cases h with
  | before pre post ht hpre hpost hc hu ha =>
    by_cases hst : g.cur = none ∧ pre = []
    · obtain ⟨hcur, rfl⟩ := hst
      rw [List.nil_append] at ht
      have e : y.step n = { y with gors := y.gors.set n { g with cur := some (.any p hs, (Call.any p hs).code), loc := {}, todo := post } } := by
        unfold Sys.step
        simp only [hg, hcur, ht]
      rw [e]
      refine ⟨_, rfl, ?_⟩
      by_cases hl : hs.length > 1
      · refine .put1 hpost ?_ hl hu ha
        simp [Call.code, anyCode, hne, hl, atail, locked]
      · refine .allow hpost ?_ (by rw [if_neg hl]; exact hu) ha
        simp [Call.code, anyCode, hne, hl, atail, locked]
    · obtain ⟨h1, g', h2, h3, h4⟩ := clean_went (p := p) (went y n) g hg hc (by
        intro c cs hcur htd
        cases pre with
        | nil => exact absurd ⟨hcur, rfl⟩ hst
        | cons q pre =>
          rw [ht] at htd
          simp only [List.cons_append, List.cons.injEq] at htd
          rw [← htd.1]; exact hpre q List.mem_cons_self)
      refine ⟨g', h2, ?_⟩
      rcases h4 with e | ⟨c, hcur, e⟩
      · exact .before pre post (e.trans ht) hpre hpost h3 (h1.u.trans hu) (h1.a.trans ha)
      · cases pre with
        | nil => exact absurd ⟨hcur, rfl⟩ hst
        | cons q pre =>
          rw [ht] at e
          simp only [List.cons_append, List.cons.injEq] at e
          exact .before pre post e.2.symm (fun c hc => hpre c (List.mem_cons_of_mem _ hc)) hpost h3 (h1.u.trans hu) (h1.a.trans ha)
  | put1 ht hc hl hu ha =>
    rw [step_plain y n g _ _ _ hg hc rfl]
    refine ⟨_, rfl, .allow ht rfl ?_ ?_⟩
    · simp only [Act.exec]; rw [put_get, if_pos rfl, if_pos hl, hu]; rfl
    · simp only [Act.exec, put_anchors]; exact ha
  | allow ht hc hu ha =>
    rw [step_plain y n g _ _ _ hg hc rfl]
    refine ⟨_, rfl, .put2 ht ?_ hu ha⟩
    simp only [Act.exec, hal, if_true]
  | put2 ht hc hu ha =>
    rw [step_plain y n g _ _ _ hg hc rfl]
    refine ⟨_, rfl, .tail 0 (by omega) ht rfl ?_ ?_⟩
    · simp only [Act.exec]; rw [put_get, if_pos rfl, hu]
      split <;> simp
    · simp only [Act.exec, put_anchors]; exact ha
  | tail j hj ht hc hu ha =>
    have hcj : j = 0 ∨ j = 1 ∨ j = 2 := by omega
    rcases hcj with rfl | rfl | rfl
    · rw [step_plain y n g _ _ _ hg hc rfl]
      exact ⟨_, rfl, .tail 1 (by omega) ht rfl hu ha⟩
    · have hw := went y n
      generalize y.step n = z at hw
      cases hw with
      | stay => exact stay rfl (.tail 1 (by omega) ht hc hu ha)
      | lock g0 c r hg0 hcur _ _ =>
        rw [hg, Option.some.injEq] at hg0
        subst hg0
        rw [hc] at hcur
        simp only [atail, List.drop_succ_cons, List.drop_zero, Option.some.injEq, Prod.mk.injEq, List.cons.injEq, true_and] at hcur
        obtain ⟨rfl, rfl⟩ := hcur
        exact ⟨_, rfl, .tail 2 (by omega) ht rfl hu ha⟩
      | begin g0 c cs hg0 hcur _ => rw [hg, Option.some.injEq] at hg0; subst hg0; rw [hc] at hcur; cases hcur
      | unlock g0 c r hg0 hcur _ => rw [hg, Option.some.injEq] at hg0; subst hg0; rw [hc] at hcur; simp [atail] at hcur
      | rlock g0 c r hg0 hcur _ => rw [hg, Option.some.injEq] at hg0; subst hg0; rw [hc] at hcur; simp [atail] at hcur
      | runlock g0 c r hg0 hcur _ => rw [hg, Option.some.injEq] at hg0; subst hg0; rw [hc] at hcur; simp [atail] at hcur
      | ret g0 c o r hg0 hcur => rw [hg, Option.some.injEq] at hg0; subst hg0; rw [hc] at hcur; simp [atail] at hcur
      | plain g0 c a r hg0 hcur hp =>
        rw [hg, Option.some.injEq] at hg0; subst hg0; rw [hc] at hcur; simp [atail] at hcur
        rw [← hcur.2.1] at hp; simp [Act.plain] at hp
    · rw [step_plain y n g _ _ _ hg hc rfl]
      refine ⟨_, rfl, .after ⟨ht, ?_⟩ ?_ ?_⟩
      · intro c' r' e
        simp only [Act.exec, ha, Option.some.injEq, Prod.mk.injEq] at e
        obtain ⟨_, rfl⟩ := e
        simp [Act.touchesUrl]
      · simp only [Act.exec, ha]; exact hu
      · simp only [Act.exec, ha, GoMap.get?_set, if_true]; rfl
  | after h hu ha =>
    obtain ⟨h1, g', h2, h3⟩ := h.step hg
    exact ⟨g', h2, .after h3 (h1.u.trans hu) (by rw [h1.a]; exact ha)⟩

/-- One goroutine registers the pattern, by one call. -/
structure UrlInv (p : String) (hs : List H) (n : Nat) (y : Sys) : Prop where
  al : y.srv.mux.allowAdd = true
  one : ∃ g, y.gors[n]? = some g ∧ UrlAt p hs y.srv g
  oth : ∀ i g, y.gors[i]? = some g → i ≠ n → CleanU p g

theorem exec_allowAdd (a : Act) (s : Srv) (l : Loc) (r : List Act) : (a.exec s l r).1.mux.allowAdd = s.mux.allowAdd := by
  cases a
  case selfMw id ms =>
    simp only [Act.exec]; split
    · rfl
    · dsimp only; split <;> rfl
  case addAnchor =>
    simp only [Act.exec]
    unfold Mux.addMiddlewareAnchor
    (repeat' split) <;> rfl
  case replAnchor =>
    simp only [Act.exec]
    unfold Mux.replaceMiddlewareAnchor
    (repeat' split) <;> rfl
  case urlPut =>
    simp only [Act.exec]
    unfold Mux.addURLPatternHandler
    split <;> rfl
  all_goals simp only [Act.exec]
  all_goals (repeat' split)
  all_goals rfl

theorem step_allowAdd (y : Sys) (j : Nat) : (y.step j).srv.mux.allowAdd = y.srv.mux.allowAdd := by
  have hw := went y j
  generalize y.step j = z at hw
  cases hw with
  | plain g c a r hg hcur hp => exact exec_allowAdd _ _ _ _
  | _ => rfl

theorem urlInv_step {p : String} {hs : List H} (hne : hs ≠ []) {n : Nat} {y : Sys} (h : UrlInv p hs n y) (j : Nat) : UrlInv p hs n (y.step j) := by
  obtain ⟨g, hg, hat⟩ := h.one
  have hal := (step_allowAdd y j).trans h.al
  have hn : n < y.gors.length := (List.getElem?_eq_some_iff.1 hg).1
  by_cases hj : j = n
  · subst hj
    obtain ⟨g', h1, h2⟩ := hat.step hne h.al hg
    refine ⟨hal, ⟨g', by rw [h1]; simp [hn], h2⟩, ?_⟩
    intro i gi hi hin
    rw [h1] at hi
    rcases get_set _ _ _ _ _ hi with ⟨rfl, _, _⟩ | ⟨_, hi⟩
    · exact absurd rfl hin
    · exact h.oth i gi hi hin
  · cases hgj : y.gors[j]? with
    | none =>
      have : y.step j = y := by unfold Sys.step; rw [hgj]
      rw [this]; exact h
    | some gj =>
      obtain ⟨h1, g', h2, h3⟩ := (h.oth j gj hgj hj).step hgj
      refine ⟨hal, ⟨g, ?_, hat.same h1⟩, ?_⟩
      · rw [h2, List.getElem?_set_ne hj]; exact hg
      · intro i gi hi hin
        rw [h2] at hi
        rcases get_set _ _ _ _ _ hi with ⟨rfl, rfl, _⟩ | ⟨_, hi⟩
        · exact h3
        · exact h.oth i gi hi hin

theorem urlInv_run {p : String} {hs : List H} (hne : hs ≠ []) {n : Nat} {y : Sys} (h : UrlInv p hs n y) (sched : List Nat) :
    UrlInv p hs n (y.run sched) := by
  induction sched generalizing y with
  | nil => exact h
  | cons j t ih => exact ih (urlInv_step hne h j)

theorem urlInv_start (p : String) (hs : List H) (n : Nat) (s : Srv) (hal : s.mux.allowAdd = true) (hu : s.mux.urlMux.get? p = none)
    (ha : s.mux.urlAnchors.get? p = none) (progs : List (List Call)) (pre post : List Call) (hn : progs[n]? = some (pre ++ .any p hs :: post))
    (hpre : ∀ c ∈ pre, registersUrl p c = false) (hpost : ∀ c ∈ post, registersUrl p c = false)
    (hoth : ∀ j q, progs[j]? = some q → j ≠ n → ∀ c ∈ q, registersUrl p c = false) : UrlInv p hs n (start s progs) := by
  refine ⟨hal, ⟨{ todo := pre ++ .any p hs :: post }, by simp [start, hn], .before pre post rfl hpre hpost (by intro c r e; cases e) hu ha⟩, ?_⟩
  intro i g hg hin
  simp only [start, List.getElem?_map, Option.map_eq_some_iff] at hg
  obtain ⟨q, hq, rfl⟩ := hg
  exact ⟨hoth i q hq hin, by intro c r e; cases e⟩

/-- The call that registers the pattern. -/
theorem only_url {p : String} {hs : List H} {n : Nat} {progs : List (List Call)} {pre post : List Call} (hn : progs[n]? = some (pre ++ .any p hs :: post))
    (hpre : ∀ c ∈ pre, registersUrl p c = false) (hpost : ∀ c ∈ post, registersUrl p c = false)
    (hoth : ∀ j q, progs[j]? = some q → j ≠ n → ∀ c ∈ q, registersUrl p c = false) {j : Nat} {g : Gor} (hg : progs[j]? = some g.all)
    {pre' post' : List Call} {c : Call} (h : g.all = pre' ++ c :: post') (hk : c.key = some (.url p)) : j = n ∧ pre' = pre ∧ c = .any p hs := by
  have hc : registersUrl p c = true := by
    cases c <;> simp [Call.key] at hk
    simp [registersUrl, hk]
  have hj : j = n := by
    apply Classical.byContradiction
    intro hj
    have := hoth j _ hg hj c (by rw [h]; simp)
    rw [hc] at this; cases this
  subst hj
  rw [hg, Option.some.injEq] at hn
  rw [h] at hn
  have := split_unique (P := fun q => registersUrl p q = true) hn hc (fun q hq => by rw [hpre q hq]; simp) (fun q hq => by rw [hpost q hq]; simp)
  exact ⟨rfl, this.1, this.2⟩

/-! ## Dispatch -/

/-- What dispatch may find for the pattern while others register. -/
structure EndsU where
  p : String
  okL : List H → Prop
  okAs : List H → Prop
  good : List H → Prop
  okN : Prop
  okP : Prop

structure ViewU (e : EndsU) (s : Srv) : Prop where
  hand : ∀ l, s.mux.urlMux.get? e.p = some l → e.okL l ∧ e.good s.mux.globals
  noneH : s.mux.urlMux.get? e.p = none → e.okN
  anch : ∀ i, s.mux.urlAnchors.get? e.p = some i → ∃ as, anchorsAt s.mux.anchors i = some as ∧ e.okAs as
  noneA : s.mux.urlAnchors.get? e.p = none → e.okP

/-- How the dispatch may end. -/
def EndsU.Res (e : EndsU) (o : Outcome) : Prop :=
  (e.okN ∧ o = .disp .nothing) ∨ (e.okP ∧ (∃ l, e.okL l) ∧ o = .panicked) ∨ ∃ g as l, e.good g ∧ e.okAs as ∧ e.okL l ∧ o = .disp (.chain (g ++ as ++ l))

/-- The code of the dispatch. -/
def ucode (p : String) : List Act := [.lookUrl p, .readGlobals, .rlock, .readUrlIdx p, .runlock, .scanLen, .next, .ret .returned]

/-- Where the dispatch of a message is. -/
inductive OnDispU (e : EndsU) (s : Srv) : List Act → Loc → Prop
  | at0 (l : Loc) : OnDispU e s (ucode e.p) l
  | at1 (l : Loc) (hf : e.okL l.found) (hh : (s.mux.urlMux.get? e.p).isSome = true) : OnDispU e s ((ucode e.p).drop 1) l
  | at2 (l : Loc) (hf : e.okL l.found) (hg : e.good l.chain) : OnDispU e s ((ucode e.p).drop 2) l
  | at3 (l : Loc) (hf : e.okL l.found) (hg : e.good l.chain) : OnDispU e s ((ucode e.p).drop 3) l
  | at4 (l : Loc) (hf : e.okL l.found) (hg : e.good l.chain) (hi : s.mux.urlAnchors.get? e.p = some l.idx) : OnDispU e s ((ucode e.p).drop 4) l
  | at5 (l : Loc) (hf : e.okL l.found) (hg : e.good l.chain) (hi : s.mux.urlAnchors.get? e.p = some l.idx) : OnDispU e s ((ucode e.p).drop 5) l
  | scan (l : Loc) (A : List MAnchor) (as : List H) (j : Nat) (g x r : List H) (hA : ∃ ext, s.mux.anchors = A ++ ext) (hok : e.okAs as)
      (hf : e.okL l.found) (hg : e.good g) (hc : l.chain = g ++ x) (hj : j ≤ A.length) (hi : anchorsAt (A.drop j) l.idx = some r) (hx : x ++ r = as) :
      OnDispU e s (.scan A.length j :: (ucode e.p).drop 6) l
  | at6 (l : Loc) (g as : List H) (hok : e.okAs as) (hf : e.okL l.found) (hg : e.good g) (hc : l.chain = g ++ as) : OnDispU e s ((ucode e.p).drop 6) l
  | over (l : Loc) (o : Outcome) (h : e.Res o) : OnDispU e s [.ret o] l
  | overR (l : Loc) (o : Outcome) (h : e.Res o) : OnDispU e s [.runlock, .ret o] l

theorem OnDispU.stays {e : EndsU} {s s' : Srv} (hs : Stays s s') (hu : StaysU s s') {r : List Act} {l : Loc} (h : OnDispU e s r l) : OnDispU e s' r l := by
  cases h with
  | at0 => exact .at0 _
  | at1 _ hf hh => exact .at1 _ hf (hu.u _ hh)
  | at2 _ hf hg => exact .at2 _ hf hg
  | at3 _ hf hg => exact .at3 _ hf hg
  | at4 _ hf hg hi => exact .at4 _ hf hg (hu.a _ _ hi)
  | at5 _ hf hg hi => exact .at5 _ hf hg (hu.a _ _ hi)
  | scan _ A as j g x r hA hok hf hg hc hj hi hx =>
    refine .scan _ A as j g x r ?_ hok hf hg hc hj hi hx
    obtain ⟨a, ha⟩ := hA
    obtain ⟨b, hb⟩ := hs.anchors
    exact ⟨a ++ b, by rw [hb, ha, List.append_assoc]⟩
  | at6 _ g as hok hf hg hc => exact .at6 _ g as hok hf hg hc
  | over _ o h => exact .over _ o h
  | overR _ o h => exact .overR _ o h

/-- One step of the dispatch that is not one of the mutex. -/
theorem OnDispU.exec {e : EndsU} {s : Srv} (hv : ViewU e s) {a : Act} {r : List Act} {l : Loc} (h : OnDispU e s (a :: r) l) (hp : a.plain = true) :
    OnDispU e s (a.exec s l r).2.2 (a.exec s l r).2.1 := by
  generalize hq : a :: r = q at h
  cases h with
  | at0 =>
    simp only [ucode, List.cons.injEq] at hq
    obtain ⟨rfl, rfl⟩ := hq
    simp only [Act.exec]
    cases hm : s.mux.urlMux.get? e.p with
    | none => exact .over _ _ (.inl ⟨hv.noneH hm, rfl⟩)
    | some f => exact .at1 _ (hv.hand f hm).1 (by rw [hm]; rfl)
  | at1 _ hf hh =>
    simp only [ucode, List.drop_succ_cons, List.drop_zero, List.cons.injEq] at hq
    obtain ⟨rfl, rfl⟩ := hq
    obtain ⟨f, hm⟩ := Option.isSome_iff_exists.1 hh
    exact .at2 _ hf (hv.hand f hm).2
  | at2 _ hf hg =>
    simp only [ucode, List.drop_succ_cons, List.drop_zero, List.cons.injEq] at hq
    obtain ⟨rfl, rfl⟩ := hq
    simp [Act.plain] at hp
  | at3 _ hf hg =>
    simp only [ucode, List.drop_succ_cons, List.drop_zero, List.cons.injEq] at hq
    obtain ⟨rfl, rfl⟩ := hq
    simp only [Act.exec]
    cases hm : s.mux.urlAnchors.get? e.p with
    | none => exact .overR _ _ (.inr (.inl ⟨hv.noneA hm, ⟨_, hf⟩, rfl⟩))
    | some i => exact .at4 _ hf hg hm
  | at4 _ hf hg hi =>
    simp only [ucode, List.drop_succ_cons, List.drop_zero, List.cons.injEq] at hq
    obtain ⟨rfl, rfl⟩ := hq
    simp [Act.plain] at hp
  | at5 _ hf hg hi =>
    simp only [ucode, List.drop_succ_cons, List.drop_zero, List.cons.injEq] at hq
    obtain ⟨rfl, rfl⟩ := hq
    simp only [Act.exec]
    obtain ⟨as, has, hok⟩ := hv.anch _ hi
    exact .scan _ s.mux.anchors as 0 l.chain [] as ⟨[], by simp⟩ hok hf hg (by simp) (by omega) has rfl
  | scan _ A as j g x r' hA hok hf hg hc hj hi hx =>
    simp only [List.cons.injEq] at hq
    obtain ⟨rfl, rfl⟩ := hq
    simp only [Act.exec]
    by_cases hlt : j < A.length
    · obtain ⟨ext, hext⟩ := hA
      rw [if_pos hlt, hext, List.getElem?_append_left hlt, List.getElem?_eq_getElem hlt]
      rw [List.drop_eq_getElem_cons hlt] at hi
      simp only [anchorsAt] at hi
      cases hcon : (A[j]).contains l.idx with
      | none => rw [hcon] at hi; cases hi
      | some b =>
        rw [hcon] at hi
        simp only [Option.map_eq_some_iff] at hi
        obtain ⟨r0, hi, rfl⟩ := hi
        cases b with
        | false =>
          simp only [hcon, Bool.false_eq_true, if_false]
          exact .scan _ A as (j + 1) g x r0 ⟨ext, hext⟩ hok hf hg hc (by omega) hi hx
        | true =>
          simp only [hcon, if_true]
          refine .scan _ A as (j + 1) g (x ++ [(A[j]).mw]) r0 ⟨ext, hext⟩ hok hf hg ?_ (by omega) hi ?_
          · simp [hc]
          · rw [← hx]; simp
    · rw [if_neg hlt]
      have hje : j = A.length := by omega
      subst hje
      simp only [List.drop_length, anchorsAt, Option.some.injEq] at hi
      subst hi
      refine .at6 _ g as hok hf hg ?_
      rw [hc, ← hx]; simp
  | at6 _ g as hok hf hg hc =>
    simp only [ucode, List.drop_succ_cons, List.drop_zero, List.cons.injEq] at hq
    obtain ⟨rfl, rfl⟩ := hq
    simp only [Act.exec, hc]
    exact .over _ _ (.inr (.inr ⟨g, as, _, hg, hok, hf, rfl⟩))
  | over _ o h =>
    simp only [List.cons.injEq] at hq
    obtain ⟨rfl, rfl⟩ := hq
    simp [Act.plain] at hp
  | overR _ o h =>
    simp only [List.cons.injEq] at hq
    obtain ⟨rfl, rfl⟩ := hq
    simp [Act.plain] at hp

/-- A step of the mutex. -/
theorem OnDispU.mutex {e : EndsU} {s : Srv} {a : Act} {r : List Act} {l : Loc} (h : OnDispU e s (a :: r) l) (hp : a.plain = false)
    (hr : ∀ o, a ≠ .ret o) : OnDispU e s r l := by
  generalize hq : a :: r = q at h
  cases h with
  | at2 _ hf hg =>
    simp only [ucode, List.drop_succ_cons, List.drop_zero, List.cons.injEq] at hq
    obtain ⟨rfl, rfl⟩ := hq
    exact .at3 _ hf hg
  | at4 _ hf hg hi =>
    simp only [ucode, List.drop_succ_cons, List.drop_zero, List.cons.injEq] at hq
    obtain ⟨rfl, rfl⟩ := hq
    exact .at5 _ hf hg hi
  | overR _ o h =>
    simp only [List.cons.injEq] at hq
    obtain ⟨rfl, rfl⟩ := hq
    exact .over _ _ h
  | over _ o h =>
    simp only [List.cons.injEq] at hq
    obtain ⟨rfl, rfl⟩ := hq
    exact absurd rfl (hr _)
  | _ =>
    simp only [ucode, List.drop_succ_cons, List.drop_zero, List.cons.injEq] at hq
    obtain ⟨rfl, rfl⟩ := hq
    simp [Act.plain] at hp

theorem OnDispU.ret {e : EndsU} {s : Srv} {o : Outcome} {r : List Act} {l : Loc} (h : OnDispU e s (.ret o :: r) l) : e.Res o := by
  generalize hq : Act.ret o :: r = q at h
  cases h with
  | over _ o' h =>
    simp only [List.cons.injEq, Act.ret.injEq] at hq
    rw [hq.1]; exact h
  | _ =>
    simp [ucode] at hq

/-- All dispatches of messages with this pattern. -/
def DispUInv (e : EndsU) (y : Sys) : Prop :=
  ∀ (i : Nat) (g : Gor), y.gors[i]? = some g → (∀ o, (.byUrl e.p, o) ∈ g.log → e.Res o) ∧
    ∀ r, g.cur = some (.byUrl e.p, r) → OnDispU e y.srv r g.loc

theorem dispU_step {e : EndsU} {y : Sys} (h : DispUInv e y) (hv : ViewU e y.srv) (j : Nat) (hs : Stays y.srv (y.step j).srv) : DispUInv e (y.step j) := by
  have hu := step_staysU y j
  have key : ∀ (g' : Gor) (s : Srv) (w : Option Nat) (rd : List Nat), Stays y.srv s → StaysU y.srv s → ((∀ o, (.byUrl e.p, o) ∈ g'.log → e.Res o) ∧
      ∀ r, g'.cur = some (.byUrl e.p, r) → OnDispU e s r g'.loc) → DispUInv e ⟨s, w, rd, y.gors.set j g'⟩ := by
    intro g' s w rd hst hsu hg' i gi hi
    rcases get_set _ _ _ _ _ hi with ⟨rfl, rfl, _⟩ | ⟨_, hi⟩
    · exact hg'
    · exact ⟨(h i gi hi).1, fun r q => ((h i gi hi).2 r q).stays hst hsu⟩
  have mtx : ∀ {a : Act} {c : Call} {r : List Act} (g : Gor) (w : Option Nat) (rd : List Nat), y.gors[j]? = some g → g.cur = some (c, a :: r) →
      a.plain = false → (∀ o, a ≠ .ret o) → DispUInv e ⟨y.srv, w, rd, y.gors.set j { g with cur := some (c, r) }⟩ := by
    intro a c r g w rd hg hcur hp hr
    refine key _ _ _ _ (Stays.rfl' _) (StaysU.rfl' _) ⟨(h j g hg).1, ?_⟩
    intro r' q
    simp only [Option.some.injEq, Prod.mk.injEq] at q
    obtain ⟨rfl, rfl⟩ := q
    exact ((h j g hg).2 _ hcur).mutex hp hr
  have hw := went y j
  generalize y.step j = z at hw hs hu
  cases hw with
  | stay => exact h
  | begin g c cs hg hcur ht =>
    refine key _ _ _ _ (Stays.rfl' _) (StaysU.rfl' _) ⟨(h j g hg).1, ?_⟩
    intro r' q
    simp only [Option.some.injEq, Prod.mk.injEq] at q
    obtain ⟨rfl, rfl⟩ := q
    exact .at0 _
  | lock g c r hg hcur _ _ => exact mtx g _ _ hg hcur rfl (by intro o q; cases q)
  | unlock g c r hg hcur _ => exact mtx g _ _ hg hcur rfl (by intro o q; cases q)
  | rlock g c r hg hcur _ => exact mtx g _ _ hg hcur rfl (by intro o q; cases q)
  | runlock g c r hg hcur _ => exact mtx g _ _ hg hcur rfl (by intro o q; cases q)
  | ret g c o r hg hcur =>
    refine key _ _ _ _ (Stays.rfl' _) (StaysU.rfl' _) ⟨?_, by intro r q; cases q⟩
    intro o' hm
    rcases List.mem_cons.1 hm with q | hm
    · simp only [Prod.mk.injEq] at q
      obtain ⟨rfl, rfl⟩ := q
      exact ((h j g hg).2 _ hcur).ret
    · exact (h j g hg).1 o' hm
  | plain g c a r hg hcur hp =>
    refine key _ _ _ _ hs hu ⟨(h j g hg).1, ?_⟩
    intro r' q
    simp only [Option.some.injEq, Prod.mk.injEq] at q
    obtain ⟨rfl, rfl⟩ := q
    exact (((h j g hg).2 _ hcur).exec hv hp).stays hs hu

/-- If at all times dispatch may only find that, every dispatch ends accordingly. -/
theorem dispU_run {e : EndsU} {y : Sys} (h : DispUInv e y) (hs : SimpleInv y) (sched : List Nat)
    (hv : ∀ t, t <+: sched → ViewU e (y.run t).srv) : DispUInv e (y.run sched) := by
  induction sched generalizing y with
  | nil => exact h
  | cons j t ih =>
    have h1 := simple_step hs j
    exact ih (dispU_step h (hv [] List.nil_prefix) j h1.2) h1.1 (fun t' ht => hv (j :: t') (by simpa using ht))

theorem dispU_start (e : EndsU) (s : Srv) (progs : List (List Call)) : DispUInv e (start s progs) := by
  intro i g hg
  have hmem := List.mem_of_getElem? hg
  simp only [start, List.mem_map] at hmem
  obtain ⟨p, _, rfl⟩ := hmem
  exact ⟨(by intro o q; cases q), by intro r q; cases q⟩

end Register
end Tcpx
