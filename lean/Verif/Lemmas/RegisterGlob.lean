import Verif.Lemmas.RegisterId
/-!
# Lemmas about goroutines that register and dispatch: what nobody changes, and the global middlewares
-/
namespace Tcpx
namespace Register
open Spec

/-! ## The calls made are those of the program -/

/-- Calls over, the call under way, calls to come. -/
def Gor.all (g : Gor) : List Call := g.log.reverse.map (·.1) ++ ((g.cur.map (·.1)).toList ++ g.todo)

theorem step_all (y : Sys) (i j : Nat) : ((y.step j).gors[i]?).map Gor.all = (y.gors[i]?).map Gor.all := by
  have key : ∀ (g g' : Gor), y.gors[j]? = some g → g'.all = g.all →
      ((y.gors.set j g')[i]?).map Gor.all = (y.gors[i]?).map Gor.all := by
    intro g g' hg he
    by_cases e : j = i
    · subst e
      have hlt : j < y.gors.length := (List.getElem?_eq_some_iff.1 hg).1
      rw [List.getElem?_set_self hlt, hg]
      simp [he]
    · rw [List.getElem?_set_ne e]
  have hw := went y j
  generalize y.step j = z at hw
  cases hw with
  | stay => rfl
  | begin g c cs hg hcur ht => exact key g _ hg (by simp [Gor.all, hcur, ht])
  | lock g c r hg hcur _ _ => exact key g _ hg (by simp [Gor.all, hcur])
  | unlock g c r hg hcur _ => exact key g _ hg (by simp [Gor.all, hcur])
  | rlock g c r hg hcur _ => exact key g _ hg (by simp [Gor.all, hcur])
  | runlock g c r hg hcur _ => exact key g _ hg (by simp [Gor.all, hcur])
  | ret g c o r hg hcur => exact key g _ hg (by simp [Gor.all, hcur])
  | plain g c a r hg hcur hp => exact key g _ hg (by simp [Gor.all, hcur])

theorem run_all (y : Sys) (sched : List Nat) (i : Nat) : ((y.run sched).gors[i]?).map Gor.all = (y.gors[i]?).map Gor.all := by
  induction sched generalizing y with
  | nil => rfl
  | cons j t ih => exact (ih (y.step j)).trans (step_all y i j)

theorem all_progs (s : Srv) (progs : List (List Call)) (sched : List Nat) (i : Nat) (g : Gor)
    (hg : ((start s progs).run sched).gors[i]? = some g) : progs[i]? = some g.all := by
  have := run_all (start s progs) sched i
  rw [hg] at this
  simp only [start, List.getElem?_map, Option.map_map, Option.map_some] at this
  cases hp : progs[i]? with
  | none => rw [hp] at this; cases this
  | some p =>
    rw [hp] at this
    simp only [Option.map_some, Function.comp, Option.some.injEq] at this
    rw [this]; simp [Gor.all]

theorem run_length (y : Sys) (sched : List Nat) : (y.run sched).gors.length = y.gors.length := by
  have step : ∀ y : Sys, ∀ j, (y.step j).gors.length = y.gors.length := by
    intro y j
    have hw := went y j
    generalize y.step j = z at hw
    cases hw <;> simp
  induction sched generalizing y with
  | nil => rfl
  | cons j t ih => exact (ih (y.step j)).trans (step y j)

/-! ## What is not changed without `UnUse` and `RewriteHeartBeatHandler` -/

/-- The steps of the other calls. -/
def Act.simple : Act → Bool
  | .unLook _ => false
  | .callUnUse => false
  | .replAnchor => false
  | .readHb => false
  | .delHandler => false
  | .delIdAnchor => false
  | .setHb _ => false
  | _ => true

theorem code_simple (c : Call) (h : noUnUse c = true) : ∀ a ∈ c.code, a.simple = true := by
  cases c with
  | addHandler id hs =>
    simp only [Call.code, addHandlerCode]
    (repeat' split) <;> simp [locked, Act.simple]
  | useGlobal ms => simp [Call.code, locked, Act.simple]
  | use k f => simp [Call.code, Act.simple]
  | unUse k => simp [noUnUse] at h
  | any p hs => simp only [Call.code, anyCode]; (repeat' split) <;> simp [locked, Act.simple]
  | rewriteHeartBeat id' f => simp [noUnUse] at h
  | listen => simp [Call.code, Act.simple]
  | byId i => simp [Call.code, rlocked, Act.simple]
  | byUrl p => simp [Call.code, rlocked, Act.simple]

/-- What stays. -/
structure Stays (s s' : Srv) : Prop where
  anchors : ∃ ext, s'.mux.anchors = s.mux.anchors ++ ext
  hbId : s'.hbId = s.hbId
  hbThrough : s'.hbThrough = s.hbThrough
  authId : s'.authId = s.authId
  authThrough : s'.authThrough = s.authThrough
  handlers : ∀ id, (s.mux.handlers.get? id).isSome = true → (s'.mux.handlers.get? id).isSome = true
  anch : ∀ id i, s.mux.idAnchors.get? id = some i → s'.mux.idAnchors.get? id = some i

theorem Stays.rfl' (s : Srv) : Stays s s := ⟨⟨[], by simp⟩, rfl, rfl, rfl, rfl, fun _ h => h, fun _ _ h => h⟩

theorem Stays.trans {s s' s'' : Srv} (h : Stays s s') (h' : Stays s' s'') : Stays s s'' :=
  ⟨(by obtain ⟨a, ha⟩ := h.anchors; obtain ⟨b, hb⟩ := h'.anchors; exact ⟨a ++ b, by rw [hb, ha, List.append_assoc]⟩), h'.hbId.trans h.hbId, h'.hbThrough.trans h.hbThrough, h'.authId.trans h.authId,
    h'.authThrough.trans h.authThrough, fun id q => h'.handlers id (h.handlers id q), fun id i q => h'.anch id i (h.anch id i q)⟩

theorem exec_stays (a : Act) (ha : a.simple = true) (s : Srv) (l : Loc) (r : List Act) : Stays s (a.exec s l r).1 := by
  cases a <;> try (simp [Act.simple] at ha; done)
  case handle id f =>
    simp only [Act.exec]; split
    · exact Stays.rfl' _
    · refine ⟨⟨[], by simp⟩, rfl, rfl, rfl, rfl, ?_, fun _ _ h => h⟩
      intro id' h
      simp only [GoMap.get?_set]
      split
      · rfl
      · exact h
  case index => exact ⟨⟨[], by simp [Act.exec, Mux.bump]⟩, rfl, rfl, rfl, rfl, fun _ h => h, fun _ _ h => h⟩
  case idAnchor id =>
    simp only [Act.exec]; split
    · exact Stays.rfl' _
    · next hn =>
      refine ⟨⟨[], by simp⟩, rfl, rfl, rfl, rfl, fun _ h => h, ?_⟩
      intro id' i h
      simp only [GoMap.get?_set]
      split
      · next e => rw [e, hn] at h; cases h
      · exact h
  case addAnchor =>
    simp only [Act.exec]; split
    · exact Stays.rfl' _
    · dsimp only; unfold Mux.addMiddlewareAnchor
      split
      · exact Stays.rfl' _
      · exact ⟨⟨_, rfl⟩, rfl, rfl, rfl, rfl, fun _ h => h, fun _ _ h => h⟩
  case selfMw id ms =>
    simp only [Act.exec]; split
    · exact Stays.rfl' _
    · dsimp only; split <;> exact ⟨⟨[], by simp⟩, rfl, rfl, rfl, rfl, fun _ h => h, fun _ _ h => h⟩
  case urlPut =>
    simp only [Act.exec]
    unfold Mux.addURLPatternHandler
    split <;> exact ⟨⟨[], by simp⟩, rfl, rfl, rfl, rfl, fun _ h => h, fun _ _ h => h⟩
  all_goals simp only [Act.exec]
  all_goals (repeat' split)
  all_goals exact ⟨⟨[], by simp⟩, rfl, rfl, rfl, rfl, fun _ h => h, fun _ _ h => h⟩

theorem unwind_simple (r : List Act) : ∀ a ∈ unwind r, a.simple = true := by
  unfold unwind; split <;> simp [Act.simple]

theorem exec_simple (a : Act) (ha : a.simple = true) (s : Srv) (l : Loc) (r : List Act) (hr : ∀ b ∈ r, b.simple = true) :
    ∀ b ∈ (a.exec s l r).2.2, b.simple = true := by
  have hu := unwind_simple r
  cases a <;> simp only [Act.exec]
  all_goals (repeat' split)
  all_goals first
    | exact hr
    | exact hu
    | (intro b hb; simp only [List.mem_cons] at hb
       rcases hb with rfl | hb
       · rfl
       · exact hr b hb)
    | (simp [Act.simple, locked]; done)
    | (simp [Act.simple] at ha; done)

/-- Only simple steps are under way or to come. -/
def SimpleInv (y : Sys) : Prop :=
  ∀ (i : Nat) (g : Gor), y.gors[i]? = some g → (∀ c ∈ g.todo, noUnUse c = true) ∧ ∀ c r, g.cur = some (c, r) → ∀ a ∈ r, a.simple = true

theorem simple_step {y : Sys} (h : SimpleInv y) (j : Nat) : SimpleInv (y.step j) ∧ Stays y.srv (y.step j).srv := by
  have key : ∀ (g' : Gor) (s : Srv) (w : Option Nat) (rd : List Nat), ((∀ c ∈ g'.todo, noUnUse c = true) ∧ ∀ c r, g'.cur = some (c, r) → ∀ a ∈ r, a.simple = true) →
      SimpleInv ⟨s, w, rd, y.gors.set j g'⟩ := by
    intro g' s w rd hg' i gi hi
    rcases get_set _ _ _ _ _ hi with ⟨rfl, rfl, _⟩ | ⟨_, hi⟩
    · exact hg'
    · exact h i gi hi
  have hw := went y j
  generalize y.step j = z at hw
  have cons : ∀ {a : Act} {c : Call} {r : List Act} {g : Gor} {l : Loc}, y.gors[j]? = some g → g.cur = some (c, a :: r) →
      ((∀ c ∈ g.todo, noUnUse c = true) ∧ ∀ c' r', ({ g with cur := some (c, r), loc := l } : Gor).cur = some (c', r') → ∀ a ∈ r', a.simple = true) := by
    intro a c r g l hg hcur
    refine ⟨(h j g hg).1, ?_⟩
    intro c' r' e b hb
    simp only [Option.some.injEq, Prod.mk.injEq] at e
    obtain ⟨rfl, rfl⟩ := e
    exact (h j g hg).2 _ _ hcur b (List.mem_cons_of_mem _ hb)
  cases hw with
  | stay => exact ⟨h, Stays.rfl' _⟩
  | begin g c cs hg hcur ht =>
    have hg0 := (h j g hg).1
    rw [ht] at hg0
    refine ⟨key _ _ _ _ ⟨fun c hc => hg0 c (List.mem_cons_of_mem _ hc), ?_⟩, Stays.rfl' _⟩
    intro c' r' e
    simp only [Option.some.injEq, Prod.mk.injEq] at e
    obtain ⟨rfl, rfl⟩ := e
    exact code_simple c (hg0 c List.mem_cons_self)
  | lock g c r hg hcur _ _ => exact ⟨key _ _ _ _ (cons (g := g) (l := g.loc) hg hcur), Stays.rfl' _⟩
  | unlock g c r hg hcur _ => exact ⟨key _ _ _ _ (cons (g := g) (l := g.loc) hg hcur), Stays.rfl' _⟩
  | rlock g c r hg hcur _ => exact ⟨key _ _ _ _ (cons (g := g) (l := g.loc) hg hcur), Stays.rfl' _⟩
  | runlock g c r hg hcur _ => exact ⟨key _ _ _ _ (cons (g := g) (l := g.loc) hg hcur), Stays.rfl' _⟩
  | ret g c o r hg hcur => exact ⟨key _ _ _ _ ⟨(h j g hg).1, by intro c r e; cases e⟩, Stays.rfl' _⟩
  | plain g c a r hg hcur hp =>
    have hs := (h j g hg).2 _ _ hcur
    have ha := hs a List.mem_cons_self
    refine ⟨key _ _ _ _ ⟨(h j g hg).1, ?_⟩, exec_stays a ha _ _ _⟩
    intro c' r' e
    simp only [Option.some.injEq, Prod.mk.injEq] at e
    obtain ⟨rfl, rfl⟩ := e
    exact exec_simple a ha _ _ _ (fun b hb => hs b (List.mem_cons_of_mem _ hb))

theorem simple_start (s : Srv) (progs : List (List Call)) (hp : ∀ p ∈ progs, ∀ c ∈ p, noUnUse c = true) : SimpleInv (start s progs) := by
  intro i g hg
  have hmem := List.mem_of_getElem? hg
  simp only [start, List.mem_map] at hmem
  obtain ⟨p, hpm, rfl⟩ := hmem
  exact ⟨hp p hpm, by intro c r e; cases e⟩

theorem simple_run {y : Sys} (h : SimpleInv y) (sched : List Nat) : SimpleInv (y.run sched) ∧ Stays y.srv (y.run sched).srv := by
  induction sched generalizing y with
  | nil => exact ⟨h, Stays.rfl' _⟩
  | cons j t ih =>
    have h1 := simple_step h j
    have h2 := ih h1.1
    exact ⟨h2.1, h1.2.trans h2.2⟩

/-! ## The global middlewares -/

/-- What the call under way has appended. -/
def put (g : Gor) : List H :=
  match g.cur with
  | some (.useGlobal ms, r) => if r.length ≤ 2 then ms else []
  | _ => []

/-- The step appends global middlewares. -/
def Act.isGlobals : Act → Bool
  | .globals _ => true
  | _ => false

/-- Where a call is with respect to the global middlewares. -/
def OnGlob (c : Call) (r : List Act) : Prop :=
  (∃ ms, c = .useGlobal ms ∧ ∃ k, k ≤ 3 ∧ r = ([.lock, .globals ms, .unlock, .ret .returned] : List Act).drop k) ∨
  ((∀ ms, c ≠ .useGlobal ms) ∧ ∀ a ∈ r, a.isGlobals = false)

structure GlobInv (g0 : List H) (y : Sys) : Prop where
  ex : ∃ tags : List (Nat × H), y.srv.mux.globals = g0 ++ tags.map (·.2) ∧ (∀ t ∈ tags, t.1 < y.gors.length) ∧
    ∀ (i : Nat) (g : Gor), y.gors[i]? = some g →
      (tags.filter (·.1 = i)).map (·.2) = givenGlobals (g.log.reverse.map (·.1)) ++ put g
  code : ∀ (i : Nat) (g : Gor), y.gors[i]? = some g → ∀ c r, g.cur = some (c, r) → OnGlob c r

theorem givenGlobals_append (a b : List Call) : givenGlobals (a ++ b) = givenGlobals a ++ givenGlobals b := by
  induction a with
  | nil => rfl
  | cons c cs ih => cases c <;> simp [givenGlobals, ih]

theorem code_onGlob (c : Call) : OnGlob c c.code := by
  cases c with
  | useGlobal ms => exact .inl ⟨ms, rfl, 0, by omega, rfl⟩
  | addHandler id hs =>
    refine .inr ⟨(by intro ms e; cases e), ?_⟩
    simp only [Call.code, addHandlerCode]
    (repeat' split) <;> simp [locked, Act.isGlobals]
  | use k f => exact .inr ⟨(by intro ms e; cases e), by simp [Call.code, Act.isGlobals]⟩
  | unUse k => exact .inr ⟨(by intro ms e; cases e), by simp [Call.code, locked, Act.isGlobals]⟩
  | any p hs =>
    refine .inr ⟨(by intro ms e; cases e), ?_⟩
    simp only [Call.code, anyCode]; (repeat' split) <;> simp [locked, Act.isGlobals]
  | rewriteHeartBeat id' f =>
    refine .inr ⟨(by intro ms e; cases e), ?_⟩
    simp only [Call.code, addHandlerCode]
    (repeat' split) <;> simp [locked, Act.isGlobals]
  | listen => exact .inr ⟨(by intro ms e; cases e), by simp [Call.code, Act.isGlobals]⟩
  | byId i => exact .inr ⟨(by intro ms e; cases e), by simp [Call.code, rlocked, Act.isGlobals]⟩
  | byUrl p => exact .inr ⟨(by intro ms e; cases e), by simp [Call.code, rlocked, Act.isGlobals]⟩

theorem unwind_isGlobals (r : List Act) : ∀ a ∈ unwind r, a.isGlobals = false := by
  unfold unwind; split <;> simp [Act.isGlobals]

theorem exec_isGlobals (a : Act) (s : Srv) (l : Loc) (r : List Act) (hr : ∀ b ∈ r, b.isGlobals = false) :
    ∀ b ∈ (a.exec s l r).2.2, b.isGlobals = false := by
  have hu := unwind_isGlobals r
  cases a <;> simp only [Act.exec]
  all_goals (repeat' split)
  all_goals first
    | exact hr
    | exact hu
    | (intro b hb; simp only [locked, List.cons_append, List.nil_append, List.mem_cons, List.not_mem_nil, or_false] at hb
       rcases hb with rfl | hb
       · rfl
       · exact hr b hb)
    | (simp [locked, Act.isGlobals])

theorem exec_globals (a : Act) (ha : a.isGlobals = false) (s : Srv) (l : Loc) (r : List Act) :
    (a.exec s l r).1.mux.globals = s.mux.globals := by
  cases a <;> try (simp [Act.isGlobals] at ha; done)
  case replAnchor =>
    simp only [Act.exec]; split
    · rfl
    · dsimp only; unfold Mux.replaceMiddlewareAnchor
      split <;> rfl
  case addAnchor =>
    simp only [Act.exec]; split
    · rfl
    · dsimp only; unfold Mux.addMiddlewareAnchor
      split <;> rfl
  case urlPut =>
    simp only [Act.exec]
    unfold Mux.addURLPatternHandler
    split <;> rfl
  case selfMw =>
    simp only [Act.exec]; split
    · rfl
    · dsimp only; split <;> rfl
  all_goals simp only [Act.exec]
  all_goals (repeat' split)
  all_goals rfl

theorem onGlob_cases {ms : List H} {k : Nat} {a : Act} {r : List Act} (hk : k ≤ 3)
    (h : a :: r = ([.lock, .globals ms, .unlock, .ret .returned] : List Act).drop k) :
    r = ([.lock, .globals ms, .unlock, .ret .returned] : List Act).drop (k + 1) ∧ r.length = 3 - k ∧
    (k = 0 ∧ a = .lock ∨ k = 1 ∧ a = .globals ms ∨ k = 2 ∧ a = .unlock ∨ k = 3 ∧ a = .ret .returned) := by
  have hc : k = 0 ∨ k = 1 ∨ k = 2 ∨ k = 3 := by omega
  rcases hc with rfl | rfl | rfl | rfl <;>
    (simp only [List.drop_succ_cons, List.drop_zero, List.cons.injEq] at h
     obtain ⟨rfl, rfl⟩ := h
     simp)

theorem put_other {g : Gor} {c : Call} {r : List Act} (hc : g.cur = some (c, r)) (hn : ∀ ms, c ≠ .useGlobal ms) : put g = [] := by
  unfold put
  rw [hc]
  cases c <;> first | rfl | (exact absurd rfl (hn _))

theorem map_tag (j : Nat) (ms : List H) : ms.map ((fun t : Nat × H => t.2) ∘ fun m => (j, m)) = ms := by
  induction ms with
  | nil => rfl
  | cons m ms ih => simp only [List.map_cons, ih, Function.comp]

theorem filter_tag (j : Nat) (ms : List H) : (ms.map fun m => (j, m)).filter (fun t : Nat × H => decide (t.1 = j)) = ms.map fun m => (j, m) := by
  induction ms with
  | nil => rfl
  | cons m ms ih => simp [ih]

theorem glob_step {g0 : List H} {y : Sys} (h : GlobInv g0 y) (j : Nat) : GlobInv g0 (y.step j) := by
  obtain ⟨tags, ht1, ht2, ht3⟩ := h.ex
  -- a step that appends nothing
  have key : ∀ (g g' : Gor) (s : Srv) (w : Option Nat) (rd : List Nat), y.gors[j]? = some g → s.mux.globals = y.srv.mux.globals →
      givenGlobals (g'.log.reverse.map (·.1)) ++ put g' = givenGlobals (g.log.reverse.map (·.1)) ++ put g →
      (∀ c r, g'.cur = some (c, r) → OnGlob c r) → GlobInv g0 ⟨s, w, rd, y.gors.set j g'⟩ := by
    intro g g' s w rd hg hs hp hc
    refine ⟨⟨tags, hs.trans ht1, (by intro t ht; simp only [List.length_set]; exact ht2 t ht), ?_⟩, ?_⟩
    · intro i gi hi
      rcases get_set _ _ _ _ _ hi with ⟨rfl, rfl, _⟩ | ⟨_, hi⟩
      · rw [hp]; exact ht3 _ _ hg
      · exact ht3 i gi hi
    · intro i gi hi
      rcases get_set _ _ _ _ _ hi with ⟨rfl, rfl, _⟩ | ⟨_, hi⟩
      · exact hc
      · exact h.code i gi hi
  -- a step to the next one of the code
  have next : ∀ {a : Act} {c : Call} {r : List Act} {g : Gor} (s : Srv) (w : Option Nat) (rd : List Nat) (l : Loc) (r' : List Act),
      y.gors[j]? = some g → g.cur = some (c, a :: r) → a.isGlobals = false → s.mux.globals = y.srv.mux.globals →
      (∀ ms, c = .useGlobal ms → r' = r ∧ (a = .lock ∨ a = .unlock ∨ ∃ o, a = .ret o)) →
      ((∀ b ∈ r, b.isGlobals = false) → ∀ b ∈ r', b.isGlobals = false) → (∀ o, a ≠ .ret o) →
      GlobInv g0 ⟨s, w, rd, y.gors.set j { g with cur := some (c, r'), loc := l }⟩ := by
    intro a c r g s w rd l r' hg hcur ha hs hu hr' hret
    refine key g _ s w rd hg hs ?_ ?_
    · rcases h.code j g hg _ _ hcur with ⟨ms, rfl, k, hk, e⟩ | ⟨hn, _⟩
      · obtain ⟨rfl, hu⟩ := hu ms rfl
        obtain ⟨e1, e2, e3⟩ := onGlob_cases hk e
        congr 1
        unfold put
        simp only [hcur, List.length_cons, e2]
        rcases e3 with ⟨rfl, rfl⟩ | ⟨rfl, rfl⟩ | ⟨rfl, rfl⟩ | ⟨rfl, rfl⟩
        · rfl
        · simp [Act.isGlobals] at ha
        · rfl
        · exact absurd rfl (hret _)
      · rw [put_other hcur hn, put_other (g := { g with cur := some (c, r'), loc := l }) rfl hn]
    · intro c' r'' e
      simp only [Option.some.injEq, Prod.mk.injEq] at e
      obtain ⟨rfl, rfl⟩ := e
      rcases h.code j g hg _ _ hcur with ⟨ms, rfl, k, hk, e⟩ | ⟨hn, hb⟩
      · obtain ⟨rfl, hu⟩ := hu ms rfl
        obtain ⟨e1, e2, e3⟩ := onGlob_cases hk e
        refine .inl ⟨ms, rfl, k + 1, ?_, e1⟩
        rcases e3 with ⟨rfl, _⟩ | ⟨rfl, _⟩ | ⟨rfl, _⟩ | ⟨rfl, rfl⟩ <;> first | omega | exact absurd rfl (hret _)
      · exact .inr ⟨hn, hr' (fun b hb' => hb b (List.mem_cons_of_mem _ hb'))⟩
  have hw := went y j
  generalize y.step j = z at hw
  cases hw with
  | stay => exact h
  | begin g c cs hg hcur ht =>
    refine key g _ _ _ _ hg rfl ?_ ?_
    · congr 1
      unfold put
      simp only [hcur]
      cases c <;> simp [Call.code, locked]
    · intro c' r' e
      simp only [Option.some.injEq, Prod.mk.injEq] at e
      obtain ⟨rfl, rfl⟩ := e
      exact code_onGlob c
  | lock g c r hg hcur _ _ =>
    exact next y.srv (some j) y.readers g.loc r hg hcur rfl rfl (fun _ _ => ⟨rfl, .inl rfl⟩) (fun q => q) (by intro o e; cases e)
  | unlock g c r hg hcur _ =>
    exact next y.srv none y.readers g.loc r hg hcur rfl rfl (fun _ _ => ⟨rfl, .inr (.inl rfl)⟩) (fun q => q) (by intro o e; cases e)
  | rlock g c r hg hcur _ =>
    refine next y.srv y.writer _ g.loc r hg hcur rfl rfl ?_ (fun q => q) (by intro o e; cases e)
    rintro ms rfl
    rcases h.code j g hg _ _ hcur with ⟨ms, _, k, hk, e⟩ | ⟨hn, _⟩
    · obtain ⟨_, _, e3⟩ := onGlob_cases hk e
      rcases e3 with ⟨_, q⟩ | ⟨_, q⟩ | ⟨_, q⟩ | ⟨_, q⟩ <;> cases q
    · exact absurd rfl (hn _)
  | runlock g c r hg hcur _ =>
    refine next y.srv y.writer _ g.loc r hg hcur rfl rfl ?_ (fun q => q) (by intro o e; cases e)
    rintro ms rfl
    rcases h.code j g hg _ _ hcur with ⟨ms, _, k, hk, e⟩ | ⟨hn, _⟩
    · obtain ⟨_, _, e3⟩ := onGlob_cases hk e
      rcases e3 with ⟨_, q⟩ | ⟨_, q⟩ | ⟨_, q⟩ | ⟨_, q⟩ <;> cases q
    · exact absurd rfl (hn _)
  | ret g c o r hg hcur =>
    refine key g _ _ _ _ hg rfl ?_ (by intro c r e; cases e)
    simp only [List.reverse_cons, List.map_append, List.map_cons, List.map_nil, givenGlobals_append]
    rw [List.append_assoc]
    congr 1
    rcases h.code j g hg _ _ hcur with ⟨ms, rfl, k, hk, e⟩ | ⟨hn, _⟩
    · obtain ⟨e1, e2, e3⟩ := onGlob_cases hk e
      rcases e3 with ⟨_, q⟩ | ⟨_, q⟩ | ⟨_, q⟩ | ⟨rfl, _⟩ <;> try (cases q; done)
      unfold put
      simp only [hcur, List.length_cons, e2]
      simp [givenGlobals]
    · rw [put_other hcur hn]
      cases c <;> first | rfl | (exact absurd rfl (hn _))
  | plain g c a r hg hcur hp =>
    rcases h.code j g hg _ _ hcur with ⟨ms, rfl, k, hk, e⟩ | ⟨hn, hb⟩
    · obtain ⟨e1, e2, e3⟩ := onGlob_cases hk e
      rcases e3 with ⟨_, rfl⟩ | ⟨rfl, rfl⟩ | ⟨_, rfl⟩ | ⟨_, rfl⟩ <;> try (simp [Act.plain] at hp; done)
      have hlt : j < y.gors.length := (List.getElem?_eq_some_iff.1 hg).1
      refine ⟨⟨tags ++ ms.map fun m => (j, m), ?_, ?_, ?_⟩, ?_⟩
      · simp only [Act.exec, ht1, List.map_append, List.map_map, List.append_assoc]
        rw [map_tag]
      · intro t ht
        simp only [List.length_set]
        rcases List.mem_append.1 ht with ht | ht
        · exact ht2 t ht
        · simp only [List.mem_map] at ht
          obtain ⟨m, _, rfl⟩ := ht
          exact hlt
      · intro i gi hi
        rcases get_set _ _ _ _ _ hi with ⟨rfl, rfl, _⟩ | ⟨hne, hi⟩
        · have := ht3 _ _ hg
          rw [List.filter_append, List.map_append, this, List.append_assoc]
          congr 1
          have hp0 : put g = [] := by unfold put; rw [hcur]; simp [e2]
          rw [hp0]
          unfold put
          simp only [Act.exec, e2]
          rw [filter_tag]
          simp only [List.map_map, map_tag]; simp
        · have := ht3 i gi hi
          rw [List.filter_append, List.map_append, this]
          have : ((ms.map fun m => (j, m)).filter (fun t : Nat × H => decide (t.1 = i))) = [] := by
            simp [List.filter_map, Ne.symm hne]
          rw [this]; simp
      · intro i gi hi
        rcases get_set _ _ _ _ _ hi with ⟨rfl, rfl, _⟩ | ⟨hne, hi⟩
        · intro c' r' e
          simp only [Act.exec, Option.some.injEq, Prod.mk.injEq] at e
          obtain ⟨rfl, rfl⟩ := e
          exact .inl ⟨ms, rfl, 2, by omega, e1⟩
        · exact h.code i gi hi
    · have ha := hb a List.mem_cons_self
      refine next _ _ _ _ _ hg hcur ha (exec_globals a ha _ _ _) (fun ms e => absurd e (hn ms)) (exec_isGlobals a _ _ _) ?_
      rintro o rfl; simp [Act.plain] at hp

theorem glob_run {g0 : List H} {y : Sys} (h : GlobInv g0 y) (sched : List Nat) : GlobInv g0 (y.run sched) := by
  induction sched generalizing y with
  | nil => exact h
  | cons j t ih => exact ih (glob_step h j)

theorem glob_start (s : Srv) (progs : List (List Call)) : GlobInv s.mux.globals (start s progs) := by
  refine ⟨⟨[], by simp [start], by simp, ?_⟩, ?_⟩
  · intro i g hg
    have hmem := List.mem_of_getElem? hg
    simp only [start, List.mem_map] at hmem
    obtain ⟨p, _, rfl⟩ := hmem
    rfl
  · intro i g hg
    have hmem := List.mem_of_getElem? hg
    simp only [start, List.mem_map] at hmem
    obtain ⟨p, _, rfl⟩ := hmem
    intro c r e; cases e

end Register
end Tcpx
