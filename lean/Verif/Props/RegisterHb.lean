import Verif.Props.RegisterUnUse
/-!
# C145, C146: the heartbeat handler is rewritten while goroutines register and dispatch
-/
namespace Tcpx
open Register Spec

/-- C146 (partial): also when the handler of the heartbeat is rewritten meanwhile, any number of times and by any goroutines, every message with
an id registered before that is not, and does not become, the id of the heartbeat is given to what it was given to before, with only global
middlewares added after the earlier ones.  No dispatch panics.
Missing: the ids of the heartbeat (`C146_rewrite_violated`); a middleware in use again after `UnUse` before the goroutines start
(`C146_again_violated`). -/
theorem C146_rewrite_others_partial (h : List RegEv) (hno : ∀ k, inUse k h = true → everEnded k h = false) (id : Int32) (pre : List RegEv) (hs : List H)
    (hr : registration id h = some (pre, hs)) (hhb : (heartbeatCfg h).2 ≠ id) (progs : List (List Call))
    (hp : ∀ p ∈ progs, ∀ c ∈ p, registersId id c = false ∧ ∀ f, c ≠ .rewriteHeartBeat id f)
    (sched : List Nat) (g : Gor) (hg : g ∈ ((start (runHist h) progs).run sched).gors) (o : Outcome) (ho : (.byId id, o) ∈ g.log) :
    (∃ f, (runHist h).dispatchId id = .direct f ∧ o = .disp (.direct f)) ∨
    ∃ rest gs, (runHist h).dispatchId id = .chain (globals h ++ rest) ∧ o = .disp (.chain (globals h ++ gs ++ rest)) ∧
      ∀ m ∈ gs, ∃ p ∈ progs, ∃ ms, .useGlobal ms ∈ p ∧ m ∈ ms :=
  C146_unuse_others_partial h hno id pre hs hr progs (.inr ⟨hhb, fun p hpm c hcm => (hp p hpm c hcm).2⟩)
    (fun p hpm c hcm => (hp p hpm c hcm).1) sched g hg o ho

set_option maxRecDepth 8000 in
-- goroutine 0 dispatches messages with id 5, a pattern and the heartbeat's old id, while others rewrite the handler of the heartbeat, twice
example :
    let h : List RegEv := [.any "/a" [12], .addHandler 5 [6, 10], .use "k" 3, .addHandler 1 [7], .setHeartBeat true false 1]
    let progs : List (List Call) := [[.byId 5, .byId 1, .byId 5, .byUrl "/a"], [.rewriteHeartBeat 2 8, .unUse "k"], [.rewriteHeartBeat 4 9]]
    registration 5 h = some ([.use "k" 3, .addHandler 1 [7], .setHeartBeat true false 1], [6, 10]) ∧ (heartbeatCfg h).2 ≠ 5 ∧
    (∀ p ∈ progs, ∀ c ∈ p, registersId 5 c = false ∧ ∀ f, c ≠ .rewriteHeartBeat 5 f) ∧ inUse "k" h = true ∧ everEnded "k" h = false ∧
    (((start (runHist h) progs).run ((List.replicate 60 [0, 1, 2]).flatten)).gors.map (·.log))[0]? =
      some [(.byUrl "/a", .disp (.chain [3, 12])), (.byId 5, .disp (.chain [3, 6, 10])), (.byId 1, .disp .nothing),
        (.byId 5, .disp (.chain [3, 6, 10]))] := by
  refine ⟨by decide, by decide, ?_, by decide, by decide, by decide⟩
  intro p hp c hc
  simp only [List.mem_cons, List.not_mem_nil, or_false] at hp
  rcases hp with rfl | rfl | rfl
  all_goals simp only [List.mem_cons, List.not_mem_nil, or_false] at hc
  · rcases hc with rfl | rfl | rfl | rfl <;> exact ⟨by decide, by intro f e; cases e⟩
  · rcases hc with rfl | rfl
    · exact ⟨by decide, by intro f e; exact absurd (Call.rewriteHeartBeat.inj e).1 (by decide)⟩
    · exact ⟨by decide, by intro f e; cases e⟩
  · subst hc
    exact ⟨by decide, by intro f e; exact absurd (Call.rewriteHeartBeat.inj e).1 (by decide)⟩

set_option maxRecDepth 8000 in
-- C145, C146: goroutine 0 ends the use of "k" and registers id 5 while goroutine 1 rewrites the handler of the heartbeat and goroutine 2 dispatches
example :
    let h : List RegEv := [.use "m" 4, .use "k" 3, .addHandler 1 [7], .setHeartBeat true false 1]
    let progs : List (List Call) := [[.unUse "k", .addHandler 5 [6, 10]], [.rewriteHeartBeat 2 8, .rewriteHeartBeat 3 9], [.byId 5, .byId 5]]
    let y := (start (runHist h) progs).run (List.replicate 3 2 ++ (List.replicate 40 [0, 1]).flatten ++ List.replicate 20 2)
    NotRewritten h 5 progs ∧ y.gors.all (fun g => g.cur.isNone && g.todo.isEmpty) = true ∧
    (y.gors.map (·.log))[2]? = some [(.byId 5, .disp (.chain [4, 6, 10])), (.byId 5, .disp .nothing)] ∧
    y.srv.dispatchId 5 = .chain [4, 6, 10] ∧ y.srv.dispatchId 3 = .direct 9 ∧ y.srv.dispatchId 2 = .nothing ∧
    (∀ j, j ≠ 0 → ∀ q, progs[j]? = some q → ∀ c ∈ q, names "k" c = false) ∧ period "k" (periodAt "k" h) [.unUse "k"] = .off := by
  refine ⟨.inr ⟨by decide, ?_⟩, by decide, by decide, by decide, by decide, by decide, ?_, by decide⟩
  · intro p hp c hc f
    simp only [List.mem_cons, List.not_mem_nil, or_false] at hp
    rcases hp with rfl | rfl | rfl
    all_goals simp only [List.mem_cons, List.not_mem_nil, or_false] at hc
    all_goals rcases hc with rfl | rfl <;> intro e <;> first | (cases e; done) | exact absurd (Call.rewriteHeartBeat.inj e).1 (by decide)
  · intro j hj q hq
    rcases j with _ | _ | _ | j
    · exact absurd rfl hj
    · cases hq; decide
    · cases hq; decide
    · simp at hq

set_option maxRecDepth 8000 in
/-- C146 fails for the heartbeat itself: it has a handler before and after `RewriteHeartBeatHandler`, with the same id, but a heartbeat
that arrives meanwhile is dropped; and if heartbeats go through the middlewares, its dispatch may panic. -/
theorem C146_rewrite_violated :
    (∃ sched,
      let h : List RegEv := [.addHandler 1 [7], .setHeartBeat true false 1]
      let y := (start (runHist h) [[.byId 1, .byId 1, .byId 1], [.rewriteHeartBeat 1 8]]).run sched
      AllDone y ∧ (y.gors.map (·.log))[0]? = some [(.byId 1, .disp (.direct 8)), (.byId 1, .disp .nothing), (.byId 1, .disp (.direct 7))]) ∧
    ∃ sched,
      let h : List RegEv := [.addHandler 1 [7], .setHeartBeat true true 1]
      let y := (start (runHist h) [[.byId 1, .byId 1], [.rewriteHeartBeat 1 8]]).run sched
      AllDone y ∧ (y.gors.map (·.log))[0]? = some [(.byId 1, .disp (.chain [8])), (.byId 1, .panicked)] := by
  refine ⟨⟨[0, 0, 0, 0, 1, 1, 1, 0, 0, 0] ++ List.replicate 20 1 ++ List.replicate 20 0, ?_⟩,
    [0, 0, 0, 1, 1, 1, 1, 0, 0, 0, 0, 0] ++ List.replicate 20 1 ++ List.replicate 20 0, ?_⟩
  · exact ⟨by unfold AllDone; decide, by decide⟩
  · exact ⟨by unfold AllDone; decide, by decide⟩

set_option maxRecDepth 8000 in
/-- C145 fails for `RewriteHeartBeatHandler`: of two calls one after the other the second takes away the handler of the first; of two calls
at the same time both may leave their handlers, though only one id is that of the heartbeat. -/
theorem C145_rewrite_violated :
    let h : List RegEv := [.addHandler 1 [7], .setHeartBeat true false 1]
    (∀ a b : Int32 × H, (a = (2, 8) ∧ b = (3, 9)) ∨ (a = (3, 9) ∧ b = (2, 8)) →
      (inTurn (runHist h) [.rewriteHeartBeat a.1 a.2, .rewriteHeartBeat b.1 b.2]).1.dispatchId a.1 = .nothing) ∧
    ∃ sched, let y := (start (runHist h) [[.rewriteHeartBeat 2 8], [.rewriteHeartBeat 3 9]]).run sched
      AllDone y ∧ y.srv.dispatchId 2 = .chain [8] ∧ y.srv.dispatchId 3 = .direct 9 := by
  refine ⟨?_, (List.replicate 20 [0, 1]).flatten, ?_⟩
  · rintro a b (⟨rfl, rfl⟩ | ⟨rfl, rfl⟩) <;> decide
  · exact ⟨by unfold AllDone; decide, by decide, by decide⟩

end Tcpx
