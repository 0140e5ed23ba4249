import Verif.Lemmas.RegisterHist
import Verif.Lemmas.RegisterUrl
import Verif.Lemmas.RegisterDel
/-!
# Registration by several goroutines, and while messages are handled: C145, C146

`start s progs` is a server in state `s` and one goroutine for each list of calls in `progs`; `run sched` lets the goroutines take
their steps in the order `sched`.  A step is one access to a field of the mux or one operation of its mutex.
-/
namespace Tcpx
open Spec Register

/-! ## C145 -/

/-- C145: the accesses of a step, on which the clashes of C145 and C146 rest, are those it makes: it changes a field only if it is said to
write it, and how it goes on and what it writes depend, apart from the atomic counter, only on the fields that it is said to access. -/
theorem C145_accesses (a : Act) (s t : Srv) (l : Loc) (rest : List Act) :
    (∀ f, (f, true) ∉ a.access → sameIn (a.exec s l rest).1 s f) ∧
    ((∀ f b, (f, b) ∈ a.access → sameIn s t f) → s.mux.seed = t.mux.seed →
      (a.exec s l rest).2 = (a.exec t l rest).2 ∧
      ∀ f, (f, true) ∈ a.access → sameIn (a.exec s l rest).1 (a.exec t l rest).1 f) := by
  constructor
  · intro f h
    cases a <;> cases f <;> simp [Act.access] at h <;> simp only [Act.exec] <;> (repeat' split) <;> 
      simp [sameIn, Mux.bump, Mux.addMiddlewareAnchor, Mux.replaceMiddlewareAnchor, Mux.addURLPatternHandler] <;> (repeat' split) <;> rfl
  · intro h hseed
    obtain ⟨⟨sd1, a1, b1, c1, d1, e1, f1, g1, h1, i1⟩, j1, k1, l1, m1, n1, o1, p1⟩ := s
    obtain ⟨⟨sd2, a2, b2, c2, d2, e2, f2, g2, h2, i2⟩, j2, k2, l2, m2, n2, o2, p2⟩ := t
    simp only at hseed
    subst hseed
    cases a <;> simp [Act.access, sameIn] at h ⊢ <;>
      (try (obtain ⟨h, h'⟩ := h)) <;> (try subst h) <;> (try subst h') <;> simp only [Act.exec]
    all_goals (try exact ⟨rfl, rfl⟩)
    all_goals (try rfl)
    case replAnchor =>
      cases l.anchor with
      | none => exact ⟨rfl, rfl, rfl⟩
      | some a =>
        cases hg : f1.get? a.key <;> simp [Mux.replaceMiddlewareAnchor, hg, Out.panic, Out.ret]
    all_goals (try (obtain ⟨rfl, rfl, rfl, rfl, rfl, rfl⟩ := h'))
    all_goals (try simp only [Mux.addMiddlewareAnchor, Mux.addURLPatternHandler])
    all_goals (repeat' split)
    all_goals first | rfl | exact ⟨rfl, rfl⟩ | exact ⟨rfl, rfl, rfl⟩ | (simp_all; done)

/-- C145: one goroutine alone leaves, by whatever schedule, the server and the outcomes that the calls in turn have. -/
theorem C145_alone (s : Srv) (cs : List Call) (sched : List Nat) (hd : AllDone ((start s [cs]).run sched)) :
    ((start s [cs]).run sched).srv = (inTurn s cs).1 ∧
    ∃ g, ((start s [cs]).run sched).gors = [g] ∧ g.log = (inTurn s cs).2 := by
  have hst : start s [cs] = sole s none {} cs [] := rfl
  have hgets : Gets (start s [cs]) fun y => y.srv = (inTurn s cs).1 ∧ AllDone y ∧ ∃ g, y.gors = [g] ∧ g.log = (inTurn s cs).2 := by
    rw [hst]
    refine gets_calls cs s {} [] fun l' => ⟨rfl, ?_, _, rfl, by simp⟩
    intro g hg
    simp only [sole, List.mem_singleton] at hg
    subst hg
    exact ⟨rfl, rfl⟩
  obtain ⟨n, h1, h2, h3⟩ := hgets
  have e : (start s [cs]).run sched = (start s [cs]).run (List.replicate n 0) := by
    rw [run_sole rfl sched] at hd ⊢
    generalize sched.count 0 = m at hd ⊢
    rcases Nat.le_total m n with hmn | hmn
    · obtain ⟨k, rfl⟩ := Nat.exists_eq_add_of_le hmn
      rw [← List.replicate_append_replicate, run_append, done_run hd]
    · obtain ⟨k, rfl⟩ := Nat.exists_eq_add_of_le hmn
      rw [← List.replicate_append_replicate, run_append, done_run h2]
  rw [e]
  exact ⟨h1, h3⟩

/-- C145: the mutex of the mux never leaves the goroutines stuck. -/
theorem C145_not_stuck (s : Srv) (progs : List (List Call)) (sched : List Nat) (hd : ¬ AllDone ((start s progs).run sched)) :
    ∃ i, ((start s progs).run sched).step i ≠ (start s progs).run sched :=
  progress (start_inv s progs sched) hd

/-- C145: there is a number of steps after which all calls are over, whatever the schedule. -/
theorem C145_ends (s : Srv) (progs : List (List Call)) : ∃ B, ∀ sched, moves (start s progs) sched ≤ B :=
  ⟨_, fun sched => moves_le (start_inv s progs []) _ (Nat.le_refl _) sched⟩

/-- C145 (partial): calls of `AddHandler` and `UseGlobal` never access the same memory at once.
Missing: `Use` (`C145_use_violated`) and `Any` (`C145_any_violated`). -/
theorem C145_no_race_partial (s : Srv) (progs : List (List Call))
    (hp : ∀ p ∈ progs, ∀ c ∈ p, (∃ id hs, c = .addHandler id hs) ∨ ∃ ms, c = .useGlobal ms) (sched : List Nat) :
    ¬ RegClash ((start s progs).run sched) := by
  let G : Fld → Bool := fun x => decide (x ≠ .allowAdd)
  let A : Hold → Act → Prop := fun h a => guardedBy G h a ∧ a.branches = false
  have hc : Closed A := by
    refine ⟨?_, ?_, ?_, ?_, ?_⟩
    · intro h a ha hb; rw [ha.2] at hb; cases hb
    · intro h k f ha; cases ha.2
    · intro h n ha; cases ha.2
    · intro h n j ha; cases ha.2
    · intro h p hs ha; cases ha.2
  refine no_clash (linv_run hc (linv_start s progs ?_) sched) G fun k a ha => ha.1
  intro p hpm c hcm
  rcases hp p hpm c hcm with ⟨id, hs, rfl⟩ | ⟨ms, rfl⟩
  · simp only [Call.code, addHandlerCode]
    split
    · simp [Ok]
    · split <;> simp [Ok, Register.locked, A, G, guardedBy, Act.access, Act.branches]
  · simp [Call.code, Ok, Register.locked, A, G, guardedBy, Act.access, Act.branches]

/-- What a message with the id is given to when all calls are over. -/
theorem final_dispatch (h : List RegEv) (hl : Spec.locked h = false) (hno : ∀ k, inUse k h = true → everEnded k h = false) (id : Int32)
    (hid : ∀ hs, RegEv.addHandler id hs ∉ h) (progs : List (List Call)) (hp : ∀ p ∈ progs, ∀ c ∈ p, noUnUse c = true) (hk : FreshKeys h progs)
    (hex : ∃ p ∈ progs, ∃ hs, hs ≠ [] ∧ .addHandler id hs ∈ p) (sched : List Nat) (hd : AllDone ((start (runHist h) progs).run sched)) :
    ∃ (i : Nat) (g : Gor) (before after : List (Call × Outcome)) (hs own gs us : List H) (f : H) (cut : Nat → Nat),
      ((start (runHist h) progs).run sched).gors[i]? = some g ∧
      g.log.reverse = before ++ (.addHandler id hs, .returned) :: after ∧ hs.getLast? = some f ∧ (hs.length > 1 → own = hs.dropLast) ∧
      (own = [] ∨ ∃ p ∈ progs, ∃ hs', .addHandler id hs' ∈ p ∧ hs'.length > 1 ∧ own = hs'.dropLast) ∧
      Interleaved gs (fun i => givenGlobals (progs[i]?.getD [])) ∧ cut i = before.length ∧ UsedUpTo progs cut us ∧
      ((start (runHist h) progs).run sched).srv.dispatchId id =
        if (id = (heartbeatCfg h).2 ∧ (heartbeatCfg h).1 = false) ∨ (id = (authCfg h).2 ∧ (authCfg h).1 = false) then .direct f
        else .chain (globals h ++ gs ++ (inUseAt h h ++ us) ++ own ++ [f]) := by
  obtain ⟨f1, f2, f3⟩ := fresh_id id h hid
  have hinv := idInv_run (idInv_start id (runHist h) progs (allow_of h hl) f1 f2 f3)
    (notRewritten_not (h := h) (notRewritten_of fun p hpm c hcm => noUnUse_rewrites (hp p hpm c hcm)))
    (fun t => (notRewritten_run (notRewritten_of fun p hpm c hcm => noUnUse_rewrites (hp p hpm c hcm)) t).1) sched
  obtain ⟨gs, hg1, hg2⟩ := all_interleaved (runHist h) progs sched hd
  have hst := (simple_run (simple_start (runHist h) progs hp) sched).2
  have hall := all_progs (runHist h) progs sched
  have hnew := new_anchors h hno id hid progs hp hk sched
  have hlen0 : ((start (runHist h) progs).run sched).gors.length = progs.length := by
    rw [run_length]; simp [start]
  generalize (start (runHist h) progs).run sched = y at *
  -- somebody has registered
  have hsome : ∃ f, y.srv.mux.handlers.get? id = some f := by
    cases hm : y.srv.mux.handlers.get? id with
    | some f => exact ⟨f, rfl⟩
    | none =>
      exfalso
      obtain ⟨p, hpm, hs, hne, hmem⟩ := hex
      obtain ⟨i, hi⟩ := List.mem_iff_getElem?.1 hpm
      have hno' : ∀ g ∈ y.gors, ¬ HalfWay id g := by
        rintro g hg ⟨hs, f, r, k, q, _⟩
        rw [(hd g hg).1] at q; cases q
      have hself : y.srv.mux.selfMw.get? id = none := by
        cases hs' : y.srv.mux.selfMw.get? id with
        | none => rfl
        | some ms =>
          rcases (hinv.self ms hs').2 with q | ⟨g, hg, q⟩
          · rw [hm] at q; cases q
          · exact absurd q (hno' g hg)
      cases hg : y.gors[i]? with
      | none =>
        have hlen : y.gors.length ≤ i := List.getElem?_eq_none_iff.1 hg
        rw [List.getElem?_eq_none (by omega)] at hi; cases hi
      | some g =>
        have hga := hall i g hg
        rw [hi, Option.some.injEq] at hga
        obtain ⟨q1, q2⟩ := hd g (List.mem_of_getElem? hg)
        rw [hga] at hmem
        simp only [Gor.all, q1, q2, Option.map_none, Option.toList_none, List.append_nil, List.map_reverse, List.mem_reverse,
          List.mem_map] at hmem
        obtain ⟨⟨c, o⟩, hm1, rfl⟩ := hmem
        have hgi := hinv.gor i g hg
        rcases hgi.out hs o hm1 with rfl | rfl
        · have := (hgi.ret hs hm1).2.1
          rw [hm] at this
          exact hne (by simpa using this.symm)
        · rcases hgi.ref hs hm1 hne with q | q
          · rw [hself] at q; cases q
          · rw [hm] at q; cases q
  obtain ⟨f, hf⟩ := hsome
  have hanch : ∃ k, y.srv.mux.idAnchors.get? id = some k := by
    obtain ⟨j, g, hs, hj, _, _, _, hlog⟩ := hinv.handler hf
    exact Option.isSome_iff_exists.1 ((hinv.gor j g hj).ret hs (hlog (hd g (List.mem_of_getElem? hj)).1)).2.2.2
  obtain ⟨k, hk⟩ := hanch
  obtain ⟨j, g, pre, post, hs, us, cut, hj, _, hlog, hcut, hus, hat⟩ := hnew k hk
  obtain ⟨before, after, hlg, rfl⟩ := hlog (hd g (List.mem_of_getElem? hj)).1
  obtain ⟨_, hlast, hself, _⟩ := (hinv.gor j g hj).ret hs (by rw [← List.mem_reverse, hlg]; simp)
  rw [hf] at hlast
  refine ⟨j, g, before, after, hs, (y.srv.mux.selfMw.get? id).getD [], gs, us, f, cut, hj, hlg, hlast.symm, ?_, ?_, hg2, ?_, hus, ?_⟩
  · intro hlen; rw [hself hlen]; rfl
  · cases hm : y.srv.mux.selfMw.get? id with
    | none => exact .inl rfl
    | some ms =>
      obtain ⟨p, hpm, hs', a, b, c⟩ := (hinv.self ms hm).1
      exact .inr ⟨p, hpm, hs', a, b, c⟩
  · rw [hcut]; simp
  · have hb := bypass_iff h id hst
    unfold Bypass bypasses at hb
    unfold Srv.dispatchId
    simp only [hf, hk, hat, hg1, globals_eq]
    by_cases hby : (id = (heartbeatCfg h).2 ∧ (heartbeatCfg h).1 = false) ∨ (id = (authCfg h).2 ∧ (authCfg h).1 = false)
    · rw [if_pos hby]
      rcases hb.2 hby with q | q
      · rw [if_pos q]
      · rw [if_pos q, ite_self]
    · rw [if_neg hby, if_neg (fun q => hby (hb.1 (.inl q))), if_neg (fun q => hby (hb.1 (.inr q)))]

/-- C145 (partial): of the calls of `AddHandler` for an id that goroutines make at the same time exactly one returns, the others
panic; afterwards a message with the id is given to the handler of that call, behind all global middlewares (each goroutine's in
its order), the middlewares in use, those that goroutines put in use before (all of the same goroutine's, and a first part of each
other's, each in its order), and the call's own middlewares if it has any.
Missing: programs with `UnUse`, `RewriteHeartBeatHandler` (`C145_unuse_partial`) and twice the same key for `Use` (`C145_use_twice_violated`); if the call has
no middlewares of its own, those of another call may be there (`C145_mixture_violated`). -/
theorem C145_one_partial (h : List RegEv) (hl : Spec.locked h = false) (hno : ∀ k, inUse k h = true → everEnded k h = false) (id : Int32)
    (hid : ∀ hs, RegEv.addHandler id hs ∉ h) (progs : List (List Call)) (hp : ∀ p ∈ progs, ∀ c ∈ p, noUnUse c = true) (hk : FreshKeys h progs)
    (hex : ∃ p ∈ progs, ∃ hs, hs ≠ [] ∧ .addHandler id hs ∈ p) (sched : List Nat) (hd : AllDone ((start (runHist h) progs).run sched)) :
    (((start (runHist h) progs).run sched).gors.map fun g => g.log.countP fun e => registersId id e.1 && e.2 == .returned).sum = 1 ∧
    (∀ g ∈ ((start (runHist h) progs).run sched).gors, ∀ hs o, (.addHandler id hs, o) ∈ g.log → o = .returned ∨ o = .panicked) ∧
    ∃ (n : Nat) (g : Gor) (before after : List (Call × Outcome)) (hs own gs us : List H) (f : H) (cut : Nat → Nat),
      ((start (runHist h) progs).run sched).gors[n]? = some g ∧
      g.log.reverse = before ++ (.addHandler id hs, .returned) :: after ∧ hs.getLast? = some f ∧ (hs.length > 1 → own = hs.dropLast) ∧
      Interleaved gs (fun i => givenGlobals (progs[i]?.getD [])) ∧ cut n = before.length ∧ UsedUpTo progs cut us ∧
      ((start (runHist h) progs).run sched).srv.dispatchId id =
        if (id = (heartbeatCfg h).2 ∧ (heartbeatCfg h).1 = false) ∨ (id = (authCfg h).2 ∧ (authCfg h).1 = false) then .direct f
        else .chain (globals h ++ gs ++ (inUseAt h h ++ us) ++ own ++ [f]) := by
  obtain ⟨f1, f2, f3⟩ := fresh_id id h hid
  have hinv := idInv_run (idInv_start id (runHist h) progs (allow_of h hl) f1 f2 f3)
    (notRewritten_not (h := h) (notRewritten_of fun p hpm c hcm => noUnUse_rewrites (hp p hpm c hcm)))
    (fun t => (notRewritten_run (notRewritten_of fun p hpm c hcm => noUnUse_rewrites (hp p hpm c hcm)) t).1) sched
  obtain ⟨i, g, before, after, hs, own, gs, us, f, cut, q1, q2, q3, q4, _, q6, q7, q8, q9⟩ := final_dispatch h hl hno id hid progs hp hk hex sched hd
  refine ⟨?_, ?_, i, g, before, after, hs, own, gs, us, f, cut, q1, q2, q3, q4, q6, q7, q8, q9⟩
  · have hsum := hinv.sum
    have hh := (hinv.gor i g q1).ret hs (by rw [← List.mem_reverse, q2]; simp)
    rw [hh.2.1, q3] at hsum
    simp only [Option.isSome_some, if_true] at hsum
    rw [← hsum]
    congr 1
    apply List.map_congr_left
    intro g' hg'
    unfold passes passing
    rw [(hd g' hg').1]
    simp
  · intro g' hg' hs' o hm
    obtain ⟨j, hj⟩ := List.mem_iff_getElem?.1 hg'
    exact (hinv.gor j g' hj).out hs' o hm

/-- C145 (partial): if all registrations of an id give the same handlers (so if there is only one), a message with the id is given to
exactly these, behind all global middlewares, the middlewares in use, and those that goroutines put in use before: all that the
goroutine of the registration did, and a first part of each other's.  This is so whatever the other goroutines register.
Missing: programs with `UnUse`, `RewriteHeartBeatHandler` (`C145_unuse_partial`) and twice the same key for `Use` (`C145_use_twice_violated`). -/
theorem C145_registered_partial (h : List RegEv) (hl : Spec.locked h = false) (hno : ∀ k, inUse k h = true → everEnded k h = false) (id : Int32)
    (hid : ∀ hs, RegEv.addHandler id hs ∉ h) (progs : List (List Call)) (hp : ∀ p ∈ progs, ∀ c ∈ p, noUnUse c = true) (hk : FreshKeys h progs)
    (hs : List H) (hne : hs ≠ []) (hex : ∃ p ∈ progs, .addHandler id hs ∈ p)
    (honly : ∀ p ∈ progs, ∀ hs', .addHandler id hs' ∈ p → hs' = hs)
    (hb : ¬ ((id = (heartbeatCfg h).2 ∧ (heartbeatCfg h).1 = false) ∨ (id = (authCfg h).2 ∧ (authCfg h).1 = false)))
    (sched : List Nat) (hd : AllDone ((start (runHist h) progs).run sched)) :
    ∃ (n : Nat) (pre post : List Call) (gs us : List H) (cut : Nat → Nat), progs[n]? = some (pre ++ .addHandler id hs :: post) ∧
      Interleaved gs (fun i => givenGlobals (progs[i]?.getD [])) ∧ cut n = pre.length ∧ UsedUpTo progs cut us ∧
      ((start (runHist h) progs).run sched).srv.dispatchId id = .chain (globals h ++ gs ++ (inUseAt h h ++ us) ++ hs) := by
  obtain ⟨p, hpm, hmem⟩ := hex
  obtain ⟨i, g, before, after, hs', own, gs, us, f, cut, q1, q2, q3, q4, q5, q6, q7, q8, q9⟩ :=
    final_dispatch h hl hno id hid progs hp hk ⟨p, hpm, hs, hne, hmem⟩ sched hd
  have hall := all_progs (runHist h) progs sched i g q1
  have hga : g.all = before.map (·.1) ++ .addHandler id hs' :: after.map (·.1) := by
    obtain ⟨r1, r2⟩ := hd g (List.mem_of_getElem? q1)
    simp only [Gor.all, r1, r2, q2]; simp
  have e : hs' = hs := by
    refine honly _ (List.mem_of_getElem? hall) hs' ?_
    rw [hga]; simp
  subst e
  refine ⟨i, _, _, gs, us, cut, by rw [hall, hga], q6, by rw [q7]; simp, q8, ?_⟩
  rw [q9, if_neg hb]
  have hown : own = hs'.dropLast := by
    rcases q5 with rfl | ⟨p', hp', hs'', a, b, c⟩
    · by_cases hlen : hs'.length > 1
      · exact q4 hlen
      · have : hs'.dropLast.length = 0 := by simp; omega
        exact (List.eq_nil_of_length_eq_zero this).symm
    · rw [honly p' hp' hs'' a] at c; exact c
  have : hs' = hs'.dropLast ++ [f] := by
    obtain ⟨l, rfl⟩ := List.getLast?_eq_some_iff.1 q3
    simp
  rw [hown]
  conv => rhs; rw [this]
  simp

/-- C145 (partial): a URL pattern that one goroutine registers, by one call, has afterwards all global middlewares, the middlewares in
use and those put in use before (as for ids), and the handlers of the call, whatever the other goroutines register.
Missing: several handlers in one call are there twice (C33, not an effect of the goroutines); programs with `UnUse`
(`C145_url_unuse_partial`), `RewriteHeartBeatHandler` and twice the same key for `Use`; the memory model (`C145_any_violated`). -/
theorem C145_url_partial (h : List RegEv) (hl : Spec.locked h = false) (hno : ∀ k, inUse k h = true → everEnded k h = false) (p : String)
    (hid : ∀ hs, RegEv.any p hs ∉ h) (progs : List (List Call)) (hp : ∀ q ∈ progs, ∀ c ∈ q, noUnUse c = true) (hk : FreshKeys h progs)
    (n : Nat) (pre post : List Call) (hs : List H) (hne : hs ≠ []) (hn : progs[n]? = some (pre ++ .any p hs :: post))
    (hpre : ∀ c ∈ pre, registersUrl p c = false) (hpost : ∀ c ∈ post, registersUrl p c = false)
    (hoth : ∀ j q, progs[j]? = some q → j ≠ n → ∀ c ∈ q, registersUrl p c = false)
    (sched : List Nat) (hd : AllDone ((start (runHist h) progs).run sched)) :
    (∃ g, ((start (runHist h) progs).run sched).gors[n]? = some g ∧ (.any p hs, .returned) ∈ g.log) ∧
    ∃ (gs us : List H) (cut : Nat → Nat), Interleaved gs (fun i => givenGlobals (progs[i]?.getD [])) ∧ cut n = pre.length ∧
      UsedUpTo progs cut us ∧
      ((start (runHist h) progs).run sched).srv.dispatchUrl p =
        .chain (globals h ++ gs ++ (inUseAt h h ++ us) ++ if hs.length > 1 then hs ++ hs else hs) := by
  obtain ⟨f1, f2⟩ := fresh_url p h hid
  have hinv := urlInv_run hne (urlInv_start p hs n (runHist h) (allow_of h hl) f1 f2 progs pre post hn hpre hpost hoth) sched
  obtain ⟨gs, hg1, hg2⟩ := all_interleaved (runHist h) progs sched hd
  have hall := all_progs (runHist h) progs sched
  have hnew := new_anchors_key h hno (.url p) f2 progs hp hk sched
  generalize (start (runHist h) progs).run sched = y at *
  obtain ⟨g, hg, hat⟩ := hinv.one
  obtain ⟨d1, d2⟩ := hd g (List.mem_of_getElem? hg)
  cases hat with
  | before pre post ht _ _ _ _ _ => rw [d2] at ht; simp at ht
  | put1 _ hc _ _ _ => rw [d1] at hc; cases hc
  | allow _ hc _ _ => rw [d1] at hc; cases hc
  | put2 _ hc _ _ => rw [d1] at hc; cases hc
  | tail _ _ _ hc _ _ => rw [d1] at hc; cases hc
  | after _ hu ha =>
    obtain ⟨x, hx⟩ := Option.isSome_iff_exists.1 ha
    obtain ⟨j, g', pre', post', c, us, cut, r1, r2, rk, r3, r4, r5, r6⟩ := hnew x hx
    have hg' := hall j g' r1
    obtain ⟨rfl, rfl, rfl⟩ := only_url hn hpre hpost hoth hg' r2 rk
    obtain ⟨preL, postL, q1, _⟩ := r3 (hd g' (List.mem_of_getElem? r1)).1
    refine ⟨⟨g', r1, by rw [← List.mem_reverse, q1]; simp⟩, gs, us, cut, hg2, r4, r5, ?_⟩
    unfold Srv.dispatchUrl
    simp only [hu, hx, r6, hg1, globals_eq]

/-- C145 fails: two goroutines that call `Use` at the same time may both be about to access the map of middlewares, one of them
writing it. -/
theorem C145_use_violated : ∃ sched, RegClash ((start Srv.new [[.use "a" 1], [.use "b" 2]]).run sched) :=
  ⟨[0, 0, 0, 0, 0, 1], 0, 1, .addAnchor, .useLook "b" 2, .anchorMap, false, by decide, by decide, by decide, by decide, by decide⟩

/-- C145 fails: two goroutines that call `Use` with the same key may both return, though in turn the second call panics; the
middleware of one of them is lost, and the id this goroutine registers afterwards is not guarded by it. -/
theorem C145_use_twice_violated : (∃ sched,
    let y := (start Srv.new [[.use "a" 1, .addHandler 5 [10]], [.use "a" 2]]).run sched
    AllDone y ∧ y.gors.map (·.log) = [[(.addHandler 5 [10], .returned), (.use "a" 1, .returned)], [(.use "a" 2, .returned)]] ∧
    y.srv.dispatchId 5 = .chain [2, 10]) ∧
    (inTurn Srv.new [.use "a" 1, .use "a" 2]).2.map (·.2) = [.panicked, .returned] := by
  refine ⟨⟨[0, 0] ++ List.replicate 9 1 ++ List.replicate 20 0, ?_⟩, by decide⟩
  exact ⟨by unfold AllDone; decide, by decide, by decide⟩

/-- C145 fails: two goroutines that call `Any`, even for different patterns, may both be about to write the map of patterns. -/
theorem C145_any_violated : ∃ sched, RegClash ((start Srv.new [[.any "/a" [1, 2]], [.any "/b" [3, 4]]]).run sched) :=
  ⟨[0, 1], 0, 1, .urlPut "/a" [1, 2], .urlPut "/b" [3, 4], .urlMux, true, by decide, by decide, by decide, by decide, by decide⟩

/-- C145 fails: of two calls for one id the one without middlewares returns and the other panics, and the handler of the first
is run behind the middleware of the second. -/
theorem C145_mixture_violated : ∃ sched,
    let y := (start Srv.new [[.addHandler 1 [10]], [.addHandler 1 [7, 11]]]).run sched
    AllDone y ∧ (y.gors.map (·.log)) = [[(.addHandler 1 [10], .returned)], [(.addHandler 1 [7, 11], .panicked)]] ∧
    y.srv.dispatchId 1 = .chain [7, 10] := by
  refine ⟨List.replicate 4 1 ++ List.replicate 12 0 ++ List.replicate 12 1, ?_⟩
  have : AllDone ((start Srv.new [[.addHandler 1 [10]], [.addHandler 1 [7, 11]]]).run
      (List.replicate 4 1 ++ List.replicate 12 0 ++ List.replicate 12 1)) := by
    unfold AllDone; decide
  exact ⟨this, by decide, by decide⟩

-- two goroutines that register different ids and global middlewares, step by step in turn
example :
    let progs : List (List Call) := [[.useGlobal [1], .addHandler 5 [6, 7]], [.useGlobal [2], .addHandler 8 [9]]]
    let y := (start (runHist [.use "k" 3]) progs).run ((List.replicate 24 [0, 1]).flatten)
    y.gors.all (fun g => g.cur.isNone && g.todo.isEmpty) = true ∧
    y.srv.dispatchId 5 = .chain [1, 2, 3, 6, 7] ∧ y.srv.dispatchId 8 = .chain [1, 2, 3, 9] ∧
    (∀ p ∈ progs, ∀ c ∈ p, noUnUse c = true) ∧ inUseAt [.use "k" 3] [.use "k" 3] = [3] := by decide

set_option maxRecDepth 8000 in
-- two goroutines that put middlewares in use and register ids, step by step in turn: id 8 gets the first middleware of the other
-- goroutine, not the second
example :
    let progs : List (List Call) := [[.use "a" 1, .addHandler 5 [6], .use "b" 2], [.use "c" 4, .addHandler 8 [9]]]
    let h : List RegEv := [.use "k" 3]
    let y := (start (runHist h) progs).run ((List.replicate 36 [0, 1]).flatten)
    y.gors.all (fun g => g.cur.isNone && g.todo.isEmpty) = true ∧
    y.srv.dispatchId 5 = .chain [3, 1, 4, 6] ∧ y.srv.dispatchId 8 = .chain [3, 1, 4, 9] ∧
    (∀ p ∈ progs, ∀ c ∈ p, noUnUse c = true) ∧ ((progs.flatMap usesIn).map (·.1)).Nodup ∧
    ∀ p ∈ progs, ∀ x ∈ usesIn p, x.1 ≠ "k" := by decide

set_option maxRecDepth 8000 in
-- two goroutines that register patterns, put a middleware in use and add a global one, step by step in turn
example :
    let progs : List (List Call) := [[.use "a" 1, .any "/a" [6]], [.any "/b" [8, 9], .useGlobal [2]]]
    let h : List RegEv := [.use "k" 3]
    let y := (start (runHist h) progs).run ((List.replicate 24 [0, 1]).flatten)
    y.gors.all (fun g => g.cur.isNone && g.todo.isEmpty) = true ∧
    y.srv.dispatchUrl "/a" = .chain [2, 3, 1, 6] ∧ y.srv.dispatchUrl "/b" = .chain [2, 3, 1, 8, 9, 8, 9] ∧
    progs[0]? = some ([.use "a" 1] ++ .any "/a" [6] :: []) ∧ (∀ p ∈ progs, ∀ c ∈ p, noUnUse c = true) ∧
    ∀ c ∈ (progs[1]?).getD [], registersUrl "/a" c = false := by decide

-- two goroutines that register the same id: the first to write the handler wins
example :
    let y := (start Srv.new [[.addHandler 5 [6, 7]], [.addHandler 5 [8, 9]]]).run ([1] ++ List.replicate 14 0 ++ List.replicate 14 1)
    y.gors.all (fun g => g.cur.isNone && g.todo.isEmpty) = true ∧
    y.gors.map (fun g => g.log.map (·.2)) = [[.returned], [.panicked]] ∧ y.srv.dispatchId 5 = .chain [6, 7] := by decide

/-! ## C146 -/

/-- C146 (partial): goroutines that only dispatch messages never clash. -/
theorem C146_dispatch_no_race (s : Srv) (progs : List (List Call))
    (hp : ∀ p ∈ progs, ∀ c ∈ p, (∃ id, c = .byId id) ∨ ∃ q, c = .byUrl q) (sched : List Nat) :
    ¬ RegClash ((start s progs).run sched) := by
  let A : Hold → Act → Prop := fun h a => (a.branches = true → h = .no) ∧ (∀ x w, (x, w) ∈ a.access → w = false) ∧
    (∀ k f, a ≠ .useLook k f) ∧ ∀ p hs, a ≠ .urlAllow p hs
  have hc : Closed A := by
    refine ⟨?_, ?_, ?_, ?_, ?_⟩
    · intro h a ha hb; exact ha.1 hb
    · intro h k f ha; exact absurd rfl (ha.2.2.1 k f)
    · intro h n ha
      refine ⟨fun _ => ha.1 rfl, ?_, (by intro k f e; cases e), by intro p hs e; cases e⟩
      intro x w hx; simp [Act.access] at hx; exact hx.2
    · intro h n j ha
      refine ⟨fun _ => ha.1 rfl, ?_, (by intro k f e; cases e), by intro p hs e; cases e⟩
      intro x w hx; simp [Act.access] at hx; exact hx.2
    · intro h p hs ha; exact absurd rfl (ha.2.2.2 p hs)
  refine no_clash (linv_run hc (linv_start s progs ?_) sched) (fun _ => false) ?_
  · intro p hpm c hcm
    rcases hp p hpm c hcm with ⟨id, rfl⟩ | ⟨q, rfl⟩
    · simp [Call.code, Ok, rlocked, A, Act.access, Act.branches]
    · simp [Call.code, Ok, rlocked, A, Act.access, Act.branches]
  · intro k a ha x w hx
    simp only [Bool.false_eq_true, if_false]
    exact ha.2.1 x w hx

/-- C146 (partial): while goroutines register other ids, patterns and middlewares, every message with an id registered before
is given to what it was given to before, with only global middlewares of theirs added after the earlier ones: a middleware put in use
now (with whatever key) does not reach it.  No dispatch panics.  (The memory model apart: `C146_race_violated`.)
Missing: `UnUse` (`C146_unuse_others_partial`), `RewriteHeartBeatHandler` (`C146_rewrite_others_partial`) at the same time. -/
theorem C146_others_partial (h : List RegEv) (id : Int32) (pre : List RegEv) (hs : List H) (hr : registration id h = some (pre, hs))
    (progs : List (List Call)) (hp : ∀ p ∈ progs, ∀ c ∈ p, noUnUse c = true ∧ registersId id c = false) (sched : List Nat)
    (g : Gor) (hg : g ∈ ((start (runHist h) progs).run sched).gors) (o : Outcome) (ho : (.byId id, o) ∈ g.log) :
    (∃ f, (runHist h).dispatchId id = .direct f ∧ o = .disp (.direct f)) ∨
    ∃ rest gs, (runHist h).dispatchId id = .chain (globals h ++ rest) ∧ o = .disp (.chain (globals h ++ gs ++ rest)) ∧
      ∀ m ∈ gs, ∃ p ∈ progs, ∃ ms, .useGlobal ms ∈ p ∧ m ∈ ms := by
  have hst := registration_state id h
  rw [hr] at hst
  obtain ⟨⟨f, hlast, hf⟩, hi, ⟨post, hpost⟩, _, hseed⟩ := hst
  have hat := anchorsAt_eq pre (.addHandler id hs) rfl hseed post
  rw [← hpost] at hat
  generalize ((firstUses h).filter (fun x => covered x.1 pre post)).map (·.2) = as at hat
  have hle : seedOf pre + 1 ≤ (runHist h).mux.seed := by
    rw [← hseed]
    have := seedOf_append post (.addHandler id hs :: pre)
    rw [← hpost] at this
    exact this
  let e : Ends := ⟨id, f, ((runHist h).mux.selfMw.get? id).getD [], (· = as),
    fun x => ∃ gs, x = globals h ++ gs ∧ ∀ m ∈ gs, ∃ p ∈ progs, ∃ ms, .useGlobal ms ∈ p ∧ m ∈ ms, bypasses h id, False, False⟩
  have hview : ∀ t, View e ((start (runHist h) progs).run t).srv := by
    intro t
    have hnr : NotRewritten h id progs := notRewritten_of fun p hpm c hcm => noUnUse_rewrites (hp p hpm c hcm).1
    have hsame := (calm_run (calm_start id (runHist h) progs
      (fun p hpm c hcm => ⟨(hp p hpm c hcm).2, notRewritten_not hnr p hpm c hcm⟩)) (fun t => (notRewritten_run hnr t).1) t).2
    have hstay := (simple_run (simple_start (runHist h) progs fun p hpm c hcm => (hp p hpm c hcm).1) t).2
    obtain ⟨gs, g1, g2, _⟩ := gs_from (runHist h) progs t
    rw [globals_eq] at g1
    have h1 : ((start (runHist h) progs).run t).srv.mux.handlers.get? id = some f := hsame.h.trans hf
    have h2 : ((start (runHist h) progs).run t).srv.mux.idAnchors.get? id = some (seedOf pre + 1) := hsame.a.trans hi
    refine ⟨?_, ?_, ?_, ?_, bypass_iff h id hstay⟩
    · intro f' hf'
      have hf' : ((start (runHist h) progs).run t).srv.mux.handlers.get? id = some f' := hf'
      rw [h1, Option.some.injEq] at hf'
      exact ⟨hf'.symm, congrArg (·.getD []) hsame.m, gs, g1, g2⟩
    · intro hn
      have hn : ((start (runHist h) progs).run t).srv.mux.handlers.get? id = none := hn
      rw [h1] at hn; cases hn
    · intro i hi'
      have hi' : ((start (runHist h) progs).run t).srv.mux.idAnchors.get? id = some i := hi'
      rw [h2, Option.some.injEq] at hi'
      rw [← hi']
      exact ⟨as, by rw [old_anchors (runHist h) progs (fun p hpm c hcm => (hp p hpm c hcm).1) t _ hle]; exact hat, rfl⟩
    · intro hn
      have hn : ((start (runHist h) progs).run t).srv.mux.idAnchors.get? id = none := hn
      rw [h2] at hn; cases hn
  have hdisp := disp_run (disp_start e (runHist h) progs) (simple_start (runHist h) progs fun p hpm c hcm => (hp p hpm c hcm).1) sched
    (fun t _ => hview t)
  obtain ⟨i, hgi⟩ := List.mem_iff_getElem?.1 hg
  have hbiff := bypass_iff h id (Stays.rfl' _)
  have hdir1 : bypasses h id → (runHist h).dispatchId id = .direct f := by
    intro hb
    unfold Srv.dispatchId
    simp only [hf, hi, hat]
    rcases hbiff.2 hb with q | q
    · rw [if_pos q]
    · rw [if_pos q, ite_self]
  have hdir2 : ¬ bypasses h id → (runHist h).dispatchId id =
      .chain (globals h ++ as ++ ((runHist h).mux.selfMw.get? id).getD [] ++ [f]) := by
    intro hb
    unfold Srv.dispatchId
    simp only [hf, hi, hat, globals_eq]
    rw [if_neg (fun q => hb (hbiff.1 (.inl q))), if_neg (fun q => hb (hbiff.1 (.inr q)))]
  rcases (hdisp i g hgi).1 o ho with ⟨q, _⟩ | ⟨q, _⟩ | ⟨hb, rfl⟩ | ⟨hb, x, as2, ⟨gs, rfl, hgs⟩, has, rfl⟩
  · exact q.elim
  · exact q.elim
  · exact .inl ⟨f, hdir1 hb, rfl⟩
  · exact .inr ⟨as ++ ((runHist h).mux.selfMw.get? id).getD [] ++ [f], gs, by rw [hdir2 hb]; simp [List.append_assoc],
      by rw [show as2 = as from has]; simp [e, List.append_assoc], hgs⟩

/-- C146 (partial): while goroutines register other patterns, ids and middlewares, every message with a URL pattern is given to
what it was given to before, or dropped as before, with only global middlewares of theirs added after the earlier ones.
Missing: `UnUse`, `RewriteHeartBeatHandler` at the same time (`C146_url_unuse_others_partial`). -/
theorem C146_url_others_partial (h : List RegEv) (p : String) (progs : List (List Call))
    (hp : ∀ q ∈ progs, ∀ c ∈ q, noUnUse c = true ∧ registersUrl p c = false) (sched : List Nat)
    (g : Gor) (hg : g ∈ ((start (runHist h) progs).run sched).gors) (o : Outcome) (ho : (.byUrl p, o) ∈ g.log) :
    ((runHist h).dispatchUrl p = .nothing ∧ o = .disp .nothing) ∨
    ∃ rest gs, (runHist h).dispatchUrl p = .chain (globals h ++ rest) ∧ o = .disp (.chain (globals h ++ gs ++ rest)) ∧
      ∀ m ∈ gs, ∃ q ∈ progs, ∃ ms, .useGlobal ms ∈ q ∧ m ∈ ms := by
  have hnu : ∀ q ∈ progs, ∀ c ∈ q, noUnUse c = true := fun q hq c hc => (hp q hq c hc).1
  have hsame : ∀ t, SameUrl p (runHist h) ((start (runHist h) progs).run t).srv := by
    intro t
    refine calmU_run p (start (runHist h) progs) ?_ t
    intro g hg
    simp only [start, List.mem_map] at hg
    obtain ⟨q, hq, rfl⟩ := hg
    exact ⟨fun c hc => (hp q hq c hc).2, by intro c r e; cases e⟩
  have hst := url_state p h
  -- what was there before
  have hanch : (∀ l, (runHist h).mux.urlMux.get? p = some l → ∃ i, (runHist h).mux.urlAnchors.get? p = some i) ∧
      ∀ i, (runHist h).mux.urlAnchors.get? p = some i → i ≤ (runHist h).mux.seed ∧ ∃ as, anchorsAt (runHist h).mux.anchors i = some as := by
    cases hr : urlRegistration p h with
    | none =>
      rw [hr] at hst
      rw [hst.1, hst.2]
      exact ⟨(by intro l q; cases q), by intro i q; cases q⟩
    | some r =>
      obtain ⟨pre, hs⟩ := r
      rw [hr] at hst
      obtain ⟨hi, ⟨post, hpost⟩, _, hseed⟩ := hst
      have hat := anchorsAt_eq pre (.any p hs) rfl hseed post
      rw [← hpost] at hat
      refine ⟨fun _ _ => ⟨_, hi⟩, ?_⟩
      intro i hi'
      rw [hi, Option.some.injEq] at hi'
      subst hi'
      refine ⟨?_, _, hat⟩
      rw [← hseed]
      have := seedOf_append post (.any p hs :: pre)
      rw [← hpost] at this
      exact this
  let e : EndsU := ⟨p, fun l => (runHist h).mux.urlMux.get? p = some l,
    fun as => ∀ i, (runHist h).mux.urlAnchors.get? p = some i → anchorsAt (runHist h).mux.anchors i = some as,
    fun x => ∃ gs, x = globals h ++ gs ∧ ∀ m ∈ gs, ∃ q ∈ progs, ∃ ms, .useGlobal ms ∈ q ∧ m ∈ ms,
    (runHist h).mux.urlMux.get? p = none, (runHist h).mux.urlAnchors.get? p = none⟩
  have hview : ∀ t, ViewU e ((start (runHist h) progs).run t).srv := by
    intro t
    have hs := hsame t
    obtain ⟨gs, g1, g2, _⟩ := gs_from (runHist h) progs t
    rw [globals_eq] at g1
    refine ⟨fun l hm => ⟨hs.u.symm.trans hm, gs, g1, g2⟩, fun hm => hs.u.symm.trans hm, ?_, fun hm => hs.a.symm.trans hm⟩
    intro i hi
    have hi : (runHist h).mux.urlAnchors.get? p = some i := hs.a.symm.trans hi
    obtain ⟨hle, as, hat⟩ := hanch.2 i hi
    refine ⟨as, by rw [old_anchors (runHist h) progs hnu t _ hle]; exact hat, ?_⟩
    intro i' hi'
    rw [hi, Option.some.injEq] at hi'
    rw [← hi']; exact hat
  have hdisp := dispU_run (dispU_start e (runHist h) progs) (simple_start (runHist h) progs hnu) sched (fun t _ => hview t)
  obtain ⟨i, hgi⟩ := List.mem_iff_getElem?.1 hg
  rcases (hdisp i g hgi).1 o ho with ⟨q, rfl⟩ | ⟨q, ⟨l, hl⟩, _⟩ | ⟨_, as, l, ⟨gs, rfl, hgs⟩, has, hl, rfl⟩
  · have q : (runHist h).mux.urlMux.get? p = none := q
    exact .inl ⟨by simp [Srv.dispatchUrl, q], rfl⟩
  · obtain ⟨_, hi⟩ := hanch.1 l hl
    have q : (runHist h).mux.urlAnchors.get? p = none := q
    rw [hi] at q; cases q
  · have hl : (runHist h).mux.urlMux.get? p = some l := hl
    obtain ⟨i, hi⟩ := hanch.1 l hl
    refine .inr ⟨as ++ l, gs, ?_, by simp [List.append_assoc], hgs⟩
    unfold Srv.dispatchUrl
    simp only [hl, hi, has i hi, globals_eq, List.append_assoc]

/-- C146 (partial): while an id is being registered, by one call of one goroutine, a message with the id is dropped, or its dispatch
panics, or it is given to the handler behind all middlewares of the call, the middlewares in use, every middleware that the goroutine
has put in use before and every global middleware that it has registered before: it is never let past a middleware that guards it.
Missing: no panic (`C146_window_violated`); `UnUse`, `RewriteHeartBeatHandler` (`C146_unuse_guarded_partial`) and twice the same key for `Use` at the same time. -/
theorem C146_guarded_partial (h : List RegEv) (hl : Spec.locked h = false) (hno : ∀ k, inUse k h = true → everEnded k h = false) (id : Int32)
    (hid : ∀ hs, RegEv.addHandler id hs ∉ h) (progs : List (List Call)) (hp : ∀ p ∈ progs, ∀ c ∈ p, noUnUse c = true) (hk : FreshKeys h progs)
    (n : Nat) (pre post : List Call) (hs : List H) (hne : hs ≠ []) (hn : progs[n]? = some (pre ++ .addHandler id hs :: post))
    (hpre : ∀ hs', .addHandler id hs' ∉ pre) (hpost : ∀ hs', .addHandler id hs' ∉ post)
    (hoth : ∀ j p, progs[j]? = some p → j ≠ n → ∀ hs', .addHandler id hs' ∉ p)
    (sched : List Nat) (g : Gor) (hg : g ∈ ((start (runHist h) progs).run sched).gors) (o : Outcome) (ho : (.byId id, o) ∈ g.log) :
    o = .disp .nothing ∨ o = .panicked ∨
    (((id = (heartbeatCfg h).2 ∧ (heartbeatCfg h).1 = false) ∨ (id = (authCfg h).2 ∧ (authCfg h).1 = false)) ∧
      ∃ f, hs.getLast? = some f ∧ o = .disp (.direct f)) ∨
    ∃ (gs us : List H) (cut : Nat → Nat), o = .disp (.chain (globals h ++ gs ++ (inUseAt h h ++ us) ++ hs)) ∧ List.Sublist (givenGlobals pre) gs ∧
      (∀ m ∈ gs, ∃ p ∈ progs, ∃ ms, .useGlobal ms ∈ p ∧ m ∈ ms) ∧ cut n = pre.length ∧ UsedUpTo progs cut us := by
  obtain ⟨f1, f2, f3⟩ := fresh_id id h hid
  have honly : ∀ j p hs', progs[j]? = some p → .addHandler id hs' ∈ p → j = n ∧ hs' = hs := by
    intro j p hs' hj hm
    have hjn : j = n := Classical.byContradiction fun q => hoth j p hj q hs' hm
    subst hjn
    rw [hn, Option.some.injEq] at hj
    subst hj
    rcases List.mem_append.1 hm with hm | hm
    · exact absurd hm (hpre _)
    · rcases List.mem_cons.1 hm with hm | hm
      · cases hm; exact ⟨rfl, rfl⟩
      · exact absurd hm (hpost _)
  cases hlast : hs.getLast? with
  | none => exact absurd (by simpa using hlast) hne
  | some f =>
    let e : Ends := ⟨id, f, hs.dropLast, fun as => ∃ us cut, as = inUseAt h h ++ us ∧ cut n = pre.length ∧ UsedUpTo progs cut us,
      fun x => ∃ gs, x = globals h ++ gs ∧ List.Sublist (givenGlobals pre) gs ∧ ∀ m ∈ gs, ∃ p ∈ progs, ∃ ms, .useGlobal ms ∈ p ∧ m ∈ ms,
      bypasses h id, True, True⟩
    have hview : ∀ t, View e ((start (runHist h) progs).run t).srv := by
      intro t
      have hinv := idInv_run (idInv_start id (runHist h) progs (allow_of h hl) f1 f2 f3)
        (notRewritten_not (h := h) (notRewritten_of fun p hpm c hcm => noUnUse_rewrites (hp p hpm c hcm)))
        (fun t => (notRewritten_run (notRewritten_of fun p hpm c hcm => noUnUse_rewrites (hp p hpm c hcm)) t).1) t
      have hstay := (simple_run (simple_start (runHist h) progs hp) t).2
      obtain ⟨gs, g1, g2, g3⟩ := gs_from (runHist h) progs t
      rw [globals_eq] at g1
      refine ⟨?_, fun _ => trivial, ?_, fun _ => trivial, bypass_iff h id hstay⟩
      · intro f' hf
        obtain ⟨j, g, hs', hj, hm, hl', hself, _⟩ := hinv.handler hf
        have hall := all_progs _ _ _ j g hj
        obtain ⟨rfl, rfl⟩ := honly j _ hs' hall (by unfold Gor.all; rw [← List.append_assoc]; exact List.mem_append.2 (.inl hm))
        rw [hlast, Option.some.injEq] at hl'
        refine ⟨hl'.symm, ?_, gs, g1, ?_, g2⟩
        · by_cases hlen : hs'.length > 1
          · show (((start (runHist h) progs).run t).srv.mux.selfMw.get? id).getD [] = hs'.dropLast
            rw [hself hlen]; rfl
          · have hnil : hs'.dropLast = [] := List.eq_nil_of_length_eq_zero (by simp; omega)
            show (((start (runHist h) progs).run t).srv.mux.selfMw.get? id).getD [] = hs'.dropLast
            rw [hnil]
            cases hm' : ((start (runHist h) progs).run t).srv.mux.selfMw.get? id with
            | none => rfl
            | some ms =>
              obtain ⟨⟨p, hpm, hs'', a, b, _⟩, _⟩ := hinv.self ms hm'
              obtain ⟨j', hj'⟩ := List.mem_iff_getElem?.1 hpm
              have := (honly j' p hs'' hj' a).2
              rw [this] at b; omega
        · have hall' := hall
          rw [hn, Option.some.injEq] at hall'
          have hpp := pre_prefix hall'.symm (hpre _) hm
          obtain ⟨r, hr⟩ := hpp
          have hsub := g3 j g hj
          rw [← hr, givenGlobals_append] at hsub
          exact (List.sublist_append_left _ _).trans hsub
      · intro i hi
        obtain ⟨j, g, pre', post', hs', us, cut, r1, r2, _, r4, r5, r6⟩ := new_anchors h hno id hid progs hp hk t i hi
        have hall := all_progs _ _ _ j g r1
        obtain ⟨rfl, rfl⟩ := honly j _ hs' hall (by rw [r2]; simp)
        rw [hn, Option.some.injEq, r2] at hall
        have hreg : ∀ l : List Call, (∀ hs', .addHandler id hs' ∉ l) → ∀ q ∈ l, ¬ registersId id q = true := by
          intro l hl q hq hr
          cases q <;> simp [registersId] at hr
          subst hr
          exact hl _ hq
        have := (split_unique (P := fun q => registersId id q = true) hall.symm (by simp [registersId]) (hreg _ hpre) (hreg _ hpost)).1
        subst this
        exact ⟨_, r6, us, cut, rfl, r4, r5⟩
    have hdisp := disp_run (disp_start e (runHist h) progs) (simple_start (runHist h) progs hp) sched (fun t _ => hview t)
    obtain ⟨i, hgi⟩ := List.mem_iff_getElem?.1 hg
    have hsplit : hs = hs.dropLast ++ [f] := by
      obtain ⟨l, rfl⟩ := List.getLast?_eq_some_iff.1 hlast
      simp
    rcases (hdisp i g hgi).1 o ho with ⟨_, q⟩ | ⟨_, _, q⟩ | ⟨hb, q⟩ | ⟨_, x, _, ⟨gs, rfl, q1, q2⟩, ⟨us, cut, rfl, q3, q4⟩, rfl⟩
    · exact .inl q
    · exact .inr (.inl q)
    · exact .inr (.inr (.inl ⟨hb, f, rfl, q⟩))
    · refine .inr (.inr (.inr ⟨gs, us, cut, ?_, q1, q2, q3, q4⟩))
      conv => rhs; rw [hsplit]
      simp [e, List.append_assoc]

/-- C146 (partial): while a URL pattern is being registered, by one call of one goroutine, a message with the pattern is dropped, or
its dispatch panics, or it is given to the handlers of the call behind the middlewares in use, every middleware that the goroutine has
put in use before and every global middleware that it has registered before.
Missing: no panic (`C146_url_window_violated`); several handlers in one call may be there twice (C33); `UnUse`
(`C146_url_unuse_guarded_partial`), `RewriteHeartBeatHandler` and twice the same key for `Use` at the same time. -/
theorem C146_url_guarded_partial (h : List RegEv) (hl : Spec.locked h = false) (hno : ∀ k, inUse k h = true → everEnded k h = false) (p : String)
    (hid : ∀ hs, RegEv.any p hs ∉ h) (progs : List (List Call)) (hp : ∀ q ∈ progs, ∀ c ∈ q, noUnUse c = true) (hk : FreshKeys h progs)
    (n : Nat) (pre post : List Call) (hs : List H) (hne : hs ≠ []) (hn : progs[n]? = some (pre ++ .any p hs :: post))
    (hpre : ∀ c ∈ pre, registersUrl p c = false) (hpost : ∀ c ∈ post, registersUrl p c = false)
    (hoth : ∀ j q, progs[j]? = some q → j ≠ n → ∀ c ∈ q, registersUrl p c = false)
    (sched : List Nat) (g : Gor) (hg : g ∈ ((start (runHist h) progs).run sched).gors) (o : Outcome) (ho : (.byUrl p, o) ∈ g.log) :
    o = .disp .nothing ∨ o = .panicked ∨
    ∃ (gs us l : List H) (cut : Nat → Nat), o = .disp (.chain (globals h ++ gs ++ (inUseAt h h ++ us) ++ l)) ∧
      (l = hs ∨ hs.length > 1 ∧ l = hs ++ hs) ∧ List.Sublist (givenGlobals pre) gs ∧
      (∀ m ∈ gs, ∃ q ∈ progs, ∃ ms, .useGlobal ms ∈ q ∧ m ∈ ms) ∧ cut n = pre.length ∧ UsedUpTo progs cut us := by
  obtain ⟨f1, f2⟩ := fresh_url p h hid
  let e : EndsU := ⟨p, fun l => l = hs ∨ hs.length > 1 ∧ l = hs ++ hs,
    fun as => ∃ us cut, as = inUseAt h h ++ us ∧ cut n = pre.length ∧ UsedUpTo progs cut us,
    fun x => ∃ gs, x = globals h ++ gs ∧ List.Sublist (givenGlobals pre) gs ∧ ∀ m ∈ gs, ∃ q ∈ progs, ∃ ms, .useGlobal ms ∈ q ∧ m ∈ ms,
    True, True⟩
  have hview : ∀ t, ViewU e ((start (runHist h) progs).run t).srv := by
    intro t
    have hinv := urlInv_run hne (urlInv_start p hs n (runHist h) (allow_of h hl) f1 f2 progs pre post hn hpre hpost hoth) t
    have hall := all_progs (runHist h) progs t
    have hnew := new_anchors_key h hno (.url p) f2 progs hp hk t
    obtain ⟨gs, g1, g2, g3⟩ := gs_from (runHist h) progs t
    rw [globals_eq] at g1
    refine ⟨?_, fun _ => trivial, ?_, fun _ => trivial⟩
    · intro l hm
      have hm : ((start (runHist h) progs).run t).srv.mux.urlMux.get? p = some l := hm
      obtain ⟨gn, hgn, hat⟩ := hinv.one
      -- the registration is under way or over
      have hdone : (l = hs ∨ hs.length > 1 ∧ l = hs ++ hs) ∧ ∀ c ∈ gn.todo, registersUrl p c = false := by
        cases hat with
        | before _ _ _ _ _ _ hu _ => rw [hu] at hm; cases hm
        | put1 _ _ _ hu _ => rw [hu] at hm; cases hm
        | allow ht _ hu _ =>
          rw [hu] at hm
          split at hm
          · cases hm; exact ⟨.inl rfl, ht⟩
          · cases hm
        | put2 ht _ hu _ =>
          rw [hu] at hm
          split at hm
          · cases hm; exact ⟨.inl rfl, ht⟩
          · cases hm
        | tail _ _ ht _ hu _ =>
          rw [hu, Option.some.injEq] at hm
          split at hm
          · next hlen => exact ⟨.inr ⟨hlen, hm.symm⟩, ht⟩
          · exact ⟨.inl hm.symm, ht⟩
        | after hc hu _ =>
          rw [hu, Option.some.injEq] at hm
          split at hm
          · next hlen => exact ⟨.inr ⟨hlen, hm.symm⟩, hc.1⟩
          · exact ⟨.inl hm.symm, hc.1⟩
      refine ⟨hdone.1, gs, g1, ?_, g2⟩
      have hga := hall n gn hgn
      rw [hn, Option.some.injEq] at hga
      have hin : Call.any p hs ∈ gn.log.reverse.map (·.1) ++ (gn.cur.map (·.1)).toList := by
        have : Call.any p hs ∈ gn.all := by rw [← hga]; simp
        unfold Gor.all at this
        rw [← List.append_assoc] at this
        rcases List.mem_append.1 this with q | q
        · exact q
        · have := hdone.2 _ q
          simp [registersUrl] at this
      obtain ⟨r, hr⟩ := pre_prefix hga.symm (fun q => by have := hpre _ q; simp [registersUrl] at this) hin
      have hsub := g3 n gn hgn
      rw [← hr, givenGlobals_append] at hsub
      exact (List.sublist_append_left _ _).trans hsub
    · intro i hi
      obtain ⟨j, g', pre', post', c, us, cut, r1, r2, rk, _, r4, r5, r6⟩ := hnew i hi
      obtain ⟨rfl, rfl, rfl⟩ := only_url hn hpre hpost hoth (hall j g' r1) r2 rk
      exact ⟨_, r6, us, cut, rfl, r4, r5⟩
  have hdisp := dispU_run (dispU_start e (runHist h) progs) (simple_start (runHist h) progs hp) sched (fun t _ => hview t)
  obtain ⟨i, hgi⟩ := List.mem_iff_getElem?.1 hg
  rcases (hdisp i g hgi).1 o ho with ⟨_, q⟩ | ⟨_, _, q⟩ | ⟨_, _, l, ⟨gs, rfl, q1, q2⟩, ⟨us, cut, rfl, q3, q4⟩, hl', rfl⟩
  · exact .inl q
  · exact .inr (.inl q)
  · exact .inr (.inr ⟨gs, us, l, cut, rfl, hl', q1, q2, q3, q4⟩)

set_option maxRecDepth 8000 in
-- messages for /a are dispatched while another goroutine registers /b, then while /a is being registered
example :
    let progs : List (List Call) := [[.byUrl "/a", .byUrl "/b"], [.useGlobal [5], .any "/b" [11]]]
    let h : List RegEv := [.any "/a" [10], .use "k" 3]
    (runHist h).dispatchUrl "/a" = .chain [3, 10] ∧
    (((start (runHist h) progs).run (List.replicate 12 1 ++ List.replicate 40 0)).gors.map (·.log))[0]? =
      some [(.byUrl "/b", .disp (.chain [5, 3, 11])), (.byUrl "/a", .disp (.chain [5, 3, 10]))] ∧
    ∀ p ∈ progs, ∀ c ∈ p, noUnUse c = true ∧ registersUrl "/a" c = false := by decide

set_option maxRecDepth 8000 in
-- messages 1 are dispatched while another goroutine adds a global middleware, puts one in use and registers id 2
example :
    let progs : List (List Call) := [[.byId 1, .byId 1], [.useGlobal [5], .use "z" 8, .addHandler 2 [11], .any "/a" [12]]]
    let h : List RegEv := [.addHandler 1 [6, 10], .use "k" 3]
    registration 1 h = some ([.use "k" 3], [6, 10]) ∧
    (((start (runHist h) progs).run (List.replicate 4 0 ++ List.replicate 40 1 ++ List.replicate 32 0)).gors.map (·.log))[0]? =
      some [(.byId 1, .disp (.chain [5, 3, 6, 10])), (.byId 1, .disp (.chain [3, 6, 10]))] ∧
    ∀ p ∈ progs, ∀ c ∈ p, noUnUse c = true ∧ registersId 1 c = false := by decide

set_option maxRecDepth 8000 in
-- messages 1 are dispatched while id 1 is being registered
example :
    let progs : List (List Call) := [[.byId 1, .byId 1], [.useGlobal [5], .addHandler 1 [6, 10], .useGlobal [7]]]
    (((start (runHist [.use "k" 3]) progs).run
      (List.replicate 11 1 ++ List.replicate 3 0 ++ List.replicate 40 1 ++ List.replicate 30 0)).gors.map (·.log))[0]? =
      some [(.byId 1, .disp (.chain [5, 7, 3, 6, 10])), (.byId 1, .disp .nothing)] := by decide

/-- C146 fails: while a message is dispatched another goroutine may be about to write the map of handlers. -/
theorem C146_race_violated : ∃ sched, RegClash ((start Srv.new [[.listen, .byId 1], [.addHandler 2 [10]]]).run sched) :=
  ⟨[0, 0, 0, 0, 1, 1, 1], 1, 0, .handle 2 10, .lookId 1, .handlers, false, by decide, by decide, by decide, by decide, by decide⟩

/-- C146 fails: a message with an id that is being registered may find the handler and no anchor of the id: the goroutine of the
connection panics. -/
theorem C146_window_violated : ∃ sched,
    let y := (start (runHist [.setHeartBeat false true 0, .setAuth false true 0]) [[.byId 1], [.addHandler 1 [10]]]).run sched
    AllDone y ∧ y.gors.map (·.log) = [[(.byId 1, .panicked)], [(.addHandler 1 [10], .returned)]] := by
  refine ⟨List.replicate 5 1 ++ List.replicate 8 0 ++ List.replicate 8 1, ?_⟩
  exact ⟨by unfold AllDone; decide, by decide⟩

/-- C146 fails: a message with a pattern that is being registered may find the handlers and no anchor of the pattern: the goroutine
of the connection panics. -/
theorem C146_url_window_violated : ∃ sched,
    let y := (start Srv.new [[.byUrl "/a"], [.any "/a" [10]]]).run sched
    AllDone y ∧ y.gors.map (·.log) = [[(.byUrl "/a", .panicked)], [(.any "/a" [10], .returned)]] := by
  refine ⟨List.replicate 3 1 ++ List.replicate 8 0 ++ List.replicate 8 1, ?_⟩
  exact ⟨by unfold AllDone; decide, by decide⟩

/-- C146 fails: after `ListenAndServe` the mux is not locked; a registration is accepted. -/
theorem C146_locked_violated : ∃ sched,
    let y := (start Srv.new [[.listen, .addHandler 1 [10]]]).run sched
    AllDone y ∧ y.gors.map (·.log) = [[(.addHandler 1 [10], .returned), (.listen, .returned)]] := by
  refine ⟨List.replicate 16 0, ?_⟩
  exact ⟨by unfold AllDone; decide, by decide⟩

end Tcpx
