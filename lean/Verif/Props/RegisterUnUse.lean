import Verif.Lemmas.RegisterOld
import Verif.Lemmas.RegisterDel
/-!
# Registration by several goroutines, with `UnUse` among the calls: C145, C146

The settings are those of `Props/Register`.  `period k (periodAt k h) pre` is the state of key `k` when a goroutine has made the calls `pre`
on a server with the history `h`, if no other goroutine gives the key to `Use` or `UnUse`.
-/
namespace Tcpx
open Spec Register

/-! ## C145 -/

/-- The middlewares of what one goroutine registers by one call. -/
theorem guards_run (h : List RegEv) (key : Key) (hkey : anchorOf (runHist h).mux key = none) (progs : List (List Call))
    (hrw : ∀ id, key = .id id → NotRewritten h id progs) (n : Nat) (pre post : List Call) (reg : Call)
    (hn : progs[n]? = some (pre ++ reg :: post)) (hpre : ∀ c ∈ pre, c.key ≠ some key) (hpost : ∀ c ∈ post, c.key ≠ some key)
    (hoth : ∀ j q, progs[j]? = some q → j ≠ n → ∀ c ∈ q, c.key ≠ some key) (sched : List Nat) (x : Nat)
    (hx : anchorOf ((start (runHist h) progs).run sched).srv.mux key = some x) :
    ∃ as, anchorsAt ((start (runHist h) progs).run sched).srv.mux.anchors x = some as ∧ (∀ m ∈ as, ∃ k, GivenTo h progs k m) ∧
      ∀ k, (∀ j q, progs[j]? = some q → j ≠ n → ∀ c ∈ q, names k c = false) → Guarded h progs k as (period k (periodAt k h) pre) := by
  have hgen := gen_run h progs sched
  obtain ⟨as, e, hm⟩ := anchorsAt_some ((start (runHist h) progs).run sched).srv.mux.anchors x fun a ha => (hgen.srv.list a ha).2.1
  refine ⟨as, e, ?_, ?_⟩
  · intro m hmem
    obtain ⟨a, ha, _, rfl⟩ := (hm m).1 hmem
    exact ⟨a.key, (hgen.srv.list a ha).2.2⟩
  · intro k hk
    obtain ⟨as', e', _, hg⟩ := (covered_run h key hkey progs (fun q hq c hc id f e => notRewritten_not (hrw id e) q hq c hc f) (fun id e t => (notRewritten_run (hrw id e) t).1)
      n pre post reg hn hpre hpost hoth k hk sched x hx).guarded
    rw [e, Option.some.injEq] at e'
    rwa [e']

/-- C145 (partial): also when goroutines end the use of middlewares meanwhile, and rewrite the handler of the heartbeat, which has another id, an id that
one goroutine registers, by one call, has
afterwards all global middlewares and the handlers of the call, and between them only middlewares given to `Use`; among these is every
middleware that is in use when the goroutine makes the call, and none whose use it has ended before, for the keys that only this goroutine
gives to `Use` and `UnUse`.
Missing: ids that `RewriteHeartBeatHandler` takes away or makes that of the heartbeat meanwhile (`C145_rewrite_violated`); keys that several goroutines give to `Use` and `UnUse`, and keys given to `Use` again after `UnUse` (C27). -/
theorem C145_unuse_partial (h : List RegEv) (hl : Spec.locked h = false) (id : Int32) (hid : ∀ hs, RegEv.addHandler id hs ∉ h)
    (progs : List (List Call)) (hrw : NotRewritten h id progs) (n : Nat) (pre post : List Call) (hs : List H) (hne : hs ≠ [])
    (hn : progs[n]? = some (pre ++ .addHandler id hs :: post))
    (hpre : ∀ c ∈ pre, registersId id c = false) (hpost : ∀ c ∈ post, registersId id c = false)
    (hoth : ∀ j q, progs[j]? = some q → j ≠ n → ∀ c ∈ q, registersId id c = false)
    (sched : List Nat) (hd : AllDone ((start (runHist h) progs).run sched)) :
    (∃ g, ((start (runHist h) progs).run sched).gors[n]? = some g ∧ (.addHandler id hs, .returned) ∈ g.log) ∧
    ∃ gs as : List H, Interleaved gs (fun i => givenGlobals (progs[i]?.getD [])) ∧ (∀ m ∈ as, ∃ k, GivenTo h progs k m) ∧
      (∀ k, (∀ j q, progs[j]? = some q → j ≠ n → ∀ c ∈ q, names k c = false) → Guarded h progs k as (period k (periodAt k h) pre)) ∧
      ∃ f, hs.getLast? = some f ∧ ((start (runHist h) progs).run sched).srv.dispatchId id =
        if (id = (heartbeatCfg h).2 ∧ (heartbeatCfg h).1 = false) ∨ (id = (authCfg h).2 ∧ (authCfg h).1 = false) then .direct f
        else .chain (globals h ++ gs ++ as ++ hs) := by
  have hkey : ∀ c : Call, registersId id c = false → c.key ≠ some (.id id) := by
    intro c hc e
    cases c <;> simp [Call.key] at e
    simp [registersId, e] at hc
  obtain ⟨f1, f2, f3⟩ := fresh_id id h hid
  have hinv := idInv_run (idInv_start id (runHist h) progs (allow_of h hl) f1 f2 f3)
    (notRewritten_not hrw) (fun t => (notRewritten_run hrw t).1) sched
  have hcfg := (notRewritten_run hrw sched).2
  obtain ⟨gs, hg1, hg2⟩ := all_interleaved (runHist h) progs sched hd
  have hall := all_progs (runHist h) progs sched
  have hcov := guards_run h (.id id) f3 progs (fun id' e => by cases e; exact hrw) n pre post _ hn (fun c hc => hkey c (hpre c hc)) (fun c hc => hkey c (hpost c hc))
    (fun j q hq hj c hc => hkey c (hoth j q hq hj c hc)) sched
  have hlen0 : ((start (runHist h) progs).run sched).gors.length = progs.length := by
    rw [run_length]; simp [start]
  generalize (start (runHist h) progs).run sched = y at *
  have honly : ∀ j p hs', progs[j]? = some p → .addHandler id hs' ∈ p → j = n ∧ hs' = hs := by
    intro j p hs' hj hm
    have hjn : j = n := Classical.byContradiction fun q => by
      have := hoth j p hj q _ hm
      simp [registersId] at this
    subst hjn
    rw [hn, Option.some.injEq] at hj
    subst hj
    rcases List.mem_append.1 hm with hm | hm
    · have := hpre _ hm; simp [registersId] at this
    · rcases List.mem_cons.1 hm with hm | hm
      · cases hm; exact ⟨rfl, rfl⟩
      · have := hpost _ hm; simp [registersId] at this
  have hgn : ∃ g, y.gors[n]? = some g := by
    cases hg : y.gors[n]? with
    | some g => exact ⟨g, rfl⟩
    | none =>
      have hlen : y.gors.length ≤ n := List.getElem?_eq_none_iff.1 hg
      rw [List.getElem?_eq_none (by omega)] at hn; cases hn
  obtain ⟨g, hg⟩ := hgn
  have hgi := hinv.gor n g hg
  -- the call is over
  have hlog : ∃ o, (.addHandler id hs, o) ∈ g.log := by
    have hga := hall n g hg
    rw [hn, Option.some.injEq] at hga
    obtain ⟨q1, q2⟩ := hd g (List.mem_of_getElem? hg)
    have hmem : Call.addHandler id hs ∈ g.all := by rw [← hga]; simp
    simp only [Gor.all, q1, q2, Option.map_none, Option.toList_none, List.append_nil, List.map_reverse, List.mem_reverse,
      List.mem_map] at hmem
    obtain ⟨⟨c, o⟩, hm1, rfl⟩ := hmem
    exact ⟨o, hm1⟩
  obtain ⟨o, ho⟩ := hlog
  -- it was the only one, so it has returned
  have hret : (.addHandler id hs, .returned) ∈ g.log ∧ ∃ f, y.srv.mux.handlers.get? id = some f := by
    have hthere : ∀ f, y.srv.mux.handlers.get? id = some f → (.addHandler id hs, .returned) ∈ g.log := by
      intro f hf
      obtain ⟨j, g', hs', hj, hm, _, _, hlog⟩ := hinv.handler hf
      have hmem : Call.addHandler id hs' ∈ g'.all := by
        unfold Gor.all; rw [← List.append_assoc]; exact List.mem_append.2 (.inl hm)
      obtain ⟨rfl, rfl⟩ := honly j _ hs' (hall j g' hj) hmem
      rw [hg, Option.some.injEq] at hj
      subst hj
      exact hlog (hd g (List.mem_of_getElem? hg)).1
    cases hm : y.srv.mux.handlers.get? id with
    | some f => exact ⟨hthere f hm, f, rfl⟩
    | none =>
      exfalso
      have hself : y.srv.mux.selfMw.get? id = none := by
        cases hs' : y.srv.mux.selfMw.get? id with
        | none => rfl
        | some ms =>
          rcases (hinv.self ms hs').2 with q | ⟨g', hg', hs, f, r, k, q, _⟩
          · rw [hm] at q; cases q
          · rw [(hd g' hg').1] at q; cases q
      rcases hgi.out hs o ho with rfl | rfl
      · have := (hgi.ret hs ho).2.1
        rw [hm] at this
        exact hne (by simpa using this.symm)
      · rcases hgi.ref hs ho hne with q | q
        · rw [hself] at q; cases q
        · rw [hm] at q; cases q
  obtain ⟨hret, f, hf⟩ := hret
  obtain ⟨_, hlast, hself, hanch⟩ := hgi.ret hs hret
  rw [hf] at hlast
  obtain ⟨x, hx⟩ := Option.isSome_iff_exists.1 hanch
  obtain ⟨as, has, has1, has2⟩ := hcov x hx
  refine ⟨⟨g, hg, hret⟩, gs, as, hg2, has1, has2, f, hlast.symm, ?_⟩
  have hown : (y.srv.mux.selfMw.get? id).getD [] = hs.dropLast := by
    by_cases hlen : hs.length > 1
    · rw [hself hlen]; rfl
    · have hnil : hs.dropLast = [] := List.eq_nil_of_length_eq_zero (by simp; omega)
      rw [hnil]
      cases hm' : y.srv.mux.selfMw.get? id with
      | none => rfl
      | some ms =>
        obtain ⟨⟨p, hpm, hs'', a, b, _⟩, _⟩ := hinv.self ms hm'
        obtain ⟨j', hj'⟩ := List.mem_iff_getElem?.1 hpm
        have := (honly j' p hs'' hj' a).2
        rw [this] at b; omega
  have hsplit : hs = hs.dropLast ++ [f] := by
    obtain ⟨l, rfl⟩ := List.getLast?_eq_some_iff.1 hlast.symm
    simp
  unfold Bypass bypasses at hcfg
  unfold Srv.dispatchId
  simp only [hf, hx, has, hg1, globals_eq, hown]
  by_cases hby : (id = (heartbeatCfg h).2 ∧ (heartbeatCfg h).1 = false) ∨ (id = (authCfg h).2 ∧ (authCfg h).1 = false)
  · rw [if_pos hby]
    rcases hcfg.2 hby with q | q
    · rw [if_pos q]
    · rw [if_pos q, ite_self]
  · rw [if_neg hby, if_neg (fun q => hby (hcfg.1 (.inl q))), if_neg (fun q => hby (hcfg.1 (.inr q)))]
    conv => rhs; rw [hsplit]
    simp [List.append_assoc]

/-- C145 (partial): the same for a URL pattern.
Missing: as for `C145_unuse_partial`, but for `RewriteHeartBeatHandler`; several handlers in one call are there twice (C33); the memory model (`C145_any_violated`). -/
theorem C145_url_unuse_partial (h : List RegEv) (hl : Spec.locked h = false) (p : String) (hid : ∀ hs, RegEv.any p hs ∉ h)
    (progs : List (List Call)) (n : Nat) (pre post : List Call) (hs : List H) (hne : hs ≠ [])
    (hn : progs[n]? = some (pre ++ .any p hs :: post))
    (hpre : ∀ c ∈ pre, registersUrl p c = false) (hpost : ∀ c ∈ post, registersUrl p c = false)
    (hoth : ∀ j q, progs[j]? = some q → j ≠ n → ∀ c ∈ q, registersUrl p c = false)
    (sched : List Nat) (hd : AllDone ((start (runHist h) progs).run sched)) :
    ∃ gs as : List H, Interleaved gs (fun i => givenGlobals (progs[i]?.getD [])) ∧ (∀ m ∈ as, ∃ k, GivenTo h progs k m) ∧
      (∀ k, (∀ j q, progs[j]? = some q → j ≠ n → ∀ c ∈ q, names k c = false) → Guarded h progs k as (period k (periodAt k h) pre)) ∧
      ((start (runHist h) progs).run sched).srv.dispatchUrl p =
        .chain (globals h ++ gs ++ as ++ if hs.length > 1 then hs ++ hs else hs) := by
  have hkey : ∀ c : Call, registersUrl p c = false → c.key ≠ some (.url p) := by
    intro c hc e
    cases c <;> simp [Call.key] at e
    simp [registersUrl, e] at hc
  obtain ⟨f1, f2⟩ := fresh_url p h hid
  have hinv := urlInv_run hne (urlInv_start p hs n (runHist h) (allow_of h hl) f1 f2 progs pre post hn hpre hpost hoth) sched
  obtain ⟨gs, hg1, hg2⟩ := all_interleaved (runHist h) progs sched hd
  have hcov := guards_run h (.url p) f2 progs (fun id' e => by cases e) n pre post _ hn (fun c hc => hkey c (hpre c hc)) (fun c hc => hkey c (hpost c hc))
    (fun j q hq hj c hc => hkey c (hoth j q hq hj c hc)) sched
  generalize (start (runHist h) progs).run sched = y at *
  obtain ⟨g, hg, hat⟩ := hinv.one
  obtain ⟨d1, d2⟩ := hd g (List.mem_of_getElem? hg)
  cases hat with
  | before pre post ht _ _ _ _ _ => rw [d2] at ht; simp at ht
  | put1 _ hc _ _ _ => rw [d1] at hc; cases hc
  | allow _ hc _ _ => rw [d1] at hc; cases hc
  | put2 _ hc _ _ => rw [d1] at hc; cases hc
  | tail _ _ _ hc _ _ => rw [d1] at hc; cases hc
  | after _ hu ha =>
    obtain ⟨x, hx⟩ := Option.isSome_iff_exists.1 ha
    obtain ⟨as, has, has1, has2⟩ := hcov x hx
    refine ⟨gs, as, hg2, has1, has2, ?_⟩
    unfold Srv.dispatchUrl
    simp only [hu, hx, has, hg1, globals_eq]

set_option maxRecDepth 8000 in
-- goroutine 0 puts "a" in use, ends it, puts "b" in use and registers id 5; goroutine 1 ends the use of "k" and registers /a: step by step in turn
example :
    let progs : List (List Call) := [[.use "a" 1, .unUse "a", .use "b" 2, .addHandler 5 [6]], [.unUse "k", .any "/a" [9]]]
    let h : List RegEv := [.use "k" 3, .use "m" 4]
    let y := (start (runHist h) progs).run ((List.replicate 40 [0, 1]).flatten)
    y.gors.all (fun g => g.cur.isNone && g.todo.isEmpty) = true ∧
    y.srv.dispatchId 5 = .chain [4, 2, 6] ∧ y.srv.dispatchUrl "/a" = .chain [4, 9] ∧
    period "a" (periodAt "a" h) [.use "a" 1, .unUse "a", .use "b" 2] = .off ∧ period "b" (periodAt "b" h) [.use "a" 1, .unUse "a", .use "b" 2] = .on 2 ∧
    period "m" (periodAt "m" h) [.unUse "k"] = .on 4 ∧ period "k" (periodAt "k" h) [.unUse "k"] = .off ∧
    ∀ c ∈ (progs[1]?).getD [], names "a" c = false ∧ names "b" c = false ∧ registersId 5 c = false := by decide

/-! ## C146 -/

/-- What a dispatch that reads these anchors finds. -/
theorem guards_read (h : List RegEv) (progs : List (List Call)) (Alone : String → Prop) (P : String → Period) (i : Nat) (R : List MAnchor)
    (hK : ∀ k, Alone k → ∀ f, P k = .on f → k ∈ R.map (·.key))
    (hA : ∀ a ∈ R, Gen (GivenTo h progs) a.key a ∧ ∀ k, Alone k → a.key = k → Want i a (P k)) :
    (∀ m ∈ Live.caught i R, ∃ k, GivenTo h progs k m) ∧ ∀ k, Alone k → Guarded h progs k (Live.caught i R) (P k) := by
  have hmem : ∀ m, m ∈ Live.caught i R ↔ ∃ a ∈ R, a.contains i = some true ∧ a.mw = m := by
    intro m
    simp only [Live.caught, List.mem_map, List.mem_filter, decide_eq_true_eq]
    constructor
    · rintro ⟨a, ⟨h1, h2⟩, h3⟩; exact ⟨a, h1, h2, h3⟩
    · rintro ⟨a, h1, h2, h3⟩; exact ⟨a, ⟨h1, h2⟩, h3⟩
  refine ⟨?_, ?_⟩
  · intro m hm
    obtain ⟨a, ha, _, rfl⟩ := (hmem m).1 hm
    exact ⟨a.key, (hA a ha).1.2.2⟩
  · intro k hk
    have hfalse : (∀ a, Want i a (P k) → a.contains i = some false) → ∀ f, (∀ k', GivenTo h progs k' f → k' = k) → f ∉ Live.caught i R := by
      intro hw f hf hm
      obtain ⟨a, ha, ht, rfl⟩ := (hmem f).1 hm
      obtain ⟨g1, g2⟩ := hA a ha
      have := hw a (g2 k hk (hf _ g1.2.2))
      rw [ht] at this; simp at this
    cases hp : P k with
    | on f =>
      obtain ⟨a, ha, hak⟩ := List.mem_map.1 (hK k hk f hp)
      have hw := (hA a ha).2 k hk hak
      rw [hp] at hw
      exact (hmem f).2 ⟨a, ha, hw.1, hw.2⟩
    | again => trivial
    | never => rw [hp] at hfalse; exact hfalse fun a q => q
    | off => rw [hp] at hfalse; exact hfalse fun a q => q

/-- C146 (partial): also when goroutines end the use of middlewares meanwhile, and rewrite the handler of the heartbeat, which has
another id, a message with an id that is being registered, by one call of one goroutine, is dropped, or its dispatch panics, or it is given to the handlers of the call behind every global middleware that the
goroutine has registered before and every middleware that is in use when the goroutine makes the call, and not behind one whose use it
has ended before, for the keys that only this goroutine gives to `Use` and `UnUse`.
Missing: no panic (`C146_window_violated`); ids that `RewriteHeartBeatHandler` takes away or makes that of the heartbeat meanwhile
(`C146_rewrite_violated`); keys that several goroutines give to `Use` and `UnUse`, and keys given to
`Use` again after `UnUse` (C27). -/
theorem C146_unuse_guarded_partial (h : List RegEv) (hl : Spec.locked h = false) (id : Int32) (hid : ∀ hs, RegEv.addHandler id hs ∉ h)
    (progs : List (List Call)) (hrw : NotRewritten h id progs) (n : Nat) (pre post : List Call) (hs : List H) (hne : hs ≠ [])
    (hn : progs[n]? = some (pre ++ .addHandler id hs :: post))
    (hpre : ∀ c ∈ pre, registersId id c = false) (hpost : ∀ c ∈ post, registersId id c = false)
    (hoth : ∀ j q, progs[j]? = some q → j ≠ n → ∀ c ∈ q, registersId id c = false)
    (sched : List Nat) (g : Gor) (hg : g ∈ ((start (runHist h) progs).run sched).gors) (o : Outcome) (ho : (.byId id, o) ∈ g.log) :
    o = .disp .nothing ∨ o = .panicked ∨
    (((id = (heartbeatCfg h).2 ∧ (heartbeatCfg h).1 = false) ∨ (id = (authCfg h).2 ∧ (authCfg h).1 = false)) ∧
      ∃ f, hs.getLast? = some f ∧ o = .disp (.direct f)) ∨
    ∃ gs as : List H, o = .disp (.chain (globals h ++ gs ++ as ++ hs)) ∧ List.Sublist (givenGlobals pre) gs ∧
      (∀ m ∈ gs, ∃ p ∈ progs, ∃ ms, .useGlobal ms ∈ p ∧ m ∈ ms) ∧ (∀ m ∈ as, ∃ k, GivenTo h progs k m) ∧
      ∀ k, (∀ j q, progs[j]? = some q → j ≠ n → ∀ c ∈ q, names k c = false) → Guarded h progs k as (period k (periodAt k h) pre) := by
  have hkey : ∀ c : Call, registersId id c = false → c.key ≠ some (.id id) := by
    intro c hc e
    cases c <;> simp [Call.key] at e
    simp [registersId, e] at hc
  obtain ⟨f1, f2, f3⟩ := fresh_id id h hid
  have honly : ∀ j p hs', progs[j]? = some p → .addHandler id hs' ∈ p → j = n ∧ hs' = hs := by
    intro j p hs' hj hm
    have hjn : j = n := Classical.byContradiction fun q => by
      have := hoth j p hj q _ hm
      simp [registersId] at this
    subst hjn
    rw [hn, Option.some.injEq] at hj
    subst hj
    rcases List.mem_append.1 hm with hm | hm
    · have := hpre _ hm; simp [registersId] at this
    · rcases List.mem_cons.1 hm with hm | hm
      · cases hm; exact ⟨rfl, rfl⟩
      · have := hpost _ hm; simp [registersId] at this
  cases hlast : hs.getLast? with
  | none => exact absurd (by simpa using hlast) hne
  | some f =>
    let e : Live.Ends := ⟨id, f, hs.dropLast,
      fun _ K => ∀ k, (∀ j q, progs[j]? = some q → j ≠ n → ∀ c ∈ q, names k c = false) → ∀ f, period k (periodAt k h) pre = .on f → k ∈ K,
      fun i a => Gen (GivenTo h progs) a.key a ∧ ∀ k, (∀ j q, progs[j]? = some q → j ≠ n → ∀ c ∈ q, names k c = false) → a.key = k →
        Want i a (period k (periodAt k h) pre),
      fun x => ∃ gs, x = globals h ++ gs ∧ List.Sublist (givenGlobals pre) gs ∧ ∀ m ∈ gs, ∃ p ∈ progs, ∃ ms, .useGlobal ms ∈ p ∧ m ∈ ms,
      bypasses h id, True, True⟩
    have hview : ∀ t, Live.View e ((start (runHist h) progs).run t).srv := by
      intro t
      have hinv := idInv_run (idInv_start id (runHist h) progs (allow_of h hl) f1 f2 f3)
        (notRewritten_not hrw) (fun t => (notRewritten_run hrw t).1) t
      have hcfg := (notRewritten_run hrw t).2
      have hgen := gen_run h progs t
      obtain ⟨gs, g1, g2, g3⟩ := gs_from (runHist h) progs t
      rw [globals_eq] at g1
      refine ⟨?_, fun _ => trivial, ?_, fun _ => trivial, hcfg⟩
      · intro f' hf
        obtain ⟨j, g, hs', hj, hm, hl', hself, _⟩ := hinv.handler hf
        have hall := all_progs _ _ _ j g hj
        obtain ⟨rfl, rfl⟩ := honly j _ hs' hall (by unfold Gor.all; rw [← List.append_assoc]; exact List.mem_append.2 (.inl hm))
        rw [hlast, Option.some.injEq] at hl'
        refine ⟨hl'.symm, ?_, gs, g1, ?_, g2⟩
        · by_cases hlen : hs'.length > 1
          · show (((start (runHist h) progs).run t).srv.mux.selfMw.get? id).getD [] = hs'.dropLast
            rw [hself hlen]; rfl
          · have hnil : hs'.dropLast = [] := List.eq_nil_of_length_eq_zero (by simp; omega)
            show (((start (runHist h) progs).run t).srv.mux.selfMw.get? id).getD [] = hs'.dropLast
            rw [hnil]
            cases hm' : ((start (runHist h) progs).run t).srv.mux.selfMw.get? id with
            | none => rfl
            | some ms =>
              obtain ⟨⟨p, hpm, hs'', a, b, _⟩, _⟩ := hinv.self ms hm'
              obtain ⟨j', hj'⟩ := List.mem_iff_getElem?.1 hpm
              have := (honly j' p hs'' hj' a).2
              rw [this] at b; omega
        · have hall' := hall
          rw [hn, Option.some.injEq] at hall'
          have hpp := pre_prefix hall'.symm (fun q => by have := hpre _ q; simp [registersId] at this) hm
          obtain ⟨r, hr⟩ := hpp
          have hsub := g3 j g hj
          rw [← hr, givenGlobals_append] at hsub
          exact (List.sublist_append_left _ _).trans hsub
      · intro i hi
        have hcov := fun k hk => covered_run h (.id id) f3 progs (fun q hq c hc id' f e => by cases e; exact notRewritten_not hrw q hq c hc f)
          (fun id' e t => by cases e; exact (notRewritten_run hrw t).1) n pre post _ hn (fun c hc => hkey c (hpre c hc)) (fun c hc => hkey c (hpost c hc))
          (fun j q hq hj c hc => hkey c (hoth j q hq hj c hc)) k hk t i hi
        refine ⟨fun k hk f hp => (hcov k hk).2 f hp, ?_⟩
        intro a ha
        exact ⟨⟨hgen.srv.list a ha, fun k hk hak => ((hcov k hk).1.srv.list a ha).2 hak⟩, (hgen.srv.list a ha).2.1.contains i⟩
    have hdisp := Live.disp_run (Live.disp_start e (runHist h) progs) (fun t => (notRewritten_run hrw t).1) sched (fun t _ => hview t)
    obtain ⟨i, hgi⟩ := List.mem_iff_getElem?.1 hg
    have hsplit : hs = hs.dropLast ++ [f] := by
      obtain ⟨l, rfl⟩ := List.getLast?_eq_some_iff.1 hlast
      simp
    rcases (hdisp i g hgi).1 o ho with ⟨_, q⟩ | ⟨_, _, q⟩ | ⟨hb, q⟩ | ⟨_, x, _, ⟨gs, rfl, q1, q2⟩, ⟨x, R, q3, q4, rfl⟩, rfl⟩
    · exact .inl q
    · exact .inr (.inl q)
    · exact .inr (.inr (.inl ⟨hb, f, rfl, q⟩))
    · obtain ⟨r1, r2⟩ := guards_read h progs _ _ x R q3 q4
      refine .inr (.inr (.inr ⟨gs, _, ?_, q1, q2, r1, r2⟩))
      conv => rhs; rw [hsplit]
      simp [e, List.append_assoc]

/-- C146 (partial): the same for a URL pattern.
Missing: as for `C146_unuse_guarded_partial` (the panic: `C146_url_window_violated`), but for `RewriteHeartBeatHandler`; several handlers in one call may be there twice (C33). -/
theorem C146_url_unuse_guarded_partial (h : List RegEv) (hl : Spec.locked h = false) (p : String) (hid : ∀ hs, RegEv.any p hs ∉ h)
    (progs : List (List Call)) (n : Nat) (pre post : List Call) (hs : List H) (hne : hs ≠ [])
    (hn : progs[n]? = some (pre ++ .any p hs :: post))
    (hpre : ∀ c ∈ pre, registersUrl p c = false) (hpost : ∀ c ∈ post, registersUrl p c = false)
    (hoth : ∀ j q, progs[j]? = some q → j ≠ n → ∀ c ∈ q, registersUrl p c = false)
    (sched : List Nat) (g : Gor) (hg : g ∈ ((start (runHist h) progs).run sched).gors) (o : Outcome) (ho : (.byUrl p, o) ∈ g.log) :
    o = .disp .nothing ∨ o = .panicked ∨
    ∃ gs as l : List H, o = .disp (.chain (globals h ++ gs ++ as ++ l)) ∧ (l = hs ∨ hs.length > 1 ∧ l = hs ++ hs) ∧
      List.Sublist (givenGlobals pre) gs ∧ (∀ m ∈ gs, ∃ q ∈ progs, ∃ ms, .useGlobal ms ∈ q ∧ m ∈ ms) ∧ (∀ m ∈ as, ∃ k, GivenTo h progs k m) ∧
      ∀ k, (∀ j q, progs[j]? = some q → j ≠ n → ∀ c ∈ q, names k c = false) → Guarded h progs k as (period k (periodAt k h) pre) := by
  have hkey : ∀ c : Call, registersUrl p c = false → c.key ≠ some (.url p) := by
    intro c hc e
    cases c <;> simp [Call.key] at e
    simp [registersUrl, e] at hc
  obtain ⟨f1, f2⟩ := fresh_url p h hid
  let e : Live.EndsU := ⟨p, fun l => l = hs ∨ hs.length > 1 ∧ l = hs ++ hs,
    fun _ K => ∀ k, (∀ j q, progs[j]? = some q → j ≠ n → ∀ c ∈ q, names k c = false) → ∀ f, period k (periodAt k h) pre = .on f → k ∈ K,
    fun i a => Gen (GivenTo h progs) a.key a ∧ ∀ k, (∀ j q, progs[j]? = some q → j ≠ n → ∀ c ∈ q, names k c = false) → a.key = k →
      Want i a (period k (periodAt k h) pre),
    fun x => ∃ gs, x = globals h ++ gs ∧ List.Sublist (givenGlobals pre) gs ∧ ∀ m ∈ gs, ∃ q ∈ progs, ∃ ms, .useGlobal ms ∈ q ∧ m ∈ ms,
    True, True⟩
  have hview : ∀ t, Live.ViewU e ((start (runHist h) progs).run t).srv := by
    intro t
    have hinv := urlInv_run hne (urlInv_start p hs n (runHist h) (allow_of h hl) f1 f2 progs pre post hn hpre hpost hoth) t
    have hall := all_progs (runHist h) progs t
    have hgen := gen_run h progs t
    obtain ⟨gs, g1, g2, g3⟩ := gs_from (runHist h) progs t
    rw [globals_eq] at g1
    refine ⟨?_, fun _ => trivial, ?_, fun _ => trivial⟩
    · intro l hm
      have hm : ((start (runHist h) progs).run t).srv.mux.urlMux.get? p = some l := hm
      obtain ⟨gn, hgn, hat⟩ := hinv.one
      have hdone : (l = hs ∨ hs.length > 1 ∧ l = hs ++ hs) ∧ ∀ c ∈ gn.todo, registersUrl p c = false := by
        cases hat with
        | before _ _ _ _ _ _ hu _ => rw [hu] at hm; cases hm
        | put1 _ _ _ hu _ => rw [hu] at hm; cases hm
        | allow ht _ hu _ =>
          rw [hu] at hm
          split at hm
          · cases hm; exact ⟨.inl rfl, ht⟩
          · cases hm
        | put2 ht _ hu _ =>
          rw [hu] at hm
          split at hm
          · cases hm; exact ⟨.inl rfl, ht⟩
          · cases hm
        | tail _ _ ht _ hu _ =>
          rw [hu, Option.some.injEq] at hm
          split at hm
          · next hlen => exact ⟨.inr ⟨hlen, hm.symm⟩, ht⟩
          · exact ⟨.inl hm.symm, ht⟩
        | after hc hu _ =>
          rw [hu, Option.some.injEq] at hm
          split at hm
          · next hlen => exact ⟨.inr ⟨hlen, hm.symm⟩, hc.1⟩
          · exact ⟨.inl hm.symm, hc.1⟩
      refine ⟨hdone.1, gs, g1, ?_, g2⟩
      have hga := hall n gn hgn
      rw [hn, Option.some.injEq] at hga
      have hin : Call.any p hs ∈ gn.log.reverse.map (·.1) ++ (gn.cur.map (·.1)).toList := by
        have : Call.any p hs ∈ gn.all := by rw [← hga]; simp
        unfold Gor.all at this
        rw [← List.append_assoc] at this
        rcases List.mem_append.1 this with q | q
        · exact q
        · have := hdone.2 _ q
          simp [registersUrl] at this
      obtain ⟨r, hr⟩ := pre_prefix hga.symm (fun q => by have := hpre _ q; simp [registersUrl] at this) hin
      have hsub := g3 n gn hgn
      rw [← hr, givenGlobals_append] at hsub
      exact (List.sublist_append_left _ _).trans hsub
    · intro i hi
      have hcov := fun k hk => covered_run h (.url p) f2 progs (fun _ _ _ _ _ _ e => by cases e) (fun _ e => by cases e) n pre post _ hn (fun c hc => hkey c (hpre c hc)) (fun c hc => hkey c (hpost c hc))
        (fun j q hq hj c hc => hkey c (hoth j q hq hj c hc)) k hk t i hi
      refine ⟨fun k hk f hp => (hcov k hk).2 f hp, ?_⟩
      intro a ha
      exact ⟨⟨hgen.srv.list a ha, fun k hk hak => ((hcov k hk).1.srv.list a ha).2 hak⟩, (hgen.srv.list a ha).2.1.contains i⟩
  have hdisp := Live.dispU_run (Live.dispU_start e (runHist h) progs) sched (fun t _ => hview t)
  obtain ⟨i, hgi⟩ := List.mem_iff_getElem?.1 hg
  rcases (hdisp i g hgi).1 o ho with ⟨_, q⟩ | ⟨_, _, q⟩ | ⟨_, _, l, ⟨gs, rfl, q1, q2⟩, ⟨x, R, q3, q4, rfl⟩, hl', rfl⟩
  · exact .inl q
  · exact .inr (.inl q)
  · obtain ⟨r1, r2⟩ := guards_read h progs _ _ x R q3 q4
    exact .inr (.inr ⟨gs, _, l, rfl, hl', q1, q2, r1, r2⟩)

/-- C146 (partial): also when the other goroutines end the use of middlewares, put others in use, and do so again, and rewrite the handler of
the heartbeat, which has another id, every message with an id
registered before is given to what it was given to before, with only global middlewares of theirs added after the earlier ones.
No dispatch panics.
Missing: ids that `RewriteHeartBeatHandler` takes away or makes that of the heartbeat meanwhile (`C146_rewrite_violated`); a middleware in use again
after `UnUse` before the goroutines start (`C146_again_violated`). -/
theorem C146_unuse_others_partial (h : List RegEv) (hno : ∀ k, inUse k h = true → everEnded k h = false) (id : Int32) (pre : List RegEv) (hs : List H)
    (hr : registration id h = some (pre, hs)) (progs : List (List Call)) (hrw : NotRewritten h id progs)
    (hp : ∀ p ∈ progs, ∀ c ∈ p, registersId id c = false)
    (sched : List Nat) (g : Gor) (hg : g ∈ ((start (runHist h) progs).run sched).gors) (o : Outcome) (ho : (.byId id, o) ∈ g.log) :
    (∃ f, (runHist h).dispatchId id = .direct f ∧ o = .disp (.direct f)) ∨
    ∃ rest gs, (runHist h).dispatchId id = .chain (globals h ++ rest) ∧ o = .disp (.chain (globals h ++ gs ++ rest)) ∧
      ∀ m ∈ gs, ∃ p ∈ progs, ∃ ms, .useGlobal ms ∈ p ∧ m ∈ ms := by
  have hst := registration_state id h
  rw [hr] at hst
  obtain ⟨⟨f, hlast, hf⟩, hi, ⟨post, hpost⟩, _, hseed⟩ := hst
  have hat := anchorsAt_eq pre (.addHandler id hs) rfl hseed post
  rw [← hpost] at hat
  generalize ((firstUses h).filter (fun x => covered x.1 pre post)).map (·.2) = as at hat
  have hle : seedOf pre + 1 ≤ (runHist h).mux.seed := by
    rw [← hseed]
    have := seedOf_append post (.addHandler id hs :: pre)
    rw [← hpost] at this
    exact this
  let e : Live.Ends := ⟨id, f, ((runHist h).mux.selfMw.get? id).getD [],
    fun i K => i = seedOf pre + 1 ∧ ∃ ext, K = (runHist h).mux.anchors.map (·.key) ++ ext ∧ ∀ k ∈ ext, (runHist h).mux.anchorMap.get? k = none,
    fun _ a => Old (runHist h) (seedOf pre + 1) a.key a,
    fun x => ∃ gs, x = globals h ++ gs ∧ ∀ m ∈ gs, ∃ p ∈ progs, ∃ ms, .useGlobal ms ∈ p ∧ m ∈ ms, bypasses h id, False, False⟩
  have hview : ∀ t, Live.View e ((start (runHist h) progs).run t).srv := by
    intro t
    have hsame := (calm_run (calm_start id (runHist h) progs
      (fun p hpm c hcm => ⟨hp p hpm c hcm, notRewritten_not hrw p hpm c hcm⟩)) (fun t => (notRewritten_run hrw t).1) t).2
    have hcfg := (notRewritten_run hrw t).2
    obtain ⟨o1, o2⟩ := old_run h hno progs _ hle t
    obtain ⟨gs, g1, g2, _⟩ := gs_from (runHist h) progs t
    rw [globals_eq] at g1
    have h1 : ((start (runHist h) progs).run t).srv.mux.handlers.get? id = some f := hsame.h.trans hf
    have h2 : ((start (runHist h) progs).run t).srv.mux.idAnchors.get? id = some (seedOf pre + 1) := hsame.a.trans hi
    refine ⟨?_, ?_, ?_, ?_, hcfg⟩
    · intro f' hf'
      have hf' : ((start (runHist h) progs).run t).srv.mux.handlers.get? id = some f' := hf'
      rw [h1, Option.some.injEq] at hf'
      exact ⟨hf'.symm, congrArg (·.getD []) hsame.m, gs, g1, g2⟩
    · intro hn
      have hn : ((start (runHist h) progs).run t).srv.mux.handlers.get? id = none := hn
      rw [h1] at hn; cases hn
    · intro i hi'
      have hi' : ((start (runHist h) progs).run t).srv.mux.idAnchors.get? id = some i := hi'
      rw [h2, Option.some.injEq] at hi'
      exact ⟨⟨hi'.symm, o2⟩, fun a ha => ⟨o1 a ha, (o1 a ha).2.1.contains i⟩⟩
    · intro hn
      have hn : ((start (runHist h) progs).run t).srv.mux.idAnchors.get? id = none := hn
      rw [h2] at hn; cases hn
  have hdisp := Live.disp_run (Live.disp_start e (runHist h) progs) (fun t => (notRewritten_run hrw t).1) sched (fun t _ => hview t)
  obtain ⟨i, hgi⟩ := List.mem_iff_getElem?.1 hg
  have hbiff := bypass_iff h id (Stays.rfl' _)
  have hdir1 : bypasses h id → (runHist h).dispatchId id = .direct f := by
    intro hb
    unfold Srv.dispatchId
    simp only [hf, hi, hat]
    rcases hbiff.2 hb with q | q
    · rw [if_pos q]
    · rw [if_pos q, ite_self]
  have hdir2 : ¬ bypasses h id → (runHist h).dispatchId id =
      .chain (globals h ++ as ++ ((runHist h).mux.selfMw.get? id).getD [] ++ [f]) := by
    intro hb
    unfold Srv.dispatchId
    simp only [hf, hi, hat, globals_eq]
    rw [if_neg (fun q => hb (hbiff.1 (.inl q))), if_neg (fun q => hb (hbiff.1 (.inr q)))]
  rcases (hdisp i g hgi).1 o ho with ⟨q, _⟩ | ⟨q, _⟩ | ⟨hb, rfl⟩ | ⟨hb, x, as2, ⟨gs, rfl, hgs⟩, ⟨i, R, ⟨rfl, ext, q1, q2⟩, q3, rfl⟩, rfl⟩
  · exact q.elim
  · exact q.elim
  · exact .inl ⟨f, hdir1 hb, rfl⟩
  · exact .inr ⟨as ++ ((runHist h).mux.selfMw.get? id).getD [] ++ [f], gs, by rw [hdir2 hb]; simp [List.append_assoc],
      by rw [caught_old hno q3 q1 q2, ← anchorsAt_caught hat]; simp [e, List.append_assoc], hgs⟩

/-- C146 (partial): the same for a URL pattern: a message with it is given to what it was given to before, or dropped as before, with only global
middlewares added.
Missing: a middleware in use again after `UnUse` before the goroutines start (`C146_again_violated`). -/
theorem C146_url_unuse_others_partial (h : List RegEv) (hno : ∀ k, inUse k h = true → everEnded k h = false) (p : String) (progs : List (List Call))
    (hp : ∀ q ∈ progs, ∀ c ∈ q, registersUrl p c = false) (sched : List Nat)
    (g : Gor) (hg : g ∈ ((start (runHist h) progs).run sched).gors) (o : Outcome) (ho : (.byUrl p, o) ∈ g.log) :
    ((runHist h).dispatchUrl p = .nothing ∧ o = .disp .nothing) ∨
    ∃ rest gs, (runHist h).dispatchUrl p = .chain (globals h ++ rest) ∧ o = .disp (.chain (globals h ++ gs ++ rest)) ∧
      ∀ m ∈ gs, ∃ q ∈ progs, ∃ ms, .useGlobal ms ∈ q ∧ m ∈ ms := by
  have hsame : ∀ t, SameUrl p (runHist h) ((start (runHist h) progs).run t).srv := by
    intro t
    refine calmU_run p (start (runHist h) progs) ?_ t
    intro g hg
    simp only [start, List.mem_map] at hg
    obtain ⟨q, hq, rfl⟩ := hg
    exact ⟨hp q hq, by intro c r e; cases e⟩
  have hst := url_state p h
  have hanch : (∀ l, (runHist h).mux.urlMux.get? p = some l → ∃ i, (runHist h).mux.urlAnchors.get? p = some i) ∧
      ∀ i, (runHist h).mux.urlAnchors.get? p = some i → i ≤ (runHist h).mux.seed ∧ ∃ as, anchorsAt (runHist h).mux.anchors i = some as := by
    cases hr : urlRegistration p h with
    | none =>
      rw [hr] at hst
      rw [hst.1, hst.2]
      exact ⟨(by intro l q; cases q), by intro i q; cases q⟩
    | some r =>
      obtain ⟨pre, hs⟩ := r
      rw [hr] at hst
      obtain ⟨hi, ⟨post, hpost⟩, _, hseed⟩ := hst
      have hat := anchorsAt_eq pre (.any p hs) rfl hseed post
      rw [← hpost] at hat
      refine ⟨fun _ _ => ⟨_, hi⟩, ?_⟩
      intro i hi'
      rw [hi, Option.some.injEq] at hi'
      subst hi'
      refine ⟨?_, _, hat⟩
      rw [← hseed]
      have := seedOf_append post (.any p hs :: pre)
      rw [← hpost] at this
      exact this
  let e : Live.EndsU := ⟨p, fun l => (runHist h).mux.urlMux.get? p = some l,
    fun i K => (runHist h).mux.urlAnchors.get? p = some i ∧
      ∃ ext, K = (runHist h).mux.anchors.map (·.key) ++ ext ∧ ∀ k ∈ ext, (runHist h).mux.anchorMap.get? k = none,
    fun i a => Old (runHist h) i a.key a,
    fun x => ∃ gs, x = globals h ++ gs ∧ ∀ m ∈ gs, ∃ q ∈ progs, ∃ ms, .useGlobal ms ∈ q ∧ m ∈ ms,
    (runHist h).mux.urlMux.get? p = none, (runHist h).mux.urlAnchors.get? p = none⟩
  have hview : ∀ t, Live.ViewU e ((start (runHist h) progs).run t).srv := by
    intro t
    have hs := hsame t
    obtain ⟨gs, g1, g2, _⟩ := gs_from (runHist h) progs t
    rw [globals_eq] at g1
    refine ⟨fun l hm => ⟨hs.u.symm.trans hm, gs, g1, g2⟩, fun hm => hs.u.symm.trans hm, ?_, fun hm => hs.a.symm.trans hm⟩
    intro i hi
    have hi : (runHist h).mux.urlAnchors.get? p = some i := hs.a.symm.trans hi
    obtain ⟨hle, as, hat⟩ := hanch.2 i hi
    obtain ⟨o1, o2⟩ := old_run h hno progs _ hle t
    exact ⟨⟨hi, o2⟩, fun a ha => ⟨o1 a ha, (o1 a ha).2.1.contains i⟩⟩
  have hdisp := Live.dispU_run (Live.dispU_start e (runHist h) progs) sched (fun t _ => hview t)
  obtain ⟨i, hgi⟩ := List.mem_iff_getElem?.1 hg
  rcases (hdisp i g hgi).1 o ho with ⟨q, rfl⟩ | ⟨q, ⟨l, hl⟩, _⟩ | ⟨_, as, l, ⟨gs, rfl, hgs⟩, ⟨i, R, ⟨hi, ext, q1, q2⟩, q3, rfl⟩, hl, rfl⟩
  · have q : (runHist h).mux.urlMux.get? p = none := q
    exact .inl ⟨by simp [Srv.dispatchUrl, q], rfl⟩
  · obtain ⟨_, hi⟩ := hanch.1 l hl
    have q : (runHist h).mux.urlAnchors.get? p = none := q
    rw [hi] at q; cases q
  · have hl : (runHist h).mux.urlMux.get? p = some l := hl
    obtain ⟨_, as, hat⟩ := hanch.2 i hi
    refine .inr ⟨as ++ l, gs, ?_, ?_, hgs⟩
    · unfold Srv.dispatchUrl
      simp only [hl, hi, hat, globals_eq, List.append_assoc]
    · rw [caught_old hno q3 q1 q2, ← anchorsAt_caught hat]; simp [List.append_assoc]

/-- C146 fails: a middleware that is in use again after `UnUse` does not guard the id registered then (C27); if its use is ended while messages
are dispatched, it guards it from then on. -/
theorem C146_again_violated : ∃ sched,
    let h : List RegEv := [.addHandler 1 [10], .use "a" 3, .unUse "a", .use "a" 3]
    let y := (start (runHist h) [[.byId 1, .byId 1], [.unUse "a"]]).run sched
    (runHist h).dispatchId 1 = .chain [10] ∧ AllDone y ∧
    (y.gors.map (·.log))[0]? = some [(.byId 1, .disp (.chain [3, 10])), (.byId 1, .disp (.chain [10]))] := by
  refine ⟨List.replicate 14 0 ++ List.replicate 9 1 ++ List.replicate 20 0, ?_⟩
  exact ⟨by decide, (by unfold AllDone; decide), by decide⟩

set_option maxRecDepth 8000 in
-- messages 1 are dispatched while another goroutine ends the use of "k", which guards 1, puts it in use again and registers id 2
example :
    let progs : List (List Call) := [[.byId 1, .byId 1, .byId 2], [.unUse "k", .use "z" 8, .addHandler 2 [11], .use "k" 4]]
    let h : List RegEv := [.addHandler 1 [6, 10], .use "k" 3]
    registration 1 h = some ([.use "k" 3], [6, 10]) ∧ inUse "k" h = true ∧ everEnded "k" h = false ∧
    (((start (runHist h) progs).run (List.replicate 9 0 ++ List.replicate 60 1 ++ List.replicate 42 0)).gors.map (·.log))[0]? =
      some [(.byId 2, .disp (.chain [8, 11])), (.byId 1, .disp (.chain [3, 6, 10])), (.byId 1, .disp (.chain [3, 6, 10]))] ∧
    period "k" (periodAt "k" h) [.unUse "k", .use "z" 8] = .off ∧ period "z" (periodAt "z" h) [.unUse "k", .use "z" 8] = .on 8 ∧
    ∀ p ∈ progs, ∀ c ∈ p, rewritesHb c = false ∧ registersId 1 c = false := by decide

end Tcpx
