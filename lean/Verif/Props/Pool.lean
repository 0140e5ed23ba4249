import Verif.Lemmas.PoolSweep
import Verif.Lemmas.PoolAtomic
/-!
# C43-C48, C62: connections and the client pool under concurrency
-/
namespace Tcpx
open Spec

/-! ## C43 -/

/-- C43: whatever any number of goroutines do, as long as nobody overwrites the user name with something that is not a string, no call
panics, and once a `CloseConn` on `c` has returned, the connection is closed, its end channel is closed and it is offline, from then on
(the statement holds for every execution, hence for every later moment).
Missing: overwritten user names, `C43_forged_name_violated`. -/
theorem C43_close_partial (R : Nat → Option Nat) (jobs : Nat → Job) (hj : ∀ i c, jobs i = .code c → c.Calls (¬ ForgesName ·))
    (sched : List Nat) (c : Nat) :
    let y := (PSys.start R jobs).run sched
    (∀ i, (∃ code, jobs i = .code code) → y.threads i ≠ .panic) ∧
    (Closed y.trace c → (y.world.conn c).netClosed = true ∧ (y.world.conn c).endClosed = true ∧ (y.world.conn c).offline = true) := by
  intro y
  have key := PSys.run_tr (closeTS c)
    (fun w tr => (∀ x v, (w.conn x).name = some v → ∃ u, v = .str u) ∧
      (Closed tr c → (w.conn c).netClosed = true ∧ (w.conn c).endClosed = true ∧ (w.conn c).offline = true))
    (fun i s w _ => ((∃ code, jobs i = .code code) → s.isCode) ∧ (s.net = true → (w.conn c).netClosed = true) ∧
      (s.ended = true → (w.conn c).endClosed = true) ∧ (s.off = true → (w.conn c).offline = true))
    (PSys.start R jobs) ⟨by simp [PSys.start], by simp [PSys.start, Closed, history]⟩ ?_ ?_ sched
  · refine ⟨fun i hi hp => ?_, key.1.2⟩
    obtain ⟨s, h1, h2⟩ := key.2 i
    rw [hp] at h1
    exact h1 (h2.1 hi)
  · intro i
    refine ⟨⟨∃ code, jobs i = .code code, false, false, false⟩, ?_, ⟨id, by simp, by simp, by simp⟩⟩
    simp only [PSys.start]
    cases hji : jobs i with
    | code code =>
      exact PCode.run_tr R (closeTS c) (¬ ForgesName ·) (·.isCode) (fun x hx s hs => call_close c R x hx s hs) code (hj i code hji) _
        ⟨code, rfl⟩
    | sweep order p => exact sweep_close c R order p _ (by simp)
  · rintro i s w tr a r w' ⟨hn, hc⟩ ⟨h1, h2, h3, h4⟩ hok hact
    have hfl := act_flags hact c
    refine ⟨?_, ⟨?_, ?_⟩, ⟨?_, ?_, ?_, ?_⟩, ?_⟩
    · rintro x v rfl rfl
      simp only [World.act, Option.some.injEq, Prod.mk.injEq, PVal.any.injEq] at hact
      exact hn x v hact.1
    · intro x v hv
      rcases act_names hact x with ⟨v', rfl, h⟩ | ⟨h, _⟩
      · obtain ⟨u, rfl⟩ := hok.2 x v' rfl
        rw [h] at hv; cases hv
        exact ⟨u, rfl⟩
      · exact hn x v (by rw [← h]; exact hv)
    · rw [closed_cons]
      rintro (⟨r', rfl⟩ | h)
      · obtain ⟨q1, q2, q3⟩ := hok.1 r' rfl
        exact ⟨hfl.1 (h2 q1), hfl.2.1 (h3 q2), hfl.2.2 (h4 q3)⟩
      · obtain ⟨q1, q2, q3⟩ := hc h
        exact ⟨hfl.1 q1, hfl.2.1 q2, hfl.2.2 q3⟩
    · intro hi
      have := h1 hi
      simp only [closeTS_next]
      split <;> (try split) <;> exact this
    · simp only [closeTS_next]
      split
      · split
        · rename_i x hx
          intro _
          subst hx
          simp only [World.act, Option.some.injEq, Prod.mk.injEq] at hact
          rw [← hact.2]; simp [World.setConn]
        · exact fun h => hfl.1 (h2 h)
      · split <;> exact fun h => hfl.1 (h2 h)
      · split <;> exact fun h => hfl.1 (h2 h)
      · exact fun h => hfl.1 (h2 h)
    · simp only [closeTS_next]
      split
      · split <;> exact fun h => hfl.2.1 (h3 h)
      · split
        · rename_i x hx
          intro _
          subst hx
          simp only [World.act, Option.some.injEq, Prod.mk.injEq] at hact
          rw [← hact.2]; simp [World.setConn]
        · exact fun h => hfl.2.1 (h3 h)
      · split <;> exact fun h => hfl.2.1 (h3 h)
      · exact fun h => hfl.2.1 (h3 h)
    · simp only [closeTS_next]
      split
      · split <;> exact fun h => hfl.2.2 (h4 h)
      · split <;> exact fun h => hfl.2.2 (h4 h)
      · split
        · rename_i x hx
          intro _
          subst hx
          simp only [World.act, Option.some.injEq, Prod.mk.injEq] at hact
          rw [← hact.2]; simp [World.setConn]
        · exact fun h => hfl.2.2 (h4 h)
      · exact fun h => hfl.2.2 (h4 h)
    · rintro j hj' s' ⟨g1, g2, g3, g4⟩
      exact ⟨g1, fun h => hfl.1 (g2 h), fun h => hfl.2.1 (g3 h), fun h => hfl.2.2 (g4 h)⟩

/-- A call to `CloseConn` comes to its end when it is scheduled: run alone from any state in which nobody keeps the pool locked it
finishes, with everything closed. -/
theorem C43_finishes (R : Nat → Option Nat) (w : World) (c tid : Nat) (hn : ∀ v, (w.conn c).name = some v → ∃ u, v = .str u)
    (hf : ∀ p, R c = some p → (w.pool p).holder = none) :
    ∃ w', (closeConn R c).exec tid w = .done () w' ∧ (w'.conn c).netClosed = true ∧ (w'.conn c).endClosed = true ∧
      (w'.conn c).offline = true := by
  obtain ⟨w', h1, h2, _⟩ := closeConn_exec R w c tid hn (fun p _ h _ => hf p h)
  refine ⟨w', h1, ?_⟩
  rw [h2, if_pos rfl]
  exact ⟨rfl, rfl, rfl⟩

/-- C43 is violated when a handler stores something that is not a string under the key of the user name with `SetCtxPerRequest`: every
later `CloseConn` on a connection with a pool panics half-way and the connection does not become offline. -/
theorem C43_forged_name_violated (R : Nat → Option Nat) (w : World) (c p tid : Nat) (v : Any) (hR : R c = some p)
    (hv : ∀ u, v ≠ .str u) (hw : (w.conn c).name = some v) :
    ∃ w', (closeConn R c).exec tid w = .panic w' ∧ (w'.conn c).offline = (w.conn c).offline := by
  have ha : v.asString = none := by
    cases v with
    | str u => exact absurd rfl (hv u)
    | _ => rfl
  simp [closeConn, exec_monad_bind, doUnit, doAct, PProg.exec, World.act, hR, ctxOffline, connName, World.setConn, hw, ha]

/-- Two goroutines closing the same connection at the same time. -/
def Demo.twoClosers : Nat → Job := fun _ => .code (.call (.online 7 "bob") fun _ => .call (.close 7) fun _ => .done)

example : ∀ i c, Demo.twoClosers i = .code c → c.Calls (¬ ForgesName ·) := by
  rintro i c h
  simp only [Demo.twoClosers, Job.code.injEq] at h
  subst h
  exact .call _ _ (by simp [ForgesName]) fun _ => .call _ _ (by simp [ForgesName]) fun _ => .done

example : let y := (PSys.start (fun _ => some 0) Demo.twoClosers).run [0, 0, 0, 0, 1, 1, 1, 1, 0, 1, 0, 1, 0, 1, 0, 1, 0, 1, 0, 1, 0, 1, 0, 1]
    Closed y.trace 7 ∧ (y.world.conn 7).offline = true := by
  refine ⟨⟨0, .unit, ?_⟩, rfl⟩
  decide

/-! ## C44 -/

/-- C44: every concurrent execution of pool operations has a history of the atomic pool: each call takes effect at one instant between
its beginning and its end, and `GetClientPool` returns the connection of the latest `Online` not followed by a removal
(`Spec.current`).  In particular this holds for operations made one after another. -/
theorem C44_linearizable (R : Nat → Option Nat) (jobs : Nat → Job) (hj : ∀ i, ∃ c, jobs i = .code c ∧ c.Calls IsPoolCall)
    (sched : List Nat) : ∃ a, Atomic.Runs (history ((PSys.start R jobs).run sched).trace) a := by
  obtain ⟨a, h⟩ := refines_run R jobs hj sched
  exact ⟨a, h.runs⟩

/-- C44 for the state between calls: what the pool holds is what the calls that have taken effect left, and when every goroutine is
between two calls these are calls that have returned. -/
theorem C44_contents (R : Nat → Option Nat) (jobs : Nat → Job) (hj : ∀ i, ∃ c, jobs i = .code c ∧ c.Calls IsPoolCall)
    (sched : List Nat) : ∃ a, Atomic.Runs (history ((PSys.start R jobs).run sched).trace) a ∧
      ∀ p u, (((PSys.start R jobs).run sched).world.pool p).clients.get? u = current p u a.hist := by
  obtain ⟨a, h⟩ := refines_run R jobs hj sched
  exact ⟨a, h.runs, h.pools⟩

/-- The calls of a sequence, run one after another. -/
def callSeq : List PCall → PCode
  | [] => .done
  | c :: cs => .call c fun _ => callSeq cs

/-- C44 for calls made one after another: afterwards the pool holds exactly what the specification says, for every sequence. -/
theorem C44_sequential (R : Nat → Option Nat) (calls : List PCall) (hc : ∀ c ∈ calls, IsPoolCall c) (w : World) (tid : Nat)
    (hist : List PCall) (hf : ∀ p, (w.pool p).holder = none) (hw : ∀ p u, (w.pool p).clients.get? u = current p u hist) :
    ∃ w', ((callSeq calls).run R).exec tid w = .done () w' ∧
      ∀ p u, (w'.pool p).clients.get? u = current p u (calls.reverse ++ hist) := by
  induction calls generalizing w hist with
  | nil => exact ⟨w, rfl, by simpa using hw⟩
  | cons c cs ih =>
    have hcs := ih (fun x hx => hc x (List.mem_cons_of_mem _ hx))
    have hdel : ∀ (q : Nat) (u : String) (c : PCall), c = .poolDelete q u ∨ c = .poolOffline q u → ∀ p u',
        ((w.setPool q { w.pool q with clients := (w.pool q).clients.delete u }).pool p).clients.get? u' = current p u' (c :: hist) := by
      intro q u c hc p u'
      simp only [World.setPool]
      rcases hc with rfl | rfl <;>
      · simp only [current, ← hw]
        by_cases hp : p = q
        · subst hp
          simp only [if_true, GoMap.get?_delete, true_and]
          by_cases hu : u' = u
          · simp [hu]
          · simp [hu, Ne.symm hu]
        · simp [hp, Ne.symm hp]
    have hfree : ∀ (q : Nat) (m : GoMap String Nat) (p : Nat),
        ((w.setPool q { w.pool q with clients := m }).pool p).holder = none := by
      intro q m p
      simp only [World.setPool]
      split
      · rename_i hp; subst hp; exact hf p
      · exact hf p
    have fin : ∀ w1, (∀ p, (w1.pool p).holder = none) → (∀ p u, (w1.pool p).clients.get? u = current p u (c :: hist)) →
        (∃ r, (c.run R).exec tid w = .done r w1) →
        ∃ w', ((callSeq (c :: cs)).run R).exec tid w = .done () w' ∧
          ∀ p u, (w'.pool p).clients.get? u = current p u ((c :: cs).reverse ++ hist) := by
      rintro w1 h1 h2 ⟨r, h3⟩
      obtain ⟨w', g1, g2⟩ := hcs w1 (c :: hist) h1 h2
      refine ⟨w', ?_, ?_⟩
      · show ((c.run R).bind fun r => (callSeq cs).run R).exec tid w = _
        rw [PProg.exec_bind, h3]
        exact g1
      · intro p u
        rw [g2]
        simp
    have hcall := hc c List.mem_cons_self
    cases c with
    | poolOnline q u x =>
      refine fin (w.setPool q { w.pool q with clients := (w.pool q).clients.set u x }) (hfree q _) ?_ ⟨.unit, ?_⟩
      · intro p u'
        simp only [World.setPool, current, ← hw]
        by_cases hp : p = q
        · subst hp
          simp only [if_true, GoMap.get?_set, true_and]
          by_cases hu : u' = u
          · simp [hu]
          · simp [hu, Ne.symm hu]
        · simp [hp, Ne.symm hp]
      · simp only [PCall.run, PCall.body, exec_monad_bind, doUnit, PProg.exec, World.act, if_pos (hf q)]
    | poolGet q u =>
      refine fin w hf ?_ ⟨.conn ((w.pool q).clients.get? u), ?_⟩
      · intro p u'; simp only [current]; exact hw p u'
      · simp only [PCall.run, PCall.body, exec_monad_bind, doUnit, PProg.exec, World.act, if_pos (hf q), poolLook]
    | poolDelete q u =>
      refine fin (w.setPool q { w.pool q with clients := (w.pool q).clients.delete u }) (hfree q _) (hdel q u _ (.inl rfl)) ⟨.unit, ?_⟩
      simp only [PCall.run, PCall.body, exec_monad_bind, doUnit, PProg.exec, World.act, if_pos (hf q)]
    | poolOffline q u =>
      obtain ⟨w1, h1, h2, h3, h4⟩ := poolOffline_exec w q u tid (hf q)
      refine fin w1 (fun p => by rw [h3]; exact hf p) ?_ ⟨.unit, ?_⟩
      · intro p u'
        rw [h4]
        simp only [current, ← hw]
        simp [eq_comm]
      · simp only [PCall.run, PCall.body, exec_monad_bind, doUnit, PProg.exec, World.act, h1]
    | _ => exact absurd hcall (by simp [IsPoolCall])

/-- One goroutine enters and removes the name another one enters. -/
def Demo.poolRace : Nat → Job := fun i =>
  if i = 0 then .code (callSeq [.poolOnline 0 "bob" 5, .poolOffline 0 "bob"]) else .code (callSeq [.poolOnline 0 "bob" 6])

example : let y := (PSys.start (fun _ => none) Demo.poolRace).run [0, 0, 0, 0, 0, 1, 1, 1, 0, 0]
    (y.world.pool 0).clients.get? "bob" = none ∧ (history y.trace).length = 6 := by decide

/-! ## C45 -/

/-- C45: refused calls return an error and change no pool; going online under the empty name and logging out before a name was given
change nothing at all. -/
theorem C45_refused (R : Nat → Option Nat) (w : World) (c tid : Nat) (u : String) :
    ((PCall.online c "").body R).exec tid w = .done .failed w ∧
    (R c = none → ((PCall.offline c).body R).exec tid w = .done .failed w ∧
      ∃ w', ((PCall.online c u).body R).exec tid w = .done .failed w' ∧ w'.pool = w.pool) ∧
    ((w.conn c).name = none → ((PCall.offline c).body R).exec tid w = .done .failed w) := by
  refine ⟨?_, fun h => ⟨?_, ?_⟩, fun h => ?_⟩
  · simp [PCall.body, ctxOnline, exec_monad_bind, PProg.exec, boolRes]
  · simp [PCall.body, ctxOffline, exec_monad_bind, PProg.exec, boolRes, h]
  · by_cases hu : u = ""
    · exact ⟨w, by simp [PCall.body, ctxOnline, exec_monad_bind, PProg.exec, boolRes, hu], rfl⟩
    · exact ⟨w.setConn c { w.conn c with name := some (.str u) },
        by simp [PCall.body, ctxOnline, exec_monad_bind, PProg.exec, boolRes, hu, h, doUnit, World.act], rfl⟩
  · cases hR : R c with
    | none => simp [PCall.body, ctxOffline, exec_monad_bind, PProg.exec, boolRes, hR]
    | some p => simp [PCall.body, ctxOffline, exec_monad_bind, PProg.exec, boolRes, hR, connName, World.act, h]

example (w : World) : ((PCall.offline 5).body fun _ => none).exec 0 w = .done .failed w :=
  ((C45_refused (fun _ => none) w 5 0 "bob").2.1 rfl).1

/-- Caveat: a refused `Online` without a pool has nevertheless set the user name of the connection. -/
theorem C45_name_kept_limit (R : Nat → Option Nat) (w : World) (c tid : Nat) (u : String) (hu : u ≠ "") (hR : R c = none) :
    ∃ w', ((PCall.online c u).body R).exec tid w = .done .failed w' ∧ (w'.conn c).name = some (.str u) :=
  ⟨w.setConn c { w.conn c with name := some (.str u) },
    by simp [PCall.body, ctxOnline, exec_monad_bind, PProg.exec, boolRes, hu, hR, doUnit, World.act], by simp [World.setConn]⟩

/-! ## C46 -/

/-- C46: for a connection that is only ever known by one name, through its own methods, a `CloseConn` that has returned leaves no entry
for the connection in any pool, in every execution in which no entry for it was made after that `CloseConn` was begun.
Missing: several names (`C46_two_names_violated`) and entries made during or after the close (`C46_online_races_violated`). -/
theorem C46_removed_partial (R : Nat → Option Nat) (jobs : Nat → Job) (c p : Nat) (u : String) (hR : R c = some p)
    (hj : ∀ i code, jobs i = .code code → code.Calls (OnlyKnownAs c u)) (sched : List Nat) :
    let y := (PSys.start R jobs).run sched
    CleanlyClosed c y.trace → ∀ q u', (y.world.pool q).clients.get? u' ≠ some c :=
  known_run R jobs c p u hR hj sched

/-- C46 is violated after two names: `Online(a)`, `Online(b)`, `CloseConn` leaves the entry `a`, for all names and connections. -/
theorem C46_two_names_violated (R : Nat → Option Nat) (w : World) (c p tid : Nat) (a b : String) (hR : R c = some p)
    (hf : (w.pool p).holder = none) (ha : a ≠ "") (hb : b ≠ "") (hab : a ≠ b) :
    ∃ w', ((callSeq [.online c a, .online c b, .close c]).run R).exec tid w = .done () w' ∧
      (w'.pool p).clients.get? a = some c ∧ (w'.conn c).offline = true := by
  let w1 := (w.setConn c { w.conn c with name := some (.str a) }).setPool p { w.pool p with clients := (w.pool p).clients.set a c }
  let w2 := (w1.setConn c { w1.conn c with name := some (.str b) }).setPool p { w1.pool p with clients := (w1.pool p).clients.set b c }
  have hw1 : (w1.pool p).holder = none := by simp [w1, World.setPool, hf]
  have hw2 : (w2.pool p).holder = none := by simp [w2, World.setPool, hw1]
  have hn2 : (w2.conn c).name = some (.str b) := by simp [w2, World.setPool, World.setConn]
  obtain ⟨w', h1, h2, _, h4⟩ := closeConn_exec R w2 c tid (by rw [hn2]; simp) (fun q u hq _ => by rw [hR] at hq; cases hq; exact hw2)
  refine ⟨w', ?_, ?_, ?_⟩
  · have e1 : ((PCall.online c a).run R).exec tid w = .done .unit w1 := by
      simp only [PCall.run, PCall.body, exec_monad_bind, doUnit, PProg.exec, World.act, ctxOnline, if_neg ha, hR]
      rw [if_pos (show ((w.setConn c { w.conn c with name := some (.str a) }).pool p).holder = none from hf)]
      rfl
    have e2 : ((PCall.online c b).run R).exec tid w1 = .done .unit w2 := by
      simp only [PCall.run, PCall.body, exec_monad_bind, doUnit, PProg.exec, World.act, ctxOnline, if_neg hb, hR]
      rw [if_pos (show ((w1.setConn c { w1.conn c with name := some (.str b) }).pool p).holder = none from hw1)]
      rfl
    have e3 : ((PCall.close c).run R).exec tid w2 = .done .unit w' := by
      simp only [PCall.run, PCall.body, exec_monad_bind, doUnit, PProg.exec, World.act, h1]
    simp only [callSeq, PCode.run, PProg.exec_bind, e1, e2, e3, PProg.exec]
  · rw [h4, if_neg]
    · simp [w2, w1, World.setPool, GoMap.get?_set, hab]
    · rw [hn2]
      simp
      intro _ h; exact hab h.symm
  · rw [h2, if_pos rfl]

/-- C46 is violated by a race: `Online` and `CloseConn` of the same connection by two goroutines, each called once; `Online` has stored
the name, `CloseConn` finds no entry, finishes, and then the entry is made. -/
theorem C46_online_races_violated (c p : Nat) (u : String) (hu : u ≠ "") :
    ∃ sched, let y := (PSys.start (fun _ => some p) fun i =>
        if i = 0 then .code (callSeq [.online c u]) else .code (callSeq [.close c])).run sched
      Closed y.trace c ∧ (y.world.pool p).clients.get? u = some c ∧ (y.world.conn c).offline = true := by
  refine ⟨[0, 0, 1, 1, 1, 1, 1, 1, 1, 0], ?_⟩
  simp [PSys.run, PSys.step, PSys.start, Job.run, callSeq, PCode.run, PCall.run, PCall.body, ctxOnline, closeConn, ctxOffline, connName,
    poolOffline, poolLook, doUnit, doAct, World.act, World.setConn, World.setPool, Bind.bind, PProg.bind, hu, Any.asString, boolRes,
    Closed, history, GoMap.get?]

example : ∃ sched, CleanlyClosed 7 ((PSys.start (fun _ => some 0) Demo.twoClosers).run sched).trace := by
  refine ⟨[0, 0, 0, 0, 0, 0, 0, 0, 0, 0, 0, 0], ?_⟩
  refine ⟨[⟨0, .ret (.close 7) .unit, .unit⟩, ⟨0, .setOffline 7, .unit⟩, ⟨0, .del 0 "bob", .unit⟩, ⟨0, .look 0 "bob", .conn (some 7)⟩,
    ⟨0, .getName 7, .any (some (.str "bob"))⟩, ⟨0, .closeEnd 7, .bool false⟩, ⟨0, .closeNet 7, .unit⟩],
    [⟨0, .ret (.online 7 "bob") .unit, .unit⟩, ⟨0, .put 0 "bob" 7, .unit⟩, ⟨0, .setName 7 (.str "bob"), .unit⟩,
      ⟨0, .inv (.online 7 "bob"), .unit⟩], 0, .unit, .unit, .unit, by decide, by simp, by simp⟩

/-! ## C47 -/

/-- C47: in every execution in which only connection `c` uses the name `u`, is not closed or logged out itself, and nobody removes that
name, the entry stays that of `c` from the moment it is made, whichever other connections are closed, by whatever goroutines.
Missing: an older connection with the same name, `C47_same_name_violated`. -/
theorem C47_other_names_partial (R : Nat → Option Nat) (jobs : Nat → Job) (c p : Nat) (u : String)
    (hj : ∀ i, ∃ code, jobs i = .code code ∧ code.Calls (KeepsOff R p u c)) (sched : List Nat) :
    let y := (PSys.start R jobs).run sched
    (∃ e ∈ y.trace, e.action = .put p u c) → (y.world.pool p).clients.get? u = some c :=
  keep_run R jobs c p u hj sched

/-- C47 is violated: whenever an older connection with the same name is closed, the newer one is removed from the pool. -/
theorem C47_same_name_violated (R : Nat → Option Nat) (w : World) (old new p tid : Nat) (u : String) (hR : R old = some p)
    (hf : (w.pool p).holder = none) (hold : (w.conn old).name = some (.str u))
    (_hnew : (w.pool p).clients.get? u = some new) (hne : old ≠ new) :
    ∃ w', (closeConn R old).exec tid w = .done () w' ∧ (w'.pool p).clients.get? u = none ∧ w'.conn new = w.conn new := by
  obtain ⟨w', h1, h2, _, h4⟩ := closeConn_exec R w old tid (by rw [hold]; simp) (fun q _ hq _ => by rw [hR] at hq; cases hq; exact hf)
  exact ⟨w', h1, by rw [h4, if_pos ⟨hR, hold⟩], by rw [h2, if_neg (Ne.symm hne)]⟩

def Demo.twoBobs : Nat → Job := fun _ => .code (callSeq [.online 1 "bob", .online 2 "bob", .close 1])

example : let y := (PSys.start (fun _ => some 0) Demo.twoBobs).run (List.replicate 30 0)
    (y.world.pool 0).clients.get? "bob" = none ∧ (y.world.conn 2).offline = false := by decide

def Demo.bobAndAmy : PCode := callSeq [.online 2 "bob", .online 1 "amy", .close 1]

example : Demo.bobAndAmy.Calls (KeepsOff (fun _ => some 0) 0 "bob" 2) ∧
    let y := (PSys.start (fun _ => some 0) fun _ => .code Demo.bobAndAmy).run (List.replicate 30 0)
    (y.world.pool 0).clients.get? "bob" = some 2 ∧ (y.world.pool 0).clients.get? "amy" = none := by
  refine ⟨.call _ _ (by simp [KeepsOff]) fun _ => .call _ _ (by simp [KeepsOff]) fun _ => .call _ _ (by simp [KeepsOff]) fun _ => .done, ?_⟩
  decide

/-! ## C48 -/

/-- C48: in any state reached by any execution, `SendToUsername` writes exactly one frame, to the connection put online last under
that name and not removed since, this connection not being offline and not closed; otherwise it writes nothing and returns an error. -/
theorem C48_send (R : Nat → Option Nat) (jobs : Nat → Job) (sched : List Nat) (c f tid : Nat) (u : String)
    (hf : ∀ p, R c = some p → (((PSys.start R jobs).run sched).world.pool p).holder = none) :
    let y := (PSys.start R jobs).run sched
    (∃ p c', R c = some p ∧ latestEntry p u y.trace = some c' ∧ (y.world.conn c').offline = false ∧ (y.world.conn c').netClosed = false ∧
      ((PCall.sendTo c u f).body R).exec tid y.world =
        .done .unit (y.world.setConn c' { y.world.conn c' with sent := f :: (y.world.conn c').sent })) ∨
    (((PCall.sendTo c u f).body R).exec tid y.world = .done .failed y.world ∧
      ∀ p c', R c = some p → latestEntry p u y.trace = some c' →
        (y.world.conn c').offline = true ∨ (y.world.conn c').netClosed = true) := by
  intro y
  cases hR : R c with
  | none =>
    right
    refine ⟨by simp [PCall.body, sendToUsername, hR, exec_monad_bind, PProg.exec, boolRes], by simp⟩
  | some p =>
    have hl := entries_latest R jobs sched p u
    simp only at hl
    have hfr := hf p hR
    change (y.world.pool p).clients.get? u = latestEntry p u y.trace at hl
    change (y.world.pool p).holder = none at hfr
    cases he : latestEntry p u y.trace with
    | none =>
      right
      rw [he] at hl
      refine ⟨by simp [PCall.body, sendToUsername, hR, exec_monad_bind, PProg.exec, boolRes, poolLook, World.act, hfr, hl], ?_⟩
      intro p' c' hp hc
      cases hp
      rw [he] at hc; cases hc
    | some c' =>
      rw [he] at hl
      cases ho : (y.world.conn c').offline with
      | true =>
        right
        refine ⟨by simp [PCall.body, sendToUsername, hR, exec_monad_bind, PProg.exec, boolRes, poolLook, World.act, hfr, hl,
          isOfflineNow, ho], ?_⟩
        intro p' c'' hp hc
        cases hp
        rw [he] at hc; cases hc
        exact .inl ho
      | false =>
        cases hn : (y.world.conn c').netClosed with
        | true =>
          right
          refine ⟨by simp [PCall.body, sendToUsername, hR, exec_monad_bind, PProg.exec, boolRes, poolLook, World.act, hfr, hl,
            isOfflineNow, ho, doAct, hn], ?_⟩
          intro p' c'' hp hc
          cases hp
          rw [he] at hc; cases hc
          exact .inr hn
        | false =>
          left
          refine ⟨p, c', rfl, he, ho, hn, ?_⟩
          simp [PCall.body, sendToUsername, hR, exec_monad_bind, PProg.exec, boolRes, poolLook, World.act, hfr, hl,
            isOfflineNow, ho, doAct, hn]

/-- Caveat: checking and writing are separate steps, so a frame can still reach a connection that has been logged out (and replaced)
since; here the receiver leaves and another connection takes the name before the frame is written. -/
theorem C48_stale_receiver_limit :
    ∃ sched, let y := (PSys.start (fun _ => some 0) fun i =>
        if i = 0 then .code (callSeq [.online 1 "bob", .sendTo 3 "bob" 42])
        else .code (callSeq [.offline 1, .online 2 "bob"])).run sched
      (y.world.conn 1).sent = [42] ∧ (y.world.conn 2).sent = [] ∧ latestEntry 0 "bob" y.trace = some 2 :=
  ⟨[0, 0, 0, 0, 0, 0, 0, 1, 1, 1, 1, 1, 1, 1, 1, 1, 0, 0], by decide⟩

example : let y := (PSys.start (fun _ => some 0) fun _ => .code (callSeq [.online 1 "bob", .sendTo 3 "bob" 42])).run (List.replicate 12 0)
    (y.world.conn 1).sent = [42] := by decide

/-! ## C62 -/

/-- C62 is violated by every pool whose members went online with `ctx.Online`: when the closing goroutine of `Stop(true)` locks such a
pool, then in every continuation the pool stays locked and keeps all its members for ever, whatever all other goroutines do: closing
the first member logs it out of the pool, which waits for the lock the closing goroutine itself holds. -/
theorem C62_deadlock_violated (R : Nat → Option Nat) (jobs : Nat → Job) (t p : Nat) (order : List String → List String)
    (hord : ∀ l : List String, (order l).Perm l) (ht : jobs t = .sweep order p)
    (hj : ∀ i, i ≠ t → ∃ code, jobs i = .code code ∧ code.Calls (¬ ForgesName ·)) (before : List Nat) (hb : t ∉ before)
    (hne : (((PSys.start R jobs).run before).world.pool p).clients ≠ [])
    (hfree : (((PSys.start R jobs).run before).world.pool p).holder = none)
    (honline : ∀ e ∈ (((PSys.start R jobs).run before).world.pool p).clients,
      R e.2 = some p ∧ (((PSys.start R jobs).run before).world.conn e.2).name ≠ none)
    (after : List Nat) :
    let y := (PSys.start R jobs).run (before ++ t :: after)
    (y.world.pool p).holder = some t ∧ (y.world.pool p).clients = (((PSys.start R jobs).run before).world.pool p).clients ∧
    ∀ i u c, y.world.act i (.look p u) = none ∧ y.world.act i (.put p u c) = none ∧ y.world.act i (.del p u) = none := by
  intro y
  obtain ⟨hname, hcode⟩ := code_run R jobs t hj ⟨order, p, ht⟩ before
  have hth : ∀ (sched : List Nat), t ∉ sched → ∀ z : PSys, (z.run sched).threads t = z.threads t := by
    intro sched
    induction sched with
    | nil => intro _ z; rfl
    | cons i sched ih =>
      intro hi z
      simp only [List.mem_cons, not_or] at hi
      show ((z.step i).run sched).threads t = _
      rw [ih hi.2]
      unfold PSys.step
      split
      · split
        · simp [hi.1]
        · rfl
      · rfl
  have htt := hth before hb (PSys.start R jobs)
  generalize hz : (PSys.start R jobs).run before = z at *
  have hy : y = (z.step t).run after := by
    show (PSys.start R jobs).run (before ++ t :: after) = _
    rw [← hz]
    simp [PSys.run]
  have hstep : z.step t = PSys.mk (z.world.setPool p { z.world.pool p with holder := some t })
      (fun i => if i = t then sweepHeld R order p else z.threads i) (⟨t, .hold p, .unit⟩ :: z.trace) := by
    have : z.threads t = sweep R order p := by
      rw [htt]
      simp only [PSys.start, ht]
      rfl
    unfold PSys.step
    rw [this, sweep_eq]
    simp only [World.act, if_pos hfree]
  have hcl : ((z.step t).world.pool p).clients = (z.world.pool p).clients := by rw [hstep]; simp [World.setPool]
  have key := stuck_run R order p t (z.world.pool p).clients hord hne (fun e he => (honline e he).1) (z.step t)
    (by rw [hstep]; simp [World.setPool]) hcl (by rw [hstep]; exact hname) (by rw [hstep]; exact fun e he => (honline e he).2)
    (by rw [hstep]; intro i hi; simp only [if_neg hi]; exact hcode i hi) (by rw [hstep]; simp) after
  rw [← hy] at key
  refine ⟨key.1, key.2, fun i u c => ?_⟩
  simp [World.act, key.1]

/-- C62 holds for pools whose members have no user name, or have another pool (members entered with `pool.Online`): the closing goroutine
finishes, all members are closed and the pool is empty and unlocked.
Missing: members that went online with `ctx.Online`, the normal case (`C62_deadlock_violated`). -/
theorem C62_strangers_partial (R : Nat → Option Nat) (w : World) (t p : Nat) (order : List String → List String)
    (hord : ∀ l : List String, (order l).Perm l) (hfree : (w.pool p).holder = none) (hnd : (w.pool p).clients.keys.Nodup)
    (hs : ∀ e ∈ (w.pool p).clients, (w.conn e.2).name = none ∨ ((∃ u, (w.conn e.2).name = some (.str u)) ∧
      ∀ q, R e.2 = some q → q ≠ p ∧ (w.pool q).holder = none)) :
    ∃ w', (sweep R order p).exec t w = .done () w' ∧ (w'.pool p).holder = none ∧
      (∀ u, (w'.pool p).clients.get? u = none) ∧
      ∀ u c, (w.pool p).clients.get? u = some c → (w'.conn c).netClosed = true ∧ (w'.conn c).offline = true := by
  let w1 := w.setPool p { w.pool p with holder := some t }
  have hc1 : (w1.pool p).clients = (w.pool p).clients := by simp [w1, World.setPool]
  obtain ⟨w', h1, h2, h3, _, h5⟩ := sweepGo_exec R p t (order (w.pool p).clients.keys) w1
    ((hord _).nodup_iff.2 hnd) (by
      intro k hk
      have hk' := (hord _).mem_iff.1 hk
      rw [← GoMap.get?_isSome_iff_mem, Option.isSome_iff_exists] at hk'
      obtain ⟨c, hc⟩ := hk'
      refine ⟨c, by rw [hc1]; exact hc, ?_⟩
      have hm := GoMap.mem_of_get?_eq_some hc
      rcases hs _ hm with h | ⟨⟨u, h⟩, hq⟩
      · exact ⟨fun v hv => by simp [w1, World.setPool, h] at hv, .inl h⟩
      · refine ⟨fun v hv => ?_, .inr fun q hR => ?_⟩
        · have : (w1.conn c).name = some (.str u) := h
          rw [this] at hv; cases hv; exact ⟨u, rfl⟩
        · obtain ⟨g1, g2⟩ := hq q hR
          exact ⟨g1, by simp [w1, World.setPool, g1, g2]⟩)
  refine ⟨w'.setPool p { w'.pool p with holder := none }, ?_, by simp [World.setPool], ?_, ?_⟩
  · unfold sweep
    simp only [PProg.exec, World.act, if_pos hfree]
    show ((sweep.go R p (order (w1.pool p).clients.keys)).bind fun _ => doUnit (.release p)).exec t w1 = _
    rw [hc1, PProg.exec_bind, h1]
    rfl
  · intro u
    simp only [World.setPool, if_true]
    rw [h3]
    split
    · rfl
    · rename_i hu
      rw [hc1]
      cases hg : (w.pool p).clients.get? u with
      | none => rfl
      | some c =>
        exact absurd ((hord _).mem_iff.2 ((GoMap.get?_isSome_iff_mem _ _).1 (by rw [hg]; rfl))) hu
  · intro u c hc
    refine h5 u ?_ c (by rw [hc1]; exact hc)
    exact (hord _).mem_iff.2 ((GoMap.get?_isSome_iff_mem _ _).1 (by rw [hc]; rfl))

/-- Two users online, then `Stop(true)`. -/
def Demo.stopTwo : Nat → Job := fun i =>
  if i = 0 then .code (callSeq [.online 1 "bob", .online 2 "amy"]) else if i = 1 then .sweep id 0 else .code .done

example : let y := (PSys.start (fun _ => some 0) Demo.stopTwo).run (List.replicate 8 0 ++ 1 :: List.replicate 50 1)
    (y.world.pool 0).clients.keys = ["amy", "bob"] ∧ (y.world.conn 2).netClosed = true ∧ (y.world.conn 1).netClosed = false ∧
      (y.world.pool 0).holder = some 1 := by decide

example : let w := (((PSys.start (fun _ => some 0) fun _ => .code (callSeq [.poolOnline 3 "bob" 1])).run (List.replicate 8 0)).world)
    match (sweep (fun _ => some 0) id 3).exec 9 w with
    | .done _ w' => (w'.conn 1).offline = true ∧ (w'.pool 3).clients = []
    | _ => False := by exact ⟨rfl, rfl⟩

end Tcpx
