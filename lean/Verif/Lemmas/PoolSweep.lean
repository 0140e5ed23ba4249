import Verif.Lemmas.PoolEntries
/-! # Lemmas about the closing goroutine (C62) -/
namespace Tcpx
open Spec

/-! ## Getting stuck -/

/-- Actions of the closing goroutine only. -/
def PAct.Holding : PAct → Prop
  | .hold _ => True
  | .release _ => True
  | .keys _ => True
  | .lookHeld _ _ => True
  | .delHeld _ _ => True
  | _ => False

/-- User code; `true` marks the closing goroutine, about which nothing is said. -/
def codeTS : TS Bool where
  ok s a := (∀ x v, a = .setName x v → ∃ u, v = .str u) ∧ (s = true ∨ ¬ a.Holding)
  poss _ a r := ∀ x v, a = .getName x → r = .any (some v) → ∃ u, v = .str u
  next s _ _ := s
  panicOk _ := True

theorem poolOffline_code (q : Nat) (u' : String) (s : Bool) : (poolOffline q u').Tr codeTS (fun _ s' => s' = s) s := by
  simp only [poolOffline, tr_monad_bind, tr_poolLook]
  refine ⟨by simp [codeTS, PAct.Holding], fun o _ => ?_⟩
  cases o with
  | none => rfl
  | some x => exact ⟨by simp [codeTS, PAct.Holding], fun _ _ _ => rfl⟩

theorem ctxOffline_code (R : Nat → Option Nat) (x : Nat) (s : Bool) : (ctxOffline R x).Tr codeTS (fun _ s' => s' = s) s := by
  unfold ctxOffline
  split
  · rfl
  · rename_i q h
    simp only [tr_monad_bind, tr_connName]
    refine ⟨by simp [codeTS, PAct.Holding], fun _ => rfl, fun v hv => ⟨?_, fun _ => trivial⟩⟩
    rintro u' rfl
    exact poolOffline_code q u' _

theorem closeConn_code (R : Nat → Option Nat) (x : Nat) (s : Bool) : (closeConn R x).Tr codeTS (fun _ s' => s' = s) s := by
  simp only [closeConn, tr_monad_bind, tr_doUnit, tr_doAct]
  refine ⟨by simp [codeTS, PAct.Holding], fun _ _ _ => ⟨by simp [codeTS, PAct.Holding], fun _ _ _ => ?_⟩⟩
  split
  · rw [tr_monad_bind]
    refine (ctxOffline_code R x _).mono ?_
    rintro _ _ rfl
    exact ⟨by simp [codeTS, PAct.Holding], fun _ _ _ => rfl⟩
  · exact ⟨by simp [codeTS, PAct.Holding], fun _ _ _ => rfl⟩

theorem call_code (R : Nat → Option Nat) (x : PCall) (hx : ¬ ForgesName x) (s : Bool) (hs : s = false) :
    (x.run R).Tr codeTS (fun _ s' => s' = false) s := by
  subst hs
  unfold PCall.run
  simp only [tr_monad_bind, tr_doUnit]
  refine ⟨by simp [codeTS, PAct.Holding], fun _ _ _ => ?_⟩
  suffices h : (x.body R).Tr codeTS (fun _ s' => s' = false) false by
    refine h.mono ?_
    rintro r s' rfl
    exact ⟨by simp [codeTS, PAct.Holding], fun _ _ _ => rfl⟩
  cases x with
  | poolOnline q u' x => exact ⟨by simp [codeTS, PAct.Holding], fun _ _ _ => rfl⟩
  | poolGet q u' =>
    simp only [PCall.body, tr_monad_bind, tr_poolLook]
    exact ⟨by simp [codeTS, PAct.Holding], fun _ _ => rfl⟩
  | poolDelete q u' => exact ⟨by simp [codeTS, PAct.Holding], fun _ _ _ => rfl⟩
  | poolOffline q u' =>
    simp only [PCall.body, tr_monad_bind]
    exact (poolOffline_code q u' false).mono fun _ _ h => h
  | online x u' =>
    simp only [PCall.body, tr_monad_bind, ctxOnline]
    split
    · rfl
    · simp only [tr_monad_bind, tr_doUnit]
      refine ⟨by simp [codeTS, PAct.Holding], fun _ _ _ => ?_⟩
      split
      · rfl
      · exact ⟨by simp [codeTS, PAct.Holding], fun _ _ _ => rfl⟩
  | offline x =>
    simp only [PCall.body, tr_monad_bind]
    exact (ctxOffline_code R x false).mono fun _ _ h => h
  | close x =>
    simp only [PCall.body, tr_monad_bind]
    exact (closeConn_code R x false).mono fun _ _ h => h
  | sendTo x u' f =>
    simp only [PCall.body, tr_monad_bind, sendToUsername]
    split
    · rfl
    · simp only [tr_monad_bind, tr_poolLook]
      refine ⟨by simp [codeTS, PAct.Holding], fun o _ => ?_⟩
      cases o with
      | none => rfl
      | some x' =>
        simp only [tr_monad_bind, tr_isOfflineNow]
        refine ⟨by simp [codeTS, PAct.Holding], fun o _ => ?_⟩
        cases o with
        | true => rfl
        | false =>
          simp only [Bool.false_eq_true, if_false, tr_monad_bind, tr_doAct]
          refine ⟨by simp [codeTS, PAct.Holding], ?_⟩
          rintro _ ⟨b, rfl⟩ _
          rfl
  | isOffline x =>
    simp only [PCall.body, tr_monad_bind, tr_isOfflineNow]
    exact ⟨by simp [codeTS, PAct.Holding], fun _ _ => rfl⟩
  | setUsername x u' => exact ⟨by simp [codeTS, PAct.Holding], fun _ _ _ => rfl⟩
  | setReq x v =>
    refine ⟨⟨?_, .inr (by simp [PAct.Holding])⟩, fun _ _ _ => rfl⟩
    rintro x v' he
    simp only [PAct.setName.injEq] at he
    obtain ⟨_, rfl⟩ := he
    simp only [ForgesName, ne_eq, Classical.not_forall, Classical.not_not] at hx
    exact hx

theorem sweepGo_code (R : Nat → Option Nat) (q : Nat) (ks : List String) :
    (sweep.go R q ks).Tr codeTS (fun _ s' => s' = true) true := by
  induction ks with
  | nil => rfl
  | cons k ks ih =>
    unfold sweep.go
    rw [tr_act]
    refine ⟨by simp [codeTS], ?_⟩
    rintro _ ⟨o, rfl⟩ _
    cases o with
    | none => trivial
    | some c' =>
      simp only [PProg.tr_bind]
      refine (closeConn_code R c' _).mono ?_
      rintro _ s' rfl
      exact ⟨by simp [codeTS], fun _ _ _ => ih⟩

theorem sweep_code (R : Nat → Option Nat) (order : List String → List String) (q : Nat) :
    (sweep R order q).Tr codeTS (fun _ _ => True) true := by
  refine ⟨by simp [codeTS], fun _ _ _ => ⟨by simp [codeTS], ?_⟩⟩
  rintro _ ⟨l, rfl⟩ _
  simp only [PProg.tr_bind]
  refine (sweepGo_code R q _).mono ?_
  intro _ s' _
  exact ⟨by simp_all [codeTS], fun _ _ _ => trivial⟩

/-- After the start: user code does only what user code does, and names are strings. -/
theorem code_run (R : Nat → Option Nat) (jobs : Nat → Job) (t : Nat)
    (hj : ∀ i, i ≠ t → ∃ code, jobs i = .code code ∧ code.Calls (¬ ForgesName ·))
    (ht : ∃ order p, jobs t = .sweep order p) (sched : List Nat) :
    let y := (PSys.start R jobs).run sched
    (∀ x v, (y.world.conn x).name = some v → ∃ u, v = .str u) ∧
    ∀ i, i ≠ t → (y.threads i).Tr codeTS (fun _ _ => True) false := by
  intro y
  have key := PSys.run_tr codeTS (fun w _ => ∀ x v, (w.conn x).name = some v → ∃ u, v = .str u)
    (fun i s _ _ => i ≠ t → s = false) (PSys.start R jobs) (by simp [PSys.start]) ?_ ?_ sched
  · refine ⟨key.1, fun i hi => ?_⟩
    obtain ⟨s, h1, h2⟩ := key.2 i
    rw [h2 hi] at h1
    exact h1
  · intro i
    by_cases hi : i = t
    · subst hi
      obtain ⟨order, p, h⟩ := ht
      refine ⟨true, ?_, fun h => absurd rfl h⟩
      simp only [PSys.start, h]
      exact sweep_code R order p
    · obtain ⟨code, h1, h2⟩ := hj i hi
      refine ⟨false, ?_, fun _ => rfl⟩
      simp only [PSys.start, h1]
      exact PCode.run_tr R codeTS (¬ ForgesName ·) (· = false) (fun x hx s hs => call_code R x hx s hs) code h2 _ rfl
  · intro i s w tr a r w' hn hrel hok hact
    refine ⟨?_, ?_, hrel, fun j _ s' h => h⟩
    · rintro x v rfl rfl
      simp only [World.act, Option.some.injEq, Prod.mk.injEq, PVal.any.injEq] at hact
      exact hn x v hact.1
    · intro x v hv
      rcases act_names hact x with ⟨v', rfl, h⟩ | ⟨h, _⟩
      · obtain ⟨u, rfl⟩ := hok.1 x v' rfl
        rw [h] at hv; cases hv
        exact ⟨u, rfl⟩
      · exact hn x v (by rw [← h]; exact hv)

/-- While pool `p`, with contents `m`, is locked by the closing goroutine. -/
def stuckTS (p : Nat) (m : GoMap String Nat) : TS Bool where
  ok _ a := (∀ x v, a = .setName x v → ∃ u, v = .str u) ∧ ¬ (∃ q, a = .release q) ∧ ¬ (∃ q k, a = .delHeld q k) ∧ ¬ (∃ q, a = .hold q)
  poss _ a r :=
    match a with
    | .getName x => (∀ v, r = .any (some v) → ∃ u, v = .str u) ∧ (x ∈ m.map (·.2) → r ≠ .any none)
    | .look q _ => q ≠ p
    | .lookHeld q k => q = p → r = .conn (m.get? k)
    | .keys q => q = p → r = .keys m.keys
    | _ => True
  next s _ _ := s
  panicOk _ := True

theorem tr_code_stuck {α : Type} (p : Nat) (m : GoMap String Nat) (prog : PProg α) (h : prog.Tr codeTS (fun _ _ => True) false) :
    prog.Tr (stuckTS p m) (fun _ _ => True) false := by
  induction prog with
  | ret a => trivial
  | panic => trivial
  | act a k ih =>
    obtain ⟨⟨h1, h2⟩, h3⟩ := h
    refine ⟨⟨h1, ?_, ?_, ?_⟩, fun r ht hr => ih r (h3 r ht ?_)⟩
    · rintro ⟨q, rfl⟩; simp [PAct.Holding] at h2
    · rintro ⟨q, k, rfl⟩; simp [PAct.Holding] at h2
    · rintro ⟨q, rfl⟩; simp [PAct.Holding] at h2
    · rintro x v rfl rfl
      exact hr.1 v rfl

theorem sweep_stuck (R : Nat → Option Nat) (order : List String → List String) (p : Nat) (m : GoMap String Nat)
    (hord : ∀ l : List String, (order l).Perm l) (hne : m ≠ []) (hR : ∀ e ∈ m, R e.2 = some p) :
    (PProg.act (.keys p) fun
      | .keys l => (sweep.go R p (order l)).bind fun _ => doUnit (.release p)
      | _ => .panic).Tr (stuckTS p m) (fun _ _ => True) false := by
  refine ⟨⟨by simp, by simp, by simp, by simp⟩, ?_⟩
  rintro _ ⟨l, rfl⟩ hl
  simp only [PProg.tr_bind]
  have hl' : l = m.keys := by have := hl rfl; cases this; rfl
  subst hl'
  cases ho : order m.keys with
  | nil =>
    have := (hord m.keys).length_eq
    rw [ho] at this
    cases m with
    | nil => exact absurd rfl hne
    | cons e m => simp [GoMap.keys] at this
  | cons k ks =>
    unfold sweep.go
    rw [tr_act]
    refine ⟨⟨by simp, by simp, by simp, by simp⟩, ?_⟩
    rintro _ ⟨o, rfl⟩ hlk
    have hlk' : o = m.get? k := by have := hlk rfl; cases this; rfl
    cases o with
    | none => trivial
    | some c =>
      have hmem := GoMap.mem_of_get?_eq_some hlk'.symm
      have hRc : R c = some p := hR _ hmem
      simp only [PProg.tr_bind, closeConn, tr_monad_bind, tr_doUnit, tr_doAct, hRc, Option.isSome_some, if_true]
      refine ⟨⟨by simp, by simp, by simp, by simp⟩, fun _ _ _ => ⟨⟨by simp, by simp, by simp, by simp⟩, fun _ _ _ => ?_⟩⟩
      simp only [ctxOffline, hRc, tr_monad_bind, tr_connName]
      refine ⟨⟨by simp, by simp, by simp, by simp⟩, ?_, ?_⟩
      · intro h
        exact absurd rfl (h.2 (List.mem_map.2 ⟨_, hmem, rfl⟩))
      · intro v hv
        refine ⟨?_, fun _ => trivial⟩
        rintro u rfl
        simp only [poolOffline, tr_monad_bind, tr_poolLook]
        exact ⟨⟨by simp, by simp, by simp, by simp⟩, fun o ho => absurd rfl ho⟩

theorem act_pool_other {w w' : World} {i : Nat} {a : PAct} {r : PVal} (h : w.act i a = some (r, w')) (p : Nat)
    (hh : (w.pool p).holder ≠ none) (h1 : ¬ (∃ q, a = .release q)) (h2 : ¬ (∃ q k, a = .delHeld q k)) : w'.pool p = w.pool p := by
  cases a <;> simp only [World.act] at h <;> (try split at h) <;>
    simp only [Option.some.injEq, Prod.mk.injEq, reduceCtorEq] at h <;> obtain ⟨_, rfl⟩ := h <;> (try rfl) <;>
    (try exact absurd ⟨_, rfl⟩ h1) <;> (try exact absurd ⟨_, _, rfl⟩ h2) <;>
    simp only [World.setPool] <;> split <;> (try rfl) <;> (subst_vars; exact absurd ‹_› hh)

/-- The closing goroutine once it holds the pool. -/
def sweepHeld (R : Nat → Option Nat) (order : List String → List String) (p : Nat) : PProg Unit :=
  .act (.keys p) fun
    | .keys l => (sweep.go R p (order l)).bind fun _ => doUnit (.release p)
    | _ => .panic

theorem sweep_eq (R : Nat → Option Nat) (order : List String → List String) (p : Nat) :
    sweep R order p = .act (.hold p) fun _ => sweepHeld R order p := by
  unfold sweep sweepHeld
  congr 1

/-- Once the closing goroutine `t` has locked a pool whose members are all online in it, the pool stays locked and unchanged. -/
theorem stuck_run (R : Nat → Option Nat) (order : List String → List String) (p t : Nat) (m : GoMap String Nat)
    (hord : ∀ l : List String, (order l).Perm l) (hne : m ≠ []) (hR : ∀ e ∈ m, R e.2 = some p) (y : PSys)
    (hhold : (y.world.pool p).holder = some t) (hm : (y.world.pool p).clients = m)
    (hname : ∀ x v, (y.world.conn x).name = some v → ∃ u, v = .str u)
    (hnamed : ∀ e ∈ m, (y.world.conn e.2).name ≠ none)
    (hcode : ∀ i, i ≠ t → (y.threads i).Tr codeTS (fun _ _ => True) false)
    (ht : y.threads t = sweepHeld R order p)
    (sched : List Nat) :
    ((y.run sched).world.pool p).holder = some t ∧ ((y.run sched).world.pool p).clients = m := by
  have key := PSys.run_tr (stuckTS p m)
    (fun w _ => ((w.pool p).holder = some t ∧ (w.pool p).clients = m) ∧ (∀ x v, (w.conn x).name = some v → ∃ u, v = .str u) ∧
      ∀ e ∈ m, (w.conn e.2).name ≠ none)
    (fun _ _ _ _ => True) y ⟨⟨hhold, hm⟩, hname, hnamed⟩ ?_ ?_ sched
  · exact key.1.1
  · intro i
    refine ⟨false, ?_, trivial⟩
    by_cases hi : i = t
    · subst hi
      rw [ht]
      exact sweep_stuck R order p m hord hne hR
    · exact tr_code_stuck p m _ (hcode i hi)
  · rintro i s w tr a r w' ⟨⟨e1, e2⟩, e3, e4⟩ _ ⟨o1, o2, o3, o4⟩ hact
    have hp : w'.pool p = w.pool p := act_pool_other hact p (by rw [e1]; simp) o2 o3
    refine ⟨?_, ⟨⟨by rw [hp]; exact e1, by rw [hp]; exact e2⟩, ?_, ?_⟩, trivial, fun _ _ _ _ => trivial⟩
    · cases a <;> try trivial
      · rename_i q u
        rintro rfl
        simp only [World.act, e1] at hact
        simp at hact
      · rename_i q
        rintro rfl
        simp only [World.act, Option.some.injEq, Prod.mk.injEq] at hact
        rw [← hact.1, e2]
      · rename_i q k
        rintro rfl
        simp only [World.act, Option.some.injEq, Prod.mk.injEq] at hact
        rw [← hact.1, e2]
      · rename_i x
        simp only [World.act, Option.some.injEq, Prod.mk.injEq] at hact
        refine ⟨?_, ?_⟩
        · rintro v rfl
          simp only [PVal.any.injEq] at hact
          exact e3 x v hact.1
        · intro hx hr
          rw [hr] at hact
          simp only [PVal.any.injEq] at hact
          obtain ⟨e, he, rfl⟩ := List.mem_map.1 hx
          exact e4 e he hact.1
    · intro x v hv
      rcases act_names hact x with ⟨v', rfl, h⟩ | ⟨h, _⟩
      · obtain ⟨u, rfl⟩ := o1 x v' rfl
        rw [h] at hv; cases hv
        exact ⟨u, rfl⟩
      · exact e3 x v (by rw [← h]; exact hv)
    · intro e he
      rcases act_names hact e.2 with ⟨v', _, h⟩ | ⟨h, _⟩
      · rw [h]; simp
      · rw [h]; exact e4 e he

/-! ## Finishing -/

/-- Closing `c` while pool `p` is locked does not need that lock. -/
def CanClose (R : Nat → Option Nat) (p : Nat) (w : World) (c : Nat) : Prop :=
  (∀ v, (w.conn c).name = some v → ∃ u, v = .str u) ∧
  ((w.conn c).name = none ∨ ∀ q, R c = some q → q ≠ p ∧ (w.pool q).holder = none)

theorem sweepGo_exec (R : Nat → Option Nat) (p tid : Nat) (ks : List String) (w : World) (hnd : ks.Nodup)
    (hks : ∀ k ∈ ks, ∃ c, (w.pool p).clients.get? k = some c ∧ CanClose R p w c) :
    ∃ w', (sweep.go R p ks).exec tid w = .done () w' ∧ (w'.pool p).holder = (w.pool p).holder ∧
      (∀ u, (w'.pool p).clients.get? u = if u ∈ ks then none else (w.pool p).clients.get? u) ∧
      (∀ c, (w.conn c).netClosed = true ∧ (w.conn c).offline = true → (w'.conn c).netClosed = true ∧ (w'.conn c).offline = true) ∧
      (∀ k ∈ ks, ∀ c, (w.pool p).clients.get? k = some c → (w'.conn c).netClosed = true ∧ (w'.conn c).offline = true) := by
  induction ks generalizing w with
  | nil => exact ⟨w, rfl, rfl, by simp, fun _ h => h, by simp⟩
  | cons k ks ih =>
    obtain ⟨c, hc, hcan⟩ := hks k List.mem_cons_self
    rw [List.nodup_cons] at hnd
    have hnop : ∀ q u, R c = some q → (w.conn c).name = some (.str u) → q ≠ p ∧ (w.pool q).holder = none := by
      intro q u hq hu
      rcases hcan.2 with h | h
      · rw [h] at hu; cases hu
      · exact h q hq
    obtain ⟨w1, h1, h2, h3, h4⟩ := closeConn_exec R w c tid hcan.1 (fun q u hq hu => (hnop q u hq hu).2)
    have hp1 : ∀ u, (w1.pool p).clients.get? u = (w.pool p).clients.get? u := by
      intro u
      rw [h4]
      rw [if_neg]
      rintro ⟨hq, hu⟩
      exact (hnop p u hq hu).1 rfl
    have hn1 : ∀ x, (w1.conn x).name = (w.conn x).name := by
      intro x
      rw [h2]
      split
      · rename_i hx; rw [hx]
      · rfl
    let w2 : World := w1.setPool p { w1.pool p with clients := (w1.pool p).clients.delete k }
    have hw2 : w2 = w1.setPool p { w1.pool p with clients := (w1.pool p).clients.delete k } := rfl
    have hp2 : ∀ u, (w2.pool p).clients.get? u = if u = k then none else (w.pool p).clients.get? u := by
      intro u
      rw [hw2]
      simp only [World.setPool, if_true, GoMap.get?_delete]
      rw [hp1 u]
    have hh2 : ∀ q, (w2.pool q).holder = (w.pool q).holder := by
      intro q
      rw [hw2]
      simp only [World.setPool]
      split
      · rename_i hq; subst hq; exact h3 q
      · exact h3 q
    have hc2 : w2.conn = w1.conn := rfl
    obtain ⟨w', g1, g2, g3, g4, g5⟩ := ih w2 hnd.2 (by
      intro k' hk'
      obtain ⟨c', hc', hcan'⟩ := hks k' (List.mem_cons_of_mem _ hk')
      refine ⟨c', ?_, ?_, ?_⟩
      · rw [hp2, if_neg (fun h => hnd.1 (by rw [← h]; exact hk'))]
        exact hc'
      · rw [hc2, hn1]; exact hcan'.1
      · rw [hc2, hn1]
        rcases hcan'.2 with h | h
        · exact .inl h
        · exact .inr fun q hq => ⟨(h q hq).1, by rw [hh2]; exact (h q hq).2⟩)
    refine ⟨w', ?_, by rw [g2, hh2], ?_, ?_, ?_⟩
    · unfold sweep.go
      simp only [PProg.exec, World.act, hc, PProg.exec_bind, h1]
      exact g1
    · intro u
      rw [g3, hp2]
      by_cases hu : u = k
      · simp [hu]
      · simp [hu]
    · intro x hx
      refine g4 x ?_
      rw [hc2, h2]
      split
      · exact ⟨rfl, rfl⟩
      · exact hx
    · intro k' hk' c' hc'
      rcases List.mem_cons.1 hk' with rfl | hk'
      · rw [hc] at hc'
        cases hc'
        refine g4 c ?_
        rw [hc2, h2, if_pos rfl]
        exact ⟨rfl, rfl⟩
      · refine g5 k' hk' c' ?_
        rw [hp2, if_neg (fun h => hnd.1 (by rw [← h]; exact hk'))]
        exact hc'

end Tcpx
