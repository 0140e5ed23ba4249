import Verif.Lemmas.PoolClose
/-! # Lemmas about pool entries of closed connections (C46, C47, C48) -/
namespace Tcpx
open Spec

/-- How an action changes the entries of the pools. -/
theorem act_entries {w w' : World} {i : Nat} {a : PAct} {r : PVal} (h : w.act i a = some (r, w')) (q : Nat) (u : String) :
    (w'.pool q).clients.get? u =
      match a with
      | .put q' u' c => if q' = q ∧ u' = u then some c else (w.pool q).clients.get? u
      | .del q' u' => if q' = q ∧ u' = u then none else (w.pool q).clients.get? u
      | .delHeld q' u' => if q' = q ∧ u' = u then none else (w.pool q).clients.get? u
      | _ => (w.pool q).clients.get? u := by
  cases a <;> simp only [World.act] at h <;> (try split at h) <;>
    simp only [Option.some.injEq, Prod.mk.injEq, reduceCtorEq] at h <;> obtain ⟨_, rfl⟩ := h <;>
    simp only [World.setPool, World.setConn] <;> (try split) <;>
    (try subst_vars) <;> (try simp only [GoMap.get?_set, GoMap.get?_delete, true_and]) <;> (try simp_all [eq_comm])

/-! ## C46 -/

structure Known where
  named : Bool
  clear : Bool

/-- For connection `c`, known as `u` in pool `p`: whether this goroutine has given it its name, and whether it has seen or made the
entry vanish since it began to close it. -/
def knownTS (p : Nat) (u : String) (c : Nat) : TS Known where
  ok s a :=
    match a with
    | .put q u' x => x = c → q = p ∧ u' = u ∧ s.named = true
    | .setName x v => x = c → v = .str u
    | .ret (.close x) _ => x = c → s.clear = true
    | _ => True
  poss _ a r :=
    match a with
    | .getName x => x = c → r = .any none ∨ r = .any (some (.str u))
    | _ => True
  next s a r :=
    match a with
    | .setName x _ => if x = c then { s with named := true } else s
    | .inv (.close x) => if x = c then { s with clear := false } else s
    | .getName x => if x = c ∧ r = .any none then { s with clear := true } else s
    | .look q u' => if q = p ∧ u' = u ∧ r ≠ .conn (some c) then { s with clear := true } else s
    | .del q u' => if q = p ∧ u' = u then { s with clear := true } else s
    | _ => s
  panicOk _ := True

section known
variable (p : Nat) (u : String) (c : Nat) (R : Nat → Option Nat) (hR : R c = some p)

theorem poolOffline_known (q : Nat) (u' : String) (s : Known) :
    (poolOffline q u').Tr (knownTS p u c) (fun _ s' => q = p → u' = u → s'.clear = true) s := by
  simp only [poolOffline, tr_monad_bind, tr_poolLook]
  refine ⟨trivial, fun o _ => ?_⟩
  cases o with
  | none =>
    rintro rfl rfl
    simp [knownTS]
  | some x =>
    refine ⟨trivial, fun _ _ _ => ?_⟩
    rintro rfl rfl
    simp [knownTS]

include hR in
theorem ctxOffline_known (x : Nat) (s : Known) :
    (ctxOffline R x).Tr (knownTS p u c) (fun _ s' => x = c → s'.clear = true) s := by
  unfold ctxOffline
  split
  · rename_i h
    rintro rfl
    rw [hR] at h; cases h
  · rename_i q h
    simp only [tr_monad_bind, tr_connName]
    refine ⟨trivial, ?_, fun v hv => ⟨?_, fun _ => trivial⟩⟩
    · rintro _ rfl
      simp [knownTS]
    · rintro u' rfl
      refine (poolOffline_known p u c q u' _).mono ?_
      rintro _ s' hs' rfl
      rw [hR] at h
      cases h
      have := hv rfl
      simp at this
      exact hs' rfl this

include hR in
theorem closeConn_known (x : Nat) (s : Known) : (closeConn R x).Tr (knownTS p u c) (fun _ s' => x = c → s'.clear = true) s := by
  unfold closeConn
  simp only [tr_monad_bind, tr_doUnit, tr_doAct]
  refine ⟨trivial, fun _ _ _ => ⟨trivial, fun _ _ _ => ?_⟩⟩
  split
  · rw [tr_monad_bind]
    refine (ctxOffline_known p u c R hR x _).mono ?_
    intro _ s' hs'
    exact ⟨trivial, fun _ _ _ => hs'⟩
  · rename_i h
    refine ⟨trivial, fun _ _ _ => ?_⟩
    rintro rfl
    rw [hR] at h
    simp at h

include hR in
theorem call_known (x : PCall) (hx : OnlyKnownAs c u x) (s : Known) : (x.run R).Tr (knownTS p u c) (fun _ _ => True) s := by
  unfold PCall.run
  simp only [tr_monad_bind, tr_doUnit]
  refine ⟨trivial, fun _ _ _ => ?_⟩
  generalize (knownTS p u c).next s (.inv x) _ = s
  suffices h : (x.body R).Tr (knownTS p u c) (fun _ s' => x = .close c → s'.clear = true) s by
    refine h.mono fun r s' hs' => ⟨?_, fun _ _ _ => trivial⟩
    cases x <;> try trivial
    rintro rfl
    exact hs' rfl
  cases x with
  | poolOnline q u' x => exact ⟨fun h => absurd h hx, fun _ _ _ => (by intro h; cases h)⟩
  | poolGet q u' =>
    simp only [PCall.body, tr_monad_bind, tr_poolLook]
    exact ⟨trivial, fun _ _ => by simp [tr_ret]⟩
  | poolDelete q u' => exact ⟨trivial, fun _ _ _ => (by intro h; cases h)⟩
  | poolOffline q u' =>
    simp only [PCall.body, tr_monad_bind]
    exact (poolOffline_known p u c q u' s).mono fun _ _ _ => by simp [tr_ret]
  | online x u' =>
    simp only [PCall.body, tr_monad_bind, ctxOnline]
    split
    · simp [tr_ret]
    · simp only [tr_monad_bind, tr_doUnit]
      refine ⟨fun h => by rw [hx h], fun _ _ _ => ?_⟩
      split
      · simp [tr_ret]
      · rename_i q hq
        simp only [tr_monad_bind, tr_doUnit]
        refine ⟨?_, fun _ _ _ => by simp [tr_ret]⟩
        rintro rfl
        rw [hR] at hq
        cases hq
        exact ⟨rfl, hx rfl, by simp [knownTS]⟩
  | offline x =>
    simp only [PCall.body, tr_monad_bind]
    exact (ctxOffline_known p u c R hR x s).mono fun _ _ _ => by simp [tr_ret]
  | close x =>
    simp only [PCall.body, tr_monad_bind]
    refine (closeConn_known p u c R hR x s).mono fun _ s' hs' => ?_
    intro h
    simp only [PCall.close.injEq] at h
    exact hs' h
  | sendTo x u' f =>
    simp only [PCall.body, tr_monad_bind, sendToUsername]
    split
    · simp [tr_ret]
    · simp only [tr_monad_bind, tr_poolLook]
      refine ⟨trivial, fun o _ => ?_⟩
      cases o with
      | none => simp [tr_ret]
      | some x' =>
        simp only [tr_monad_bind, tr_isOfflineNow]
        refine ⟨trivial, fun o _ => ?_⟩
        cases o with
        | true => simp [tr_ret]
        | false =>
          simp only [Bool.false_eq_true, if_false, tr_monad_bind, tr_doAct]
          refine ⟨trivial, ?_⟩
          rintro _ ⟨b, rfl⟩ _
          simp [tr_ret]
  | isOffline x =>
    simp only [PCall.body, tr_monad_bind, tr_isOfflineNow]
    exact ⟨trivial, fun _ _ => by simp [tr_ret]⟩
  | setUsername x u' => exact ⟨fun h => by rw [hx h], fun _ _ _ => (by intro h; cases h)⟩
  | setReq x v => exact ⟨fun h => absurd h hx, fun _ _ _ => (by intro h; cases h)⟩

include hR in
theorem sweepGo_known (q : Nat) (ks : List String) (s : Known) :
    (sweep.go R q ks).Tr (knownTS p u c) (fun _ _ => True) s := by
  induction ks generalizing s with
  | nil => trivial
  | cons k ks ih =>
    unfold sweep.go
    rw [tr_act]
    refine ⟨trivial, ?_⟩
    rintro _ ⟨o, rfl⟩ _
    cases o with
    | none => trivial
    | some c' =>
      simp only [PProg.tr_bind]
      refine (closeConn_known p u c R hR c' _).mono ?_
      rintro _ s' _
      exact ⟨trivial, fun _ _ _ => ih _⟩

include hR in
theorem sweep_known (order : List String → List String) (q : Nat) (s : Known) :
    (sweep R order q).Tr (knownTS p u c) (fun _ _ => True) s := by
  refine ⟨trivial, fun _ _ _ => ⟨trivial, ?_⟩⟩
  rintro _ ⟨l, rfl⟩ _
  simp only [PProg.tr_bind]
  refine (sweepGo_known p u c R hR q _ _).mono ?_
  intro _ s' _
  exact ⟨trivial, fun _ _ _ => trivial⟩

end known

theorem noEntrySince_cons {i c : Nat} {e : PEvent} {tr : List PEvent} (h : NoEntrySinceClose i c (e :: tr)) :
    (e.tid = i ∧ e.action = .inv (.close c)) ∨ (NoEntrySinceClose i c tr ∧ ∀ q u, e.action ≠ .put q u c) := by
  obtain ⟨post, pre, v, h1, h2⟩ := h
  cases post with
  | nil =>
    simp only [List.nil_append, List.cons.injEq] at h1
    exact .inl (by rw [h1.1]; exact ⟨rfl, rfl⟩)
  | cons e' post =>
    simp only [List.cons_append, List.cons.injEq] at h1
    obtain ⟨rfl, rfl⟩ := h1
    exact .inr ⟨⟨post, pre, v, rfl, fun e he => h2 e (List.mem_cons_of_mem _ he)⟩, h2 e List.mem_cons_self⟩

theorem cleanlyClosed_cons {c : Nat} {e : PEvent} {tr : List PEvent} (h : CleanlyClosed c (e :: tr)) :
    (∀ q u, e.action ≠ .put q u c) ∧
    (CleanlyClosed c tr ∨ ((∃ r, e.action = .ret (.close c) r) ∧ NoEntrySinceClose e.tid c tr)) := by
  obtain ⟨post, pre, tid, v, r, v', h1, h2, h3⟩ := h
  cases post with
  | nil => cases h2
  | cons e' post =>
    simp only [List.cons_append, List.cons.injEq] at h1
    obtain ⟨rfl, rfl⟩ := h1
    refine ⟨h3 e List.mem_cons_self, ?_⟩
    have h3' : ∀ e ∈ post, ∀ q u, e.action ≠ .put q u c := fun e he => h3 e (List.mem_cons_of_mem _ he)
    rcases List.mem_cons.1 h2 with rfl | h2
    · exact .inr ⟨⟨r, rfl⟩, post, pre, v, rfl, h3'⟩
    · exact .inl ⟨post, pre, tid, v, r, v', rfl, h2, h3'⟩

/-- An entry for `c` that is there was there before, unless it is made now. -/
theorem entry_before {w w' : World} {i : Nat} {a : PAct} {r : PVal} (h : w.act i a = some (r, w')) {c q : Nat} {u : String}
    (hn : a ≠ .put q u c) (he : (w'.pool q).clients.get? u = some c) : (w.pool q).clients.get? u = some c := by
  rw [act_entries h] at he
  split at he
  · split at he
    · rename_i hq
      obtain ⟨rfl, rfl⟩ := hq
      cases he
      exact absurd rfl hn
    · exact he
  · split at he
    · cases he
    · exact he
  · split at he
    · cases he
    · exact he
  · exact he

theorem known_run (R : Nat → Option Nat) (jobs : Nat → Job) (c p : Nat) (u : String) (hR : R c = some p)
    (hj : ∀ i code, jobs i = .code code → code.Calls (OnlyKnownAs c u)) (sched : List Nat) :
    let y := (PSys.start R jobs).run sched
    CleanlyClosed c y.trace → ∀ q u', (y.world.pool q).clients.get? u' ≠ some c := by
  intro y
  have key := PSys.run_tr (knownTS p u c)
    (fun w tr => (∀ q u', (w.pool q).clients.get? u' = some c → q = p ∧ u' = u ∧ (w.conn c).name ≠ none) ∧
      ((w.conn c).name = none ∨ (w.conn c).name = some (.str u)) ∧
      (CleanlyClosed c tr → ∀ q u', (w.pool q).clients.get? u' ≠ some c))
    (fun i s w tr => (s.named = true → (w.conn c).name ≠ none) ∧
      (s.clear = true → NoEntrySinceClose i c tr → ∀ q u', (w.pool q).clients.get? u' ≠ some c))
    (PSys.start R jobs) ?_ ?_ ?_ sched
  · exact key.1.2.2
  · refine ⟨by simp [PSys.start], .inl rfl, ?_⟩
    simp [PSys.start]
  · intro i
    refine ⟨⟨false, false⟩, ?_, by simp, by simp⟩
    simp only [PSys.start]
    cases hji : jobs i with
    | code code =>
      exact PCode.run_tr R (knownTS p u c) (OnlyKnownAs c u) (fun _ => True) (fun x hx s _ => call_known p u c R hR x hx s)
        code (hj i code hji) _ trivial
    | sweep order q => exact sweep_known p u c R hR order q _
  · rintro i s w tr a r w' ⟨e1, e2, e3⟩ ⟨r1, r2⟩ hok hact
    have hent : ∀ q u', (w'.pool q).clients.get? u' = some c →
        (q = p ∧ u' = u ∧ ((w.conn c).name ≠ none)) := by
      intro q u' h
      by_cases ha : a = .put q u' c
      · subst ha
        obtain ⟨h1, h2, h3⟩ := hok rfl
        exact ⟨h1, h2, r1 h3⟩
      · exact e1 q u' (entry_before hact ha h)
    have hname : (w.conn c).name ≠ none → (w'.conn c).name ≠ none := by
      intro hn
      rcases act_names hact c with ⟨v, _, h⟩ | ⟨h, _⟩
      · rw [h]; simp
      · rw [h]; exact hn
    have hother : ∀ j, (∀ q u', a ≠ .put q u' c) → (NoEntrySinceClose j c tr → ∀ q u', (w.pool q).clients.get? u' ≠ some c) →
        NoEntrySinceClose j c tr → ∀ q u', (w'.pool q).clients.get? u' ≠ some c := by
      intro j ha hcl hne q u' he
      exact hcl hne q u' (entry_before hact (ha q u') he)
    have hclear : ((knownTS p u c).next s a r).clear = true → NoEntrySinceClose i c (⟨i, a, r⟩ :: tr) →
        ∀ q u', (w'.pool q).clients.get? u' ≠ some c := by
      intro hc hne
      rcases noEntrySince_cons hne with ⟨_, h⟩ | ⟨hne', hput⟩
      · simp only at h
        subst h
        simp [knownTS] at hc
      · simp only at hput
        by_cases hs : s.clear = true
        · exact hother i hput (r2 hs) hne'
        · intro q u' he
          have hb := entry_before hact (hput q u') he
          obtain ⟨rfl, rfl, hn⟩ := e1 q u' hb
          cases a with
          | getName x =>
            simp only [knownTS] at hc
            split at hc
            · rename_i hx
              obtain ⟨rfl, rfl⟩ := hx
              simp only [World.act, Option.some.injEq, Prod.mk.injEq, PVal.any.injEq] at hact
              exact hn hact.1
            · exact hs hc
          | look q' u'' =>
            simp only [knownTS] at hc
            split at hc
            · rename_i hx
              obtain ⟨rfl, rfl, hr⟩ := hx
              simp only [World.act] at hact
              split at hact
              · simp only [Option.some.injEq, Prod.mk.injEq] at hact
                rw [hb] at hact
                exact hr hact.1.symm
              · cases hact
            · exact hs hc
          | del q' u'' =>
            simp only [knownTS] at hc
            split at hc
            · rename_i hx
              obtain ⟨rfl, rfl⟩ := hx
              rw [act_entries hact] at he
              simp at he
            · exact hs hc
          | setName x v =>
            simp only [knownTS] at hc
            split at hc
            · exact hs hc
            · exact hs hc
          | inv x =>
            cases x <;> simp only [knownTS] at hc <;> try exact hs hc
            split at hc
            · cases hc
            · exact hs hc
          | _ => exact hs hc
    refine ⟨?_, ⟨?_, ?_, ?_⟩, ⟨?_, hclear⟩, ?_⟩
    · cases a <;> try trivial
      rename_i x
      rintro rfl
      simp only [World.act, Option.some.injEq, Prod.mk.injEq] at hact
      rcases e2 with h | h
      · exact .inl (by rw [← hact.1, h])
      · exact .inr (by rw [← hact.1, h])
    · intro q u' h
      obtain ⟨h1, h2, h3⟩ := hent q u' h
      exact ⟨h1, h2, hname h3⟩
    · rcases act_names hact c with ⟨v, rfl, h⟩ | ⟨h, _⟩
      · right; rw [h, hok rfl]
      · rw [h]; exact e2
    · intro hcl
      obtain ⟨hput, h | ⟨⟨r', hr⟩, hne⟩⟩ := cleanlyClosed_cons hcl
      · intro q u' he
        exact e3 h q u' (entry_before hact (hput q u') he)
      · simp only at hr hne hput
        subst hr
        exact hother i hput (r2 (hok rfl)) hne
    · intro hn
      by_cases hs : s.named = true
      · exact hname (r1 hs)
      · cases a with
        | setName x v =>
          simp only [knownTS] at hn
          split at hn
          · rename_i hx
            subst hx
            rcases act_names hact x with ⟨v', _, h⟩ | ⟨_, h⟩
            · rw [h]; simp
            · exact absurd rfl (h v)
          · exact absurd hn hs
        | inv x =>
          cases x <;> simp only [knownTS] at hn <;> try exact absurd hn hs
          split at hn <;> exact absurd hn hs
        | getName x => simp only [knownTS] at hn; split at hn <;> exact absurd hn hs
        | look q u' => simp only [knownTS] at hn; split at hn <;> exact absurd hn hs
        | del q u' => simp only [knownTS] at hn; split at hn <;> exact absurd hn hs
        | _ => exact absurd hn hs
    · rintro j hj s' ⟨g1, g2⟩
      refine ⟨fun h => hname (g1 h), fun hs hne => ?_⟩
      rcases noEntrySince_cons hne with ⟨h, _⟩ | ⟨hne', hput⟩
      · exact absurd h.symm hj
      · exact hother j hput (g2 hs) hne'

/-! ## C47 -/

/-- Nobody touches the entry `u` of pool `p`, which is that of `c`. -/
def keepTS (R : Nat → Option Nat) (p : Nat) (u : String) (c : Nat) : TS Unit where
  ok _ a :=
    match a with
    | .put q u' x => q = p → u' = u → x = c
    | .del q u' => ¬ (q = p ∧ u' = u)
    | .delHeld _ _ => False
    | .setName x v => x ≠ c → R x = some p → v ≠ .str u
    | _ => True
  poss _ a r :=
    match a with
    | .getName x => x ≠ c → R x = some p → r ≠ .any (some (.str u))
    | _ => True
  next s _ _ := s
  panicOk _ := True

section keep
variable (R : Nat → Option Nat) (p : Nat) (u : String) (c : Nat)

theorem poolOffline_keep (q : Nat) (u' : String) (h : ¬ (q = p ∧ u' = u)) :
    (poolOffline q u').Tr (keepTS R p u c) (fun _ _ => True) () := by
  simp only [poolOffline, tr_monad_bind, tr_poolLook]
  refine ⟨trivial, fun o _ => ?_⟩
  cases o with
  | none => trivial
  | some x => exact ⟨h, fun _ _ _ => trivial⟩

theorem ctxOffline_keep (x : Nat) (hx : x ≠ c) : (ctxOffline R x).Tr (keepTS R p u c) (fun _ _ => True) () := by
  unfold ctxOffline
  split
  · trivial
  · rename_i q h
    simp only [tr_monad_bind, tr_connName]
    refine ⟨trivial, fun _ => trivial, fun v hv => ⟨?_, fun _ => trivial⟩⟩
    rintro u' rfl
    refine poolOffline_keep R p u c q u' ?_
    rintro ⟨rfl, rfl⟩
    exact hv hx h rfl

theorem call_keep (x : PCall) (hx : KeepsOff R p u c x) : (x.run R).Tr (keepTS R p u c) (fun _ _ => True) () := by
  unfold PCall.run
  simp only [tr_monad_bind, tr_doUnit]
  refine ⟨trivial, fun _ _ _ => ?_⟩
  suffices h : (x.body R).Tr (keepTS R p u c) (fun _ _ => True) () from h.mono fun r s' _ => ⟨trivial, fun _ _ _ => trivial⟩
  cases x with
  | poolOnline q u' x => exact ⟨hx, fun _ _ _ => trivial⟩
  | poolGet q u' =>
    simp only [PCall.body, tr_monad_bind, tr_poolLook]
    exact ⟨trivial, fun _ _ => trivial⟩
  | poolDelete q u' => exact ⟨hx, fun _ _ _ => trivial⟩
  | poolOffline q u' =>
    simp only [PCall.body, tr_monad_bind]
    exact (poolOffline_keep R p u c q u' hx).mono fun _ _ _ => trivial
  | online x u' =>
    simp only [PCall.body, tr_monad_bind, ctxOnline]
    split
    · trivial
    · simp only [tr_monad_bind, tr_doUnit]
      refine ⟨fun h1 h2 h3 => hx h1 h2 (by cases h3; rfl), fun _ _ _ => ?_⟩
      split
      · trivial
      · rename_i q hq
        refine ⟨?_, fun _ _ _ => trivial⟩
        rintro rfl rfl
        exact Classical.byContradiction fun hne => hx hne hq rfl
  | offline x =>
    simp only [PCall.body, tr_monad_bind]
    exact (ctxOffline_keep R p u c x hx).mono fun _ _ _ => trivial
  | close x =>
    simp only [PCall.body, tr_monad_bind, closeConn, tr_doUnit, tr_doAct]
    refine ⟨trivial, fun _ _ _ => ⟨trivial, fun _ _ _ => ?_⟩⟩
    split
    · rw [tr_monad_bind]
      exact (ctxOffline_keep R p u c x hx).mono fun _ _ _ => ⟨trivial, fun _ _ _ => trivial⟩
    · exact ⟨trivial, fun _ _ _ => trivial⟩
  | sendTo x u' f =>
    simp only [PCall.body, tr_monad_bind, sendToUsername]
    split
    · trivial
    · simp only [tr_monad_bind, tr_poolLook]
      refine ⟨trivial, fun o _ => ?_⟩
      cases o with
      | none => trivial
      | some x' =>
        simp only [tr_monad_bind, tr_isOfflineNow]
        refine ⟨trivial, fun o _ => ?_⟩
        cases o with
        | true => trivial
        | false =>
          simp only [Bool.false_eq_true, if_false, tr_monad_bind, tr_doAct]
          refine ⟨trivial, ?_⟩
          rintro _ ⟨b, rfl⟩ _
          trivial
  | isOffline x =>
    simp only [PCall.body, tr_monad_bind, tr_isOfflineNow]
    exact ⟨trivial, fun _ _ => trivial⟩
  | setUsername x u' => exact ⟨fun h1 h2 h3 => hx h1 h2 (by cases h3; rfl), fun _ _ _ => trivial⟩
  | setReq x v => exact ⟨hx, fun _ _ _ => trivial⟩

end keep

theorem keep_run (R : Nat → Option Nat) (jobs : Nat → Job) (c p : Nat) (u : String)
    (hj : ∀ i, ∃ code, jobs i = .code code ∧ code.Calls (KeepsOff R p u c)) (sched : List Nat) :
    let y := (PSys.start R jobs).run sched
    (∃ e ∈ y.trace, e.action = .put p u c) → (y.world.pool p).clients.get? u = some c := by
  intro y
  have key := PSys.run_tr (keepTS R p u c)
    (fun w tr => (∀ x, x ≠ c → R x = some p → (w.conn x).name ≠ some (.str u)) ∧
      ((∃ e ∈ tr, e.action = .put p u c) → (w.pool p).clients.get? u = some c))
    (fun _ _ _ _ => True) (PSys.start R jobs) ⟨by simp [PSys.start], by simp [PSys.start]⟩ ?_ ?_ sched
  · exact key.1.2
  · intro i
    refine ⟨(), ?_, trivial⟩
    obtain ⟨code, h1, h2⟩ := hj i
    simp only [PSys.start, h1]
    exact PCode.run_tr R (keepTS R p u c) (KeepsOff R p u c) (fun _ => True) (fun x hx s _ => call_keep R p u c x hx)
      code h2 _ trivial
  · rintro i s w tr a r w' ⟨e1, e2⟩ _ hok hact
    refine ⟨?_, ⟨?_, ?_⟩, trivial, fun _ _ _ _ => trivial⟩
    · cases a <;> try trivial
      rename_i x
      intro h1 h2 h3
      simp only [World.act, Option.some.injEq, Prod.mk.injEq] at hact
      rw [h3] at hact
      simp only [PVal.any.injEq] at hact
      exact e1 x h1 h2 hact.1
    · intro x h1 h2
      rcases act_names hact x with ⟨v, rfl, h⟩ | ⟨h, _⟩
      · rw [h]
        intro he
        exact hok h1 h2 (by cases he; rfl)
      · rw [h]; exact e1 x h1 h2
    · rintro ⟨e, he, hput⟩
      rw [act_entries hact]
      rcases List.mem_cons.1 he with rfl | he
      · simp only at hput
        subst hput
        simp
      · have hold := e2 ⟨e, he, hput⟩
        cases a with
        | put q u' x =>
          simp only
          split
          · rename_i hq
            rw [hok hq.1 hq.2]
          · exact hold
        | del q u' => simp only; rw [if_neg hok]; exact hold
        | delHeld q u' => exact absurd hok id
        | _ => exact hold

/-! ## C48 -/

theorem entries_latest (R : Nat → Option Nat) (jobs : Nat → Job) (sched : List Nat) (p : Nat) (u : String) :
    let y := (PSys.start R jobs).run sched
    (y.world.pool p).clients.get? u = latestEntry p u y.trace := by
  intro y
  refine PSys.run_induct (P := fun z => (z.world.pool p).clients.get? u = latestEntry p u z.trace) _ rfl ?_ sched
  intro z tid a k r w h _ hw
  simp only
  rw [act_entries hw]
  cases a <;> simp only [latestEntry, h]

end Tcpx
