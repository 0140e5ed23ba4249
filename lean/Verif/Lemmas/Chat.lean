import Verif.Spec.Chat
import Verif.Lemmas.PoolEntries
/-!
# Lemmas: executions of the chat server
-/
namespace Tcpx
open Spec

/-- A frame written is accounted for by the job. -/
def ChatWrite (R : Nat → Option Nat) (enc : ChatFrame → Nat) (j : ChatJob) (found : Option (Nat × String × Nat)) (o f : Nat) : Prop :=
  ∃ c text to, j = .message c (.say (some (text, to))) ∧
    ((∃ p, R c = some p ∧ f = enc { id := 6, message := text, fromUser := to } ∧ found = some (p, to, o)) ∨
      (f = enc (chatNote to) ∧ o = c))

structure ChatSt where
  job : ChatJob
  found : Option (Nat × String × Nat) := none
  wrote : Bool := false

def chatTS (R : Nat → Option Nat) (enc : ChatFrame → Nat) : TS ChatSt where
  ok s a := match a with
    | .write o f => s.wrote = false ∧ ChatWrite R enc s.job s.found o f
    | _ => True
  poss _ _ _ := True
  next s a r := match a, r with
    | .look p u, .conn o => { s with found := o.map fun o => (p, u, o) }
    | .write _ _, _ => { s with wrote := true }
    | _, _ => s
  panicOk _ := True

variable (R : Nat → Option Nat) (enc : ChatFrame → Nat)

/-- A program that writes nothing. -/
theorem tr_silent {α : Type} (p : PProg α) (h : p.All fun a => ∀ o f, a ≠ .write o f) (s : ChatSt) :
    p.Tr (chatTS R enc) (fun _ _ => True) s := by
  induction p generalizing s with
  | ret => trivial
  | panic => trivial
  | act a k ih =>
    refine ⟨?_, fun r _ _ => ih r (h.2 r) _⟩
    have h1 := h.1
    cases a <;> first | trivial | exact absurd rfl (h1 _ _)

abbrev Silent {α : Type} (p : PProg α) : Prop := p.All fun a => ∀ o f, a ≠ .write o f

theorem silent_doUnit (a : PAct) (h : ∀ o f, a ≠ .write o f) : Silent (doUnit a) := ⟨h, fun _ => trivial⟩
theorem silent_doAct (a : PAct) (h : ∀ o f, a ≠ .write o f) : Silent (doAct a) := ⟨h, fun _ => trivial⟩

theorem silent_look (p : Nat) (u : String) : Silent (poolLook p u) :=
  ⟨by simp, fun r => by cases r <;> trivial⟩

theorem silent_name (c : Nat) : Silent (connName c) := by
  refine ⟨by simp, fun r => ?_⟩
  dsimp only
  split
  · split <;> trivial
  · trivial

theorem silent_poolOffline (p : Nat) (u : String) : Silent (poolOffline p u) := by
  refine PProg.All.bind (silent_look p u) fun o => ?_
  cases o with
  | none => trivial
  | some o => exact silent_doUnit _ (by simp)

theorem silent_ctxOffline (c : Nat) : Silent (ctxOffline R c) := by
  unfold ctxOffline
  cases R c with
  | none => trivial
  | some p =>
    refine PProg.All.bind (silent_name c) fun o => ?_
    cases o with
    | none => trivial
    | some u => exact PProg.All.bind (silent_poolOffline p u) fun _ => trivial

theorem silent_ctxOnline (c : Nat) (u : String) : Silent (ctxOnline R c u) := by
  unfold ctxOnline
  split
  · trivial
  · refine PProg.All.bind (silent_doUnit _ (by simp)) fun _ => ?_
    cases R c with
    | none => trivial
    | some p => exact PProg.All.bind (silent_doUnit _ (by simp)) fun _ => trivial

theorem silent_close (c : Nat) : Silent (closeConn R c) := by
  unfold closeConn
  refine PProg.All.bind (silent_doUnit _ (by simp)) fun _ => ?_
  refine PProg.All.bind (silent_doAct _ (by simp)) fun _ => ?_
  split
  · exact PProg.All.bind (silent_ctxOffline R c) fun _ => silent_doUnit _ (by simp)
  · exact PProg.All.bind (f := fun _ => doUnit (.setOffline c)) (p := PProg.ret ()) trivial fun _ => silent_doUnit _ (by simp)

theorem job_tr (j : ChatJob) : (j.run R enc).Tr (chatTS R enc) (fun _ _ => True) { job := j } := by
  cases j with
  | close c => exact tr_silent R enc _ (silent_close R c) _
  | message c m =>
    cases m with
    | login u =>
      cases u with
      | none => trivial
      | some u => exact tr_silent R enc (PProg.bind (ctxOnline R c u) fun _ => .ret ()) (PProg.All.bind (silent_ctxOnline R c u) fun _ => trivial) _
    | logout => exact tr_silent R enc (PProg.bind (ctxOffline R c) fun _ => .ret ()) (PProg.All.bind (silent_ctxOffline R c) fun _ => trivial) _
    | say q =>
      cases q with
      | none => trivial
      | some q =>
        obtain ⟨text, to⟩ := q
        simp only [ChatJob.run, chatSend]
        cases hR : R c with
        | none => trivial
        | some p =>
          have note : ∀ s : ChatSt, s.job = .message c (.say (some (text, to))) → s.wrote = false →
              (do let _ ← doAct (.write c (enc (chatNote to))); PProg.ret ()).Tr (chatTS R enc) (fun _ _ => True) s := by
            intro s h1 h2
            rw [tr_monad_bind, tr_doAct]
            exact ⟨⟨h2, c, text, to, h1, .inr ⟨rfl, rfl⟩⟩, fun _ _ _ => trivial⟩
          simp only [tr_monad_bind, tr_poolLook]
          refine ⟨trivial, fun o _ => ?_⟩
          cases o with
          | none =>
            simp only [isOnlineNow, tr_ret]
            exact note _ rfl rfl
          | some o =>
            simp only [isOnlineNow, tr_monad_bind, tr_isOfflineNow, tr_ret]
            refine ⟨trivial, fun b _ => ?_⟩
            cases b with
            | true => exact note _ rfl rfl
            | false =>
              simp only [Bool.not_false, if_true, sendToUsername, hR, tr_monad_bind, tr_poolLook]
              refine ⟨trivial, fun o' _ => ?_⟩
              cases o' with
              | none => trivial
              | some o' =>
                simp only [tr_monad_bind, tr_isOfflineNow]
                refine ⟨trivial, fun b _ => ?_⟩
                cases b with
                | true => trivial
                | false =>
                  simp only [tr_monad_bind, tr_doAct, Bool.false_eq_true, if_false]
                  refine ⟨⟨rfl, c, text, to, rfl, .inl ⟨p, hR, rfl, rfl⟩⟩, fun r hr _ => ?_⟩
                  obtain ⟨b, rfl⟩ := hr
                  trivial

/-- What is known of every frame written. -/
def Accounted (jobs : Nat → ChatJob) (tid o f : Nat) (pre : List PEvent) : Prop :=
  WroteNothing tid pre ∧ ∃ c text to, jobs tid = .message c (.say (some (text, to))) ∧
    ((∃ p, R c = some p ∧ f = enc { id := 6, message := text, fromUser := to } ∧ OnlineMeanwhile tid p to o pre) ∨
      (f = enc (chatNote to) ∧ o = c))

theorem online_cons {tid p o : Nat} {u : String} {tr : List PEvent} (h : OnlineMeanwhile tid p u o tr) (e : PEvent) :
    OnlineMeanwhile tid p u o (e :: tr) := by
  obtain ⟨l, x, b, rfl, h⟩ := h
  exact ⟨e :: l, x, b, rfl, h⟩

theorem chat_run (jobs : Nat → ChatJob) (sched : List Nat) :
    let y := (chatStart R enc jobs).run sched
    (∀ p u, (y.world.pool p).clients.get? u = latestEntry p u y.trace) ∧
    ∀ post tid o f r pre, y.trace = post ++ ⟨tid, .write o f, r⟩ :: pre → Accounted R enc jobs tid o f pre := by
  have key := PSys.run_tr (chatTS R enc)
    (fun w tr => (∀ p u, (w.pool p).clients.get? u = latestEntry p u tr) ∧
      ∀ post tid o f r pre, tr = post ++ ⟨tid, .write o f, r⟩ :: pre → Accounted R enc jobs tid o f pre)
    (fun i s _ tr => s.job = jobs i ∧ (s.wrote = false → WroteNothing i tr) ∧
      ∀ p u o, s.found = some (p, u, o) → OnlineMeanwhile i p u o tr)
    (chatStart R enc jobs) ⟨fun _ _ => rfl, by simp [chatStart]⟩
    (fun i => ⟨{ job := jobs i }, job_tr R enc (jobs i), rfl, by simp [WroteNothing, chatStart], by simp⟩) ?_ sched
  · exact key.1
  intro i s w tr a r w' ⟨h1, h2⟩ ⟨r1, r2, r3⟩ hok hw
  have hpool : ∀ p u, (w'.pool p).clients.get? u = latestEntry p u (⟨i, a, r⟩ :: tr) := by
    intro p u
    rw [act_entries hw]
    cases a <;> simp only [latestEntry, h1]
  refine ⟨trivial, ⟨hpool, ?_⟩, ⟨?_, ?_, ?_⟩, ?_⟩
  · intro post tid o f r' pre he
    cases post with
    | cons x post =>
      simp only [List.cons_append, List.cons.injEq] at he
      exact h2 post tid o f r' pre he.2
    | nil =>
      simp only [List.nil_append, List.cons.injEq, PEvent.mk.injEq] at he
      obtain ⟨⟨rfl, rfl, rfl⟩, rfl⟩ := he
      obtain ⟨hwr, c, text, to, hj, h⟩ := hok
      refine ⟨r2 hwr, c, text, to, r1 ▸ hj, ?_⟩
      rcases h with ⟨p, hp, hf, hfound⟩ | h
      · exact .inl ⟨p, hp, hf, r3 _ _ _ hfound⟩
      · exact .inr h
  · cases a <;> cases r <;> exact r1
  · intro hwr
    have hnw : (∀ o f, a ≠ .write o f) ∧ s.wrote = false := by
      cases a <;> cases r <;> first | exact ⟨by simp, hwr⟩ | cases hwr
    intro e he ht
    rcases List.mem_cons.1 he with rfl | he
    · exact hnw.1
    · exact r2 hnw.2 e he ht
  · intro p u o hf
    by_cases hlook : ∃ q v x, a = .look q v ∧ r = .conn x
    · obtain ⟨q, v, x, rfl, rfl⟩ := hlook
      simp only [chatTS, Option.map_eq_some_iff, Prod.mk.injEq] at hf
      obtain ⟨_, rfl, rfl, rfl, rfl⟩ := hf
      refine ⟨[], _, tr, rfl, rfl, ?_⟩
      rw [← hpool]
      simp only [World.act] at hw
      split at hw
      · simp only [Option.some.injEq, Prod.mk.injEq, PVal.conn.injEq] at hw
        rw [← hw.2, hw.1]
      · cases hw
    · have : ((chatTS R enc).next s a r).found = s.found := by
        cases a <;> cases r <;> first | rfl | exact absurd ⟨_, _, _, rfl, rfl⟩ hlook
      rw [this] at hf
      exact online_cons (r3 p u o hf) _
  · intro j hj s' ⟨q1, q2, q3⟩
    refine ⟨q1, fun h e he ht => ?_, fun p u o h => online_cons (q3 p u o h) _⟩
    rcases List.mem_cons.1 he with rfl | he
    · exact absurd ht.symm hj
    · exact q2 h e he ht

end Tcpx
