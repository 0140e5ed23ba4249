import Verif.Model.OnlineOffline
import Verif.Lemmas.Chat
/-!
# Lemmas: executions of the server that tells who is online
-/
namespace Tcpx
open Spec

/-- As `PSys.run_tr`, with what is known of goroutines that are over. -/
theorem PSys.run_trQ {σ : Type} (t : TS σ) (Q : σ → Prop) (Inv : World → List PEvent → Prop) (Rel : Nat → σ → World → List PEvent → Prop)
    (y : PSys) (h0 : Inv y.world y.trace)
    (ht : ∀ i, ∃ s, (y.threads i).Tr t (fun _ s => Q s) s ∧ Rel i s y.world y.trace)
    (hs : ∀ i s w tr a r w', Inv w tr → Rel i s w tr → t.ok s a → w.act i a = some (r, w') →
      t.poss s a r ∧ Inv w' (⟨i, a, r⟩ :: tr) ∧ Rel i (t.next s a r) w' (⟨i, a, r⟩ :: tr) ∧
      ∀ j, j ≠ i → ∀ s', Rel j s' w tr → Rel j s' w' (⟨i, a, r⟩ :: tr))
    (sched : List Nat) :
    Inv (y.run sched).world (y.run sched).trace ∧
    ∀ i, ∃ s, ((y.run sched).threads i).Tr t (fun _ s => Q s) s ∧ Rel i s (y.run sched).world (y.run sched).trace := by
  refine PSys.run_induct (P := fun z => Inv z.world z.trace ∧ ∀ i, ∃ s, (z.threads i).Tr t (fun _ s => Q s) s ∧ Rel i s z.world z.trace)
    y ⟨h0, ht⟩ ?_ sched
  rintro z tid a k r w ⟨hi, hth⟩ hz hw
  obtain ⟨s, hs1, hs2⟩ := hth tid
  rw [hz] at hs1
  obtain ⟨q1, q2, q3, q4⟩ := hs tid s z.world z.trace a r w hi hs2 hs1.1 hw
  refine ⟨q2, fun i => ?_⟩
  by_cases h : i = tid
  · subst h
    simp only [if_true]
    exact ⟨_, hs1.2 r (World.act_typed hw) q1, q3⟩
  · simp only [if_neg h]
    obtain ⟨s', h1, h2⟩ := hth i
    exact ⟨s', h1, q4 i h s' h2⟩

namespace OnlineOffline

/-- What a goroutine has done: whether anything, for which name it has put its connection online, the name it was told, for which name
it has seen that nobody is online, or has removed the entry. -/
structure St where
  job : Job
  began : Bool := false
  put : Option (String × Nat) := none
  asked : Option (Option Any) := none
  gone : Option String := none

/-- What the goroutine may do, given what it has done. -/
def Ok (out : Nat) (s : St) : PAct → Prop
  | .write o f => o = out → (f = onlineSuccess → ∃ c u, s.job = .login c (some u) ∧ (u = "" → s.began = false) ∧
      (u ≠ "" → s.put = some (u, c))) ∧ (f = offlineSuccess → (∃ c, s.job = .logout c) ∧ s.began = false)
  | .getName c => ∀ d, s.job = .logout d → c = d
  | _ => True

def ts (out : Nat) : TS St where
  ok := Ok out
  poss _ _ _ := True
  next s a r := match a, r with
    | .put 0 u c, _ => { s with began := true, put := some (u, c) }
    | .getName _, .any n => { s with began := true, asked := some n }
    | .look 0 u, .conn none => { s with began := true, gone := some u }
    | .del 0 u, _ => { s with began := true, gone := some u }
    | _, _ => { s with began := true }
  panicOk _ := True

/-- What is known of a goroutine that is over. -/
def Over (s : St) : Prop :=
  ∀ c, s.job = .logout c → s.asked = some none ∨ ∃ u, s.asked = some (some (.str u)) ∧ s.gone = some u

theorem tr_close (out c : Nat) (s : St) (hj : s.job = .close c) :
    (closeConn pool c).Tr (ts out) (fun _ s => Over s) s := by
  have : ∀ {α : Type} (p : PProg α) (Q : α → St → Prop), (p.All fun a => ∀ o f, a ≠ .write o f) → (∀ a s, s.job = .close c → Q a s) →
      ∀ s : St, s.job = .close c → p.Tr (ts out) Q s := by
    intro α p Q
    induction p with
    | ret a => exact fun _ h2 s hs => h2 a s hs
    | panic => exact fun _ _ _ _ => trivial
    | act a k ih =>
      intro h1 h2 s hs
      refine ⟨?_, fun r _ _ => ih r (h1.2 r) h2 _ ?_⟩
      · have h1 := h1.1
        cases a <;> first | trivial | exact absurd rfl (h1 _ _) | (intro d hd; rw [hs] at hd; cases hd)
      · simp only [ts]; split <;> exact hs
  exact this _ _ (silent_close pool c) (fun _ s hs d hd => by rw [hs] at hd; cases hd) s hj

theorem job_tr (out : Nat) (j : Job) : (j.run out).Tr (ts out) (fun _ s => Over s) { job := j } := by
  cases j with
  | close c => exact tr_close out c _ rfl
  | login c u =>
    have hov : ∀ s : St, s.job = .login c u → Over s := fun s hs d hd => by rw [hs] at hd; cases hd
    cases u with
    | none =>
      refine ⟨fun _ => ⟨fun h => (by cases h), fun h => (by cases h)⟩, fun r _ _ => hov _ ?_⟩
      simp only [ts]
    | some u =>
      show (ctxOnline pool c u >>= fun _ => doUnit (.write out onlineSuccess)).Tr _ _ _
      rw [tr_monad_bind]
      unfold ctxOnline
      by_cases hu : u = ""
      · rw [if_pos hu, tr_ret, tr_doUnit]
        exact ⟨fun _ => ⟨fun _ => ⟨c, u, rfl, fun _ => rfl, fun h => absurd hu h⟩, fun h => by cases h⟩, fun r _ _ => hov _ rfl⟩
      · rw [if_neg hu]
        simp only [tr_monad_bind, tr_doUnit, pool, tr_ret]
        exact ⟨trivial, fun _ _ _ => ⟨trivial, fun _ _ _ => ⟨fun _ => ⟨fun _ => ⟨c, u, rfl, fun h => absurd h hu, fun _ => rfl⟩,
          fun h => by cases h⟩, fun _ _ _ => hov _ rfl⟩⟩⟩
  | logout c =>
    show (doUnit (.write out offlineSuccess) >>= fun _ => (ctxOffline pool c >>= fun _ => PProg.ret ())).Tr _ _ _
    simp only [tr_monad_bind, tr_doUnit, ctxOffline, pool, tr_connName, tr_ret, poolOffline]
    refine ⟨fun _ => ⟨fun h => (by cases h), fun _ => ⟨⟨c, rfl⟩, rfl⟩⟩, fun _ _ _ => ⟨?_, ?_, ?_⟩⟩
    · intro d hd; cases hd; rfl
    · intro _ d _; exact .inl rfl
    · intro v _
      refine ⟨?_, fun _ => trivial⟩
      rintro u rfl
      simp only [tr_poolLook]
      refine ⟨trivial, fun o _ => ?_⟩
      cases o with
      | none => intro d _; exact .inr ⟨u, rfl, rfl⟩
      | some o =>
        simp only [tr_doUnit]
        exact ⟨trivial, fun _ _ _ d _ => .inr ⟨u, rfl, rfl⟩⟩

/-- What is known of every line printed. -/
def Printed (out : Nat) (jobs : Nat → Job) (tr : List PEvent) : Prop :=
  ∀ post tid f r pre, tr = post ++ ⟨tid, .write out f, r⟩ :: pre →
    (f = onlineSuccess → ∃ c u, jobs tid = .login c (some u) ∧ (u = "" → ∀ e ∈ pre, e.tid ≠ tid) ∧ (u ≠ "" → OnlineMeanwhile tid 0 u c pre)) ∧
    (f = offlineSuccess → (∃ c, jobs tid = .logout c) ∧ ∀ e ∈ pre, e.tid ≠ tid)

/-- What is known of every goroutine. -/
structure Rel (jobs : Nat → Job) (i : Nat) (s : St) (tr : List PEvent) : Prop where
  job : s.job = jobs i
  began : s.began = false → ∀ e ∈ tr, e.tid ≠ i
  put : ∀ u c, s.put = some (u, c) → OnlineMeanwhile i 0 u c tr
  asked : ∀ n c, s.job = .logout c → s.asked = some n → ⟨i, .getName c, .any n⟩ ∈ tr
  gone : ∀ u, s.gone = some u → OfflineMeanwhile i 0 u tr

theorem Rel.other {jobs : Nat → Job} {i j : Nat} {s : St} {tr : List PEvent} (h : Rel jobs j s tr) (e : PEvent) (he : e.tid = i)
    (hij : j ≠ i) : Rel jobs j s (e :: tr) where
  job := h.job
  began hb x hx := by
    rcases List.mem_cons.1 hx with rfl | hx
    · rw [he]; exact fun h => hij h.symm
    · exact h.began hb x hx
  put u c hp := online_cons (h.put u c hp) e
  asked n c hj ha := List.mem_cons_of_mem _ (h.asked n c hj ha)
  gone u hu := by
    obtain ⟨l, x, b, rfl, hx⟩ := h.gone u hu
    exact ⟨e :: l, x, b, rfl, hx⟩

theorem run_known (out : Nat) (jobs : Nat → Job) (sched : List Nat) :
    let y := (start out jobs).run sched
    ((∀ u, (y.world.pool 0).clients.get? u = latestEntry 0 u y.trace) ∧ Printed out jobs y.trace) ∧
    ∀ i, ∃ s, (y.threads i).Tr (ts out) (fun _ s => Over s) s ∧ Rel jobs i s y.trace := by
  refine PSys.run_trQ (ts out) Over
    (fun w tr => (∀ u, (w.pool 0).clients.get? u = latestEntry 0 u tr) ∧ Printed out jobs tr)
    (fun i s _ tr => Rel jobs i s tr) (start out jobs) ⟨fun _ => rfl, by simp [start, Printed]⟩
    (fun i => ⟨{ job := jobs i }, job_tr out (jobs i), ⟨rfl, by simp [start], by simp, by simp, by simp⟩⟩) ?_ sched
  intro i s w tr a r w' ⟨h1, h2⟩ hr hok hw
  have hpool : ∀ u, (w'.pool 0).clients.get? u = latestEntry 0 u (⟨i, a, r⟩ :: tr) := by
    intro u
    rw [act_entries hw]
    cases a <;> simp only [latestEntry, h1]
  have hbegan : ((ts out).next s a r).began = true := by simp only [ts]; split <;> rfl
  have hjob : ((ts out).next s a r).job = s.job := by simp only [ts]; split <;> rfl
  refine ⟨trivial, ⟨hpool, ?_⟩, ⟨hjob.trans hr.job, fun h => (by rw [hbegan] at h; cases h), ?_, ?_, ?_⟩, fun j hj s' hs' => hs'.other _ rfl hj⟩
  · intro post tid f r' pre he
    cases post with
    | cons x post =>
      simp only [List.cons_append, List.cons.injEq] at he
      exact h2 post tid f r' pre he.2
    | nil =>
      simp only [List.nil_append, List.cons.injEq, PEvent.mk.injEq] at he
      obtain ⟨⟨rfl, rfl, rfl⟩, rfl⟩ := he
      obtain ⟨k1, k2⟩ := hok rfl
      refine ⟨fun hf => ?_, fun hf => ?_⟩
      · obtain ⟨c, u, e1, e2, e3⟩ := k1 hf
        exact ⟨c, u, hr.job ▸ e1, fun h => hr.began (e2 h), fun h => hr.put u c (e3 h)⟩
      · obtain ⟨⟨c, e1⟩, e2⟩ := k2 hf
        exact ⟨⟨c, hr.job ▸ e1⟩, hr.began e2⟩
  · intro u c hp
    simp only [ts] at hp
    split at hp
    · simp only [Option.some.injEq, Prod.mk.injEq] at hp
      obtain ⟨rfl, rfl⟩ := hp
      exact ⟨[], _, tr, rfl, rfl, by simp [latestEntry]⟩
    all_goals exact online_cons (hr.put u c hp) _
  · intro n c hj ha
    rw [hjob] at hj
    simp only [ts] at ha
    split at ha
    case h_2 =>
      simp only [Option.some.injEq] at ha
      subst ha
      have := hok c hj
      subst this
      exact List.mem_cons_self
    all_goals exact List.mem_cons_of_mem _ (hr.asked n c hj ha)
  · intro u hu
    have old : s.gone = some u → OfflineMeanwhile i 0 u (⟨i, a, r⟩ :: tr) := fun h => by
      obtain ⟨l, x, b, e, h⟩ := hr.gone u h
      exact ⟨⟨i, a, r⟩ :: l, x, b, by rw [e]; rfl, h⟩
    simp only [ts] at hu
    split at hu
    case h_3 =>
      simp only [Option.some.injEq] at hu
      subst hu
      refine ⟨[], _, tr, rfl, rfl, ?_⟩
      rw [← hpool]
      simp only [World.act] at hw
      split at hw
      · simp only [Option.some.injEq, Prod.mk.injEq, PVal.conn.injEq] at hw
        obtain ⟨hw, rfl⟩ := hw
        exact hw
      · cases hw
    case h_4 =>
      simp only [Option.some.injEq] at hu
      subst hu
      exact ⟨[], _, tr, rfl, rfl, by simp [latestEntry]⟩
    all_goals exact old hu

end OnlineOffline
end Tcpx
