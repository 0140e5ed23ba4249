import Verif.Lemmas.Pool
import Verif.Spec.Pool
/-! # Lemmas: pool operations refine the atomic pool (C44) -/
namespace Tcpx
open Spec

/-- A goroutine between calls. -/
def AtIdle (R : Nat → Option Nat) (p : PProg Unit) : Prop := ∃ code : PCode, code.Calls IsPoolCall ∧ p = code.run R

/-- A goroutine whose call has taken effect. -/
def AtDone (R : Nat → Option Nat) (c : PCall) (r : PRes) (p : PProg Unit) : Prop :=
  ∃ k, p = .act (.ret c r) k ∧ ∀ v, AtIdle R (k v)

/-- A goroutine whose call has not yet taken effect. -/
def AtCalled (R : Nat → Option Nat) (c : PCall) (p : PProg Unit) : Prop :=
  match c with
  | .poolOnline q u x => ∃ k, p = .act (.put q u x) k ∧ ∀ v, AtDone R c .unit (k v)
  | .poolGet q u => ∃ k, p = .act (.look q u) k ∧ ∀ o, AtDone R c (.conn o) (k (.conn o))
  | .poolDelete q u => ∃ k, p = .act (.del q u) k ∧ ∀ v, AtDone R c .unit (k v)
  | .poolOffline q u =>
    (∃ k, p = .act (.look q u) k ∧ AtDone R c .unit (k (.conn none)) ∧
      ∀ x, ∃ k', k (.conn (some x)) = .act (.del q u) k' ∧ ∀ v, AtDone R c .unit (k' v)) ∨
    (∃ k', p = .act (.del q u) k' ∧ ∀ v, AtDone R c .unit (k' v))
  | _ => False

def AtThread (R : Nat → Option Nat) : AThread → PProg Unit → Prop
  | .idle, p => AtIdle R p
  | .called c, p => AtCalled R c p
  | .done c r, p => AtDone R c r p

/-- An idle goroutine has finished or begins a call. -/
theorem atIdle_cases {R : Nat → Option Nat} {p : PProg Unit} (h : AtIdle R p) :
    p = .ret () ∨ ∃ c k, p = .act (.inv c) k ∧ IsPoolCall c ∧ ∀ v, AtCalled R c (k v) := by
  obtain ⟨code, hc, rfl⟩ := h
  cases hc with
  | done => exact .inl rfl
  | call c k hp hk =>
    refine .inr ⟨c, _, rfl, hp, fun v => ?_⟩
    have hd : ∀ r, AtDone R c r (.act (.ret c r) fun _ => (k r).run R) := fun r => ⟨_, rfl, fun _ => ⟨_, hk r, rfl⟩⟩
    cases c with
    | poolOnline q u x => exact ⟨_, rfl, fun _ => hd _⟩
    | poolGet q u => exact ⟨_, rfl, fun o => hd _⟩
    | poolDelete q u => exact ⟨_, rfl, fun _ => hd _⟩
    | poolOffline q u => exact .inl ⟨_, rfl, hd _, fun x => ⟨_, rfl, fun _ => hd _⟩⟩
    | _ => exact absurd hp (by simp [IsPoolCall])

/-- The relation between the executing system and the atomic pool. -/
structure Refines (R : Nat → Option Nat) (y : PSys) (a : Atomic) : Prop where
  runs : Atomic.Runs (history y.trace) a
  free : ∀ p, (y.world.pool p).holder = none
  pools : ∀ p u, (y.world.pool p).clients.get? u = current p u a.hist
  threads : ∀ i, AtThread R (a.threads i) (y.threads i)

theorem history_other (e : PEvent) (tr : List PEvent) (h1 : ∀ c, e.action ≠ .inv c) (h2 : ∀ c r, e.action ≠ .ret c r) :
    history (e :: tr) = history tr := by
  unfold history
  rw [List.filterMap_cons]
  obtain ⟨i, a, v⟩ := e
  cases a <;> simp_all

theorem Refines.step {R : Nat → Option Nat} {z : PSys} {at' : Atomic} (h : Refines R z at') {tid : Nat} {a : PAct}
    {k : PVal → PProg Unit} {r : PVal} {w : World} (ht : z.threads tid = .act a k) (hw : z.world.act tid a = some (r, w)) :
    ∃ b, Refines R { world := w, threads := fun i => if i = tid then k r else z.threads i, trace := ⟨tid, a, r⟩ :: z.trace } b := by
  have hth := h.threads tid
  have hupd : ∀ (st : AThread) (p : PProg Unit), AtThread R st p →
      ∀ i, AtThread R (if i = tid then st else at'.threads i) (if i = tid then p else z.threads i) := by
    intro st p hp i
    by_cases hi : i = tid
    · simp only [hi, if_true]; exact hp
    · simp only [hi, if_false]; exact h.threads i
  cases hst : at'.threads tid with
  | idle =>
    rw [hst] at hth
    rcases atIdle_cases hth with hp | ⟨c, k', hp, hc, hk⟩
    · rw [ht] at hp; cases hp
    · rw [ht] at hp
      cases hp
      simp only [World.act, Option.some.injEq, Prod.mk.injEq] at hw
      obtain ⟨rfl, rfl⟩ := hw
      exact ⟨_, { runs := .inv tid c h.runs hst, free := h.free, pools := h.pools, threads := hupd (.called c) _ (hk _) }⟩
  | done c r' =>
    rw [hst] at hth
    obtain ⟨k', hp, hk⟩ := hth
    rw [ht] at hp
    cases hp
    simp only [World.act, Option.some.injEq, Prod.mk.injEq] at hw
    obtain ⟨rfl, rfl⟩ := hw
    exact ⟨_, { runs := .ret tid c r' h.runs hst, free := h.free, pools := h.pools, threads := hupd .idle _ (hk _) }⟩
  | called c =>
    rw [hst] at hth
    -- taking effect now
    have heff : ∀ (w' : World) (p : PProg Unit) (a : PAct) (r : PVal), (∀ c, a ≠ .inv c) → (∀ c r, a ≠ .ret c r) →
        (∀ p, (w'.pool p).holder = none) →
        (∀ p u, (w'.pool p).clients.get? u = current p u (c :: at'.hist)) → AtDone R c (answer at'.hist c) p →
        ∃ b, Refines R { world := w', threads := fun i => if i = tid then p else z.threads i, trace := ⟨tid, a, r⟩ :: z.trace } b := by
      intro w' p a r h1 h2 h3 h4 h5
      refine ⟨⟨c :: at'.hist, fun j => if j = tid then .done c (answer at'.hist c) else at'.threads j⟩,
        { runs := ?_, free := h3, pools := h4, threads := hupd (.done c (answer at'.hist c)) p h5 }⟩
      rw [history_other _ _ h1 h2]
      exact .effect tid c h.runs hst
    have hdel : ∀ (q : Nat) (u : String) (c : PCall), c = .poolDelete q u ∨ c = .poolOffline q u → ∀ p u',
        ((z.world.setPool q { z.world.pool q with clients := (z.world.pool q).clients.delete u }).pool p).clients.get? u' =
          current p u' (c :: at'.hist) := by
      intro q u c hc p u'
      simp only [World.setPool]
      rcases hc with rfl | rfl <;>
      · simp only [current, ← h.pools]
        by_cases hp : p = q
        · subst hp
          simp only [if_true, GoMap.get?_delete, true_and]
          by_cases hu : u' = u
          · simp [hu]
          · simp [hu, Ne.symm hu]
        · simp [hp, Ne.symm hp]
    have hfree : ∀ (q : Nat) (m : GoMap String Nat) (p : Nat),
        ((z.world.setPool q { z.world.pool q with clients := m }).pool p).holder = none := by
      intro q m p
      simp only [World.setPool]
      split
      · rename_i hp; subst hp; exact h.free p
      · exact h.free p
    cases c with
    | poolOnline q u x =>
      obtain ⟨k', hp, hk⟩ := hth
      rw [ht] at hp
      cases hp
      simp only [World.act, if_pos (h.free q), Option.some.injEq, Prod.mk.injEq] at hw
      obtain ⟨rfl, rfl⟩ := hw
      refine heff _ _ _ _ (by simp) (by simp) (hfree q _) ?_ (hk _)
      intro p u'
      simp only [World.setPool, current, ← h.pools]
      by_cases hp : p = q
      · subst hp
        simp only [if_true, GoMap.get?_set, true_and]
        by_cases hu : u' = u
        · simp [hu]
        · simp [hu, Ne.symm hu]
      · simp [hp, Ne.symm hp]
    | poolGet q u =>
      obtain ⟨k', hp, hk⟩ := hth
      rw [ht] at hp
      cases hp
      simp only [World.act, if_pos (h.free q), Option.some.injEq, Prod.mk.injEq] at hw
      obtain ⟨rfl, rfl⟩ := hw
      refine heff _ _ _ _ (by simp) (by simp) h.free ?_ ?_
      · intro p u'; simp only [current]; exact h.pools p u'
      · simp only [answer, ← h.pools]; exact hk _
    | poolDelete q u =>
      obtain ⟨k', hp, hk⟩ := hth
      rw [ht] at hp
      cases hp
      simp only [World.act, if_pos (h.free q), Option.some.injEq, Prod.mk.injEq] at hw
      obtain ⟨rfl, rfl⟩ := hw
      exact heff _ _ _ _ (by simp) (by simp) (hfree q _) (hdel q u _ (.inl rfl)) (hk _)
    | poolOffline q u =>
      rcases hth with ⟨k', hp, hk1, hk2⟩ | ⟨k', hp, hk⟩
      · rw [ht] at hp
        cases hp
        simp only [World.act, if_pos (h.free q), Option.some.injEq, Prod.mk.injEq] at hw
        obtain ⟨rfl, rfl⟩ := hw
        cases hg : (z.world.pool q).clients.get? u with
        | none =>
          refine heff _ _ _ _ (by simp) (by simp) h.free ?_ hk1
          intro p u'
          simp only [current, ← h.pools]
          split
          · rename_i hpu; obtain ⟨rfl, rfl⟩ := hpu; exact hg
          · rfl
        | some x =>
          refine ⟨at', { runs := ?_, free := h.free, pools := h.pools, threads := ?_ }⟩
          · simp only
            rw [history_other _ _ (by simp) (by simp)]
            exact h.runs
          · intro i
            by_cases hi : i = tid
            · subst hi
              simp only [if_true, hst]
              exact .inr (hk2 x)
            · simp only [hi, if_false]; exact h.threads i
      · rw [ht] at hp
        cases hp
        simp only [World.act, if_pos (h.free q), Option.some.injEq, Prod.mk.injEq] at hw
        obtain ⟨rfl, rfl⟩ := hw
        exact heff _ _ _ _ (by simp) (by simp) (hfree q _) (hdel q u _ (.inr rfl)) (hk _)
    | _ => exact absurd hth (by simp [AtThread, AtCalled])

theorem refines_run (R : Nat → Option Nat) (jobs : Nat → Job) (hj : ∀ i, ∃ c, jobs i = .code c ∧ c.Calls IsPoolCall)
    (sched : List Nat) : ∃ a, Refines R ((PSys.start R jobs).run sched) a := by
  refine PSys.run_induct (P := fun z => ∃ a, Refines R z a) _ ?_ ?_ sched
  · refine ⟨⟨[], fun _ => .idle⟩, { runs := .start, free := fun _ => rfl, pools := fun _ _ => rfl, threads := fun i => ?_ }⟩
    obtain ⟨c, h1, h2⟩ := hj i
    exact ⟨c, h2, by simp only [PSys.start, h1]; rfl⟩
  · rintro z tid a k r w ⟨b, hb⟩ ht hw
    exact hb.step ht hw

end Tcpx
