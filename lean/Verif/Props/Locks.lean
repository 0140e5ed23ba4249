import Verif.Lemmas.Locks
import Verif.Props.Pool
/-!
# C94: the mutexes of the pool and of the contexts are used correctly
-/
namespace Tcpx
open Spec

/-- The mutex over a piece of memory. -/
def Var.lk : Var → Lk
  | .clients p => .pool p
  | .userState c => .ctx c

/-- Who is in the middle of an access has the mutex, for writing if it writes. -/
theorem inside_locked {y : FSys} {z : PSys} {ph : Nat → Ph} {held : Nat → Option Nat} (h : LInv y z ph held) (i : Nat) (a : PAct)
    (v : Var) (w : Bool) (hi : y.inside i = some a) (ha : a.access = some (v, w)) :
    (y.locks v.lk).writer = some i ∨ (w = false ∧ i ∈ (y.locks v.lk).readers) := by
  have hp := (h.inside i a).1 hi
  have hr := h.prog i
  rw [hp] at hr
  generalize y.threads i = f at hr
  generalize z.threads i = p at hr
  have hlock : (ph i).lock = a.guarded := by rw [hp]; rfl
  have hwr : ∀ l, (ph i).lock = some (l, true) → (y.locks l).writer = some i := fun l e => (h.writer l i).2 (.inl e)
  have hrd : ∀ l, (ph i).lock = some (l, false) → i ∈ (y.locks l).readers := fun l e => (h.reader l i).2 e
  have hhd : ∀ p, held i = some p → (y.locks (.pool p)).writer = some i := fun p e => (h.writer _ i).2 (.inr ⟨p, rfl, e⟩)
  cases hr with
  | inn _ k hd _ =>
    cases a <;> cases ha
    case inn.look.refl => exact .inr ⟨rfl, hrd _ hlock⟩
    case inn.put.refl => exact .inl (hwr _ hlock)
    case inn.del.refl => exact .inl (hwr _ hlock)
    case inn.keys.refl => exact .inl (hhd _ hd.1)
    case inn.lookHeld.refl => exact .inl (hhd _ hd.1)
    case inn.delHeld.refl => exact .inl (hhd _ hd.1)
    case inn.setOffline.refl => exact .inl (hwr _ hlock)
    case inn.readOffline.refl => exact .inr ⟨rfl, hrd _ hlock⟩

/-- C94: in no execution, of any number of goroutines running any code of pool, context and server calls and any number of
`closeAllConnection` sweeps, do two accesses to the map of a pool, or to the state of a user, overlap when one of them writes. -/
theorem C94_exclusive (R : Nat → Option Nat) (jobs : Nat → Job) (sched : List Nat) : ¬ Clash ((FSys.start R jobs).run sched) := by
  rintro ⟨i, j, a, b, hij, hi, hj, v, wa, wb, ha, hb, hw⟩
  obtain ⟨_, ph, held, h⟩ := linv_run R jobs sched
  rcases inside_locked h i a v wa hi ha with h1 | ⟨h1, h1'⟩
  · rcases inside_locked h j b v wb hj hb with h2 | ⟨h2, h2'⟩
    · rw [h1] at h2; cases h2; exact hij rfl
    · rw [h.excl _ _ h1] at h2'; cases h2'
  · rcases inside_locked h j b v wb hj hb with h2 | ⟨h2, h2'⟩
    · rw [h.excl _ _ h2] at h1'; cases h1'
    · subst h1 h2
      rcases hw with e | e <;> cases e

/-- C94: what an action is said to access is right: it changes the map of a pool, or the state of a user, only if it is said to write
it, and its result depends on them only if it is said to access them. -/
theorem C94_accesses (a : PAct) (w : World) :
    (∀ p, ((w.effect a).2.pool p).clients ≠ (w.pool p).clients → a.access = some (.clients p, true)) ∧
    (∀ c, ((w.effect a).2.conn c).offline ≠ (w.conn c).offline → a.access = some (.userState c, true)) ∧
    (∀ p m, ((w.setPool p { w.pool p with clients := m }).effect a).1 ≠ (w.effect a).1 → ∃ b, a.access = some (.clients p, b)) ∧
    (∀ c b', ((w.setConn c { w.conn c with offline := b' }).effect a).1 ≠ (w.effect a).1 → ∃ b, a.access = some (.userState c, b)) := by
  refine ⟨?_, ?_, ?_, ?_⟩
  · intro p h
    cases a <;> simp only [World.effect, World.setPool, World.setConn] at h <;>
      first
      | exact absurd rfl h
      | (split at h
         next e => subst e; rfl
         next => exact absurd rfl h)
      | (split at h <;> exact absurd rfl h)
  · intro c h
    cases a
    case write d f =>
      simp only [World.effect, World.setConn] at h
      by_cases hn : (w.conn d).netClosed = true
      · rw [if_pos hn] at h; exact absurd rfl h
      · rw [if_neg hn] at h
        by_cases e : c = d
        · subst e; simp at h
        · simp [e] at h
    all_goals
      simp only [World.effect, World.setPool, World.setConn] at h
      first
      | exact absurd rfl h
      | (split at h
         next e => subst e; first | exact absurd rfl h | rfl
         next => exact absurd rfl h)
  · intro p m h
    cases a <;> simp only [World.effect, World.setPool, World.setConn] at h <;>
      first
      | exact absurd rfl h
      | (split at h
         next e => subst e; exact ⟨_, rfl⟩
         next => exact absurd rfl h)
      | (split at h <;> exact absurd rfl h)
  · intro c b' h
    cases a
    case write d f =>
      by_cases e : d = c
      · subst e
        simp only [World.effect, World.setConn, if_true] at h
        by_cases hn : (w.conn d).netClosed = true <;> simp [hn] at h
      · simp only [World.effect, World.setConn, if_neg e] at h
        by_cases hn : (w.conn d).netClosed = true <;> simp [hn] at h
    all_goals
      simp only [World.effect, World.setPool, World.setConn] at h
      first
      | exact absurd rfl h
      | (split at h
         next e => subst e; first | exact absurd rfl h | exact ⟨_, rfl⟩
         next => exact absurd rfl h)

/-- C94: no goroutine ends in a panic of a mutex: each panic of an execution is one of the code itself, at the level of whole calls. -/
theorem C94_balanced (R : Nat → Option Nat) (jobs : Nat → Job) (sched : List Nat) (i : Nat)
    (hp : ((FSys.start R jobs).run sched).threads i = .panic) :
    ∃ sched', ((PSys.start R jobs).run sched').threads i = .panic := by
  obtain ⟨s, ph, held, h⟩ := linv_run R jobs sched
  have hr := h.prog i
  rw [hp] at hr
  refine ⟨s, ?_⟩
  generalize ((PSys.start R jobs).run s).threads i = p at hr
  generalize ph i = φ at hr
  generalize hf : FProg.panic = f at hr
  cases hr with
  | top _ _ =>
    cases p with
    | ret _ => cases hf
    | panic => rfl
    | act a k =>
      simp only [PProg.fine] at hf
      unfold PAct.steps at hf
      repeat' split at hf
      all_goals cases hf
  | got => cases hf
  | inn => cases hf
  | outW => cases hf
  | outR => cases hf

/-- C94: every execution at the level of the mutexes has the data and the events of one in which each call to a pool, and each access
to the state of a user, happens at one instant. -/
theorem C94_refines (R : Nat → Option Nat) (jobs : Nat → Job) (sched : List Nat) :
    ∃ sched', ((FSys.start R jobs).run sched).world.conn = ((PSys.start R jobs).run sched').world.conn ∧
      (∀ p, (((FSys.start R jobs).run sched).world.pool p).clients = (((PSys.start R jobs).run sched').world.pool p).clients) ∧
      ((FSys.start R jobs).run sched).trace = ((PSys.start R jobs).run sched').trace.filter fun e => !isLocking e.action := by
  obtain ⟨s, ph, held, h⟩ := linv_run R jobs sched
  exact ⟨s, h.conn.symm, fun p => (h.clients p).symm, h.trace⟩

theorem history_filter (t : List PEvent) : history (t.filter fun e => !isLocking e.action) = history t := by
  induction t with
  | nil => rfl
  | cons e t ih =>
    obtain ⟨tid, a, r⟩ := e
    cases a <;> simp_all [isLocking, history]

/-- C94: the calls to the pools are linearizable with their mutexes as they are (C44 has them as atomic actions). -/
theorem C94_linearizable (R : Nat → Option Nat) (jobs : Nat → Job) (hj : ∀ i, ∃ c, jobs i = .code c ∧ c.Calls IsPoolCall)
    (sched : List Nat) : ∃ a, Atomic.Runs (history ((FSys.start R jobs).run sched).trace) a ∧
      ∀ p u, (((FSys.start R jobs).run sched).world.pool p).clients.get? u = current p u a.hist := by
  obtain ⟨s, _, h2, h3⟩ := C94_refines R jobs sched
  obtain ⟨a, ha, hb⟩ := C44_contents R jobs hj s
  refine ⟨a, ?_, ?_⟩
  · rw [h3, history_filter]; exact ha
  · intro p u; rw [h2]; exact hb p u

/-- Goroutine 0 is in the middle of `Online` while goroutine 1 wants to read and goroutine 2 wants to sweep: both wait. -/
def Demo.busy : Nat → Job := fun i =>
  if i = 0 then .code (callSeq [.poolOnline 0 "bob" 1]) else if i = 1 then .code (callSeq [.poolGet 0 "bob"])
  else if i = 2 then .sweep id 0 else .code .done

example : let y := (FSys.start (fun _ => some 0) Demo.busy).run [0, 0, 0, 1, 1, 1, 2, 2]
    y.inside 0 = some (.put 0 "bob" 1) ∧ (y.locks (.pool 0)).writer = some 0 ∧ y.inside 1 = none ∧ y.inside 2 = none := by decide

/-- Afterwards the reader finds the entry. -/
example : let y := (FSys.start (fun _ => some 0) Demo.busy).run [0, 0, 0, 1, 1, 1, 2, 2, 0, 0, 0, 1, 1, 1, 1, 1]
    (⟨1, .look 0 "bob", .conn (some 1)⟩ : PEvent) ∈ y.trace ∧ y.locks (.pool 0) = {} := by decide

/-- Two readers overlap, which is no conflict. -/
example : let y := (FSys.start (fun _ => some 0) fun _ => .code (callSeq [.poolGet 0 "bob"])).run [0, 1, 0, 1, 0, 1]
    y.inside 0 = some (.look 0 "bob") ∧ y.inside 1 = some (.look 0 "bob") := by decide

/-- Without its mutex the map would be accessed concurrently: `Clash` is no empty notion. -/
example : Clash ⟨{ conn := fun _ => {}, pool := fun _ => {} }, fun _ => {}, fun i => if i = 0 then some (.put 0 "bob" 1) else
    if i = 1 then some (.look 0 "bob") else none, fun _ => .ret, []⟩ :=
  ⟨0, 1, _, _, by decide, rfl, rfl, .clients 0, true, false, rfl, rfl, .inl rfl⟩

end Tcpx
