import Verif.Model.Pool
/-!
# The pool and the user states at the level of their mutexes

`Model/Pool` takes a critical section with one access for one atomic action.  Here locking, the beginning and the end of an access, and
unlocking are steps of their own, and any other goroutine may run in between.  Mutexes are those of package sync: `Lock` waits until
there is neither writer nor reader, `RLock` until there is no writer (that a waiting writer stops new readers is not used, which
only adds schedules); neither is reentrant.
-/
namespace Tcpx

/-- The mutexes: client-pool.go:11 `m` of a pool, context.go:29 `L` of a connection (shared by its contexts). -/
inductive Lk where
  | pool (p : Nat)
  | ctx (c : Nat)
deriving DecidableEq, Repr

/-- A `sync.RWMutex`. Package sync, used at client-pool.go:11, context.go:29. -/
structure RW where
  writer : Option Nat := none
  readers : List Nat := []
deriving DecidableEq, Repr

/-- Memory that is not safe for concurrent use: the map `Clients` of a pool (client-pool.go:10), `*userState` of a connection. -/
inductive Var where
  | clients (p : Nat)
  | userState (c : Nat)
deriving DecidableEq, Repr

/-- What an action accesses, and whether it writes. client-pool.go:23-59, tcpx.go:1175-1188, context.go:288-290. -/
def PAct.access : PAct → Option (Var × Bool)
  | .look p _ => some (.clients p, false)          -- client-pool.go:32, :57
  | .put p _ _ => some (.clients p, true)          -- client-pool.go:26
  | .del p _ => some (.clients p, true)            -- client-pool.go:38
  | .keys p => some (.clients p, false)            -- tcpx.go:1179
  | .lookHeld p _ => some (.clients p, false)      -- tcpx.go:1180
  | .delHeld p _ => some (.clients p, true)        -- tcpx.go:1181
  | .setOffline c => some (.userState c, true)     -- context.go:290
  | .readOffline c => some (.userState c, false)   -- context.go:593, :604
  | _ => none

/-- The mutex taken just for this action, and whether for writing. client-pool.go:24-57, context.go:288-289. -/
def PAct.guarded : PAct → Option (Lk × Bool)
  | .look p _ => some (.pool p, false)             -- client-pool.go:30-31
  | .put p _ _ => some (.pool p, true)             -- client-pool.go:24-25
  | .del p _ => some (.pool p, true)               -- client-pool.go:36-37
  | .setOffline c => some (.ctx c, true)           -- context.go:288-289
  | .readOffline c => some (.ctx c, false)         -- context.go:591-592
  | _ => none

/-- The effect of an action on the data, whoever holds what.
The accesses of client-pool.go:23-57, context.go:276-302, 590-600, tcpx.go:1169-1188. -/
def World.effect (w : World) : PAct → PVal × World
  | .look p u => (.conn ((w.pool p).clients.get? u), w)
  | .put p u c => (.unit, w.setPool p { w.pool p with clients := (w.pool p).clients.set u c })
  | .del p u => (.unit, w.setPool p { w.pool p with clients := (w.pool p).clients.delete u })
  | .hold _ => (.unit, w)
  | .release _ => (.unit, w)
  | .keys p => (.keys (w.pool p).clients.keys, w)
  | .lookHeld p u => (.conn ((w.pool p).clients.get? u), w)
  | .delHeld p u => (.unit, w.setPool p { w.pool p with clients := (w.pool p).clients.delete u })
  | .closeNet c => (.unit, w.setConn c { w.conn c with netClosed := true })
  | .closeEnd c => (.bool (w.conn c).endClosed, w.setConn c { w.conn c with endClosed := true })
  | .setOffline c => (.unit, w.setConn c { w.conn c with offline := true })
  | .readOffline c => (.bool (w.conn c).offline, w)
  | .setName c v => (.unit, w.setConn c { w.conn c with name := some v })
  | .getName c => (.any (w.conn c).name, w)
  | .write c f =>
    if (w.conn c).netClosed then (.bool false, w) else (.bool true, w.setConn c { w.conn c with sent := f :: (w.conn c).sent })
  | .inv _ => (.unit, w)
  | .ret _ _ => (.unit, w)

/-- Steps. No counterpart in the code: single steps of a goroutine. -/
inductive FAct where
  | lock (l : Lk) | unlock (l : Lk)
  | rlock (l : Lk) | runlock (l : Lk)
  | enter (a : PAct)      -- the access begins
  | leave (a : PAct)      -- it ends, and has its effect
deriving DecidableEq, Repr

/-- No counterpart in the code: the code of a goroutine in single steps. -/
inductive FProg where
  | ret
  | panic
  | act (a : FAct) (k : PVal → FProg)

/-- The steps of an action. The deferred `Unlock` comes after the access. client-pool.go:23-59, tcpx.go:1175-1188. -/
def PAct.steps (a : PAct) (k : PVal → FProg) : FProg :=
  match a with
  | .hold p => .act (.lock (.pool p)) k            -- tcpx.go:1176
  | .release p => .act (.unlock (.pool p)) k       -- tcpx.go:1177
  | a =>
    match a.guarded with
    | some (l, true) => .act (.lock l) fun _ => .act (.enter a) fun _ => .act (.leave a) fun r => .act (.unlock l) fun _ => k r
    | some (l, false) => .act (.rlock l) fun _ => .act (.enter a) fun _ => .act (.leave a) fun r => .act (.runlock l) fun _ => k r
    | none => if a.access.isSome then .act (.enter a) fun _ => .act (.leave a) k else .act (.leave a) k

/-- The code of a goroutine in single steps. The locking of client-pool.go:23-57, context.go:288-290, 590-600, tcpx.go:1176-1177. -/
def PProg.fine : PProg Unit → FProg
  | .ret _ => .ret
  | .panic => .panic
  | .act a k => a.steps fun r => (k r).fine

/-- No counterpart in the code: the goroutines, mutexes and data. -/
structure FSys where
  world : World                                      -- `holder` is not used
  locks : Lk → RW
  inside : Nat → Option PAct                         -- the access a goroutine is in the middle of
  threads : Nat → FProg
  trace : List PEvent                                -- newest first

/-- One step of goroutine `tid`, if it has one and is not waiting. No counterpart in the code: scheduling; package sync. -/
def FSys.step (y : FSys) (tid : Nat) : FSys :=
  match y.threads tid with
  | .ret => y
  | .panic => y
  | .act a k =>
    let go (r : PVal) : Nat → FProg := fun i => if i = tid then k r else y.threads i
    let die : Nat → FProg := fun i => if i = tid then .panic else y.threads i
    let set (l : Lk) (m : RW) : Lk → RW := fun l' => if l' = l then m else y.locks l'
    match a with
    | .lock l =>
      if (y.locks l).writer = none ∧ (y.locks l).readers = [] then
        { y with locks := set l { y.locks l with writer := some tid }, threads := go .unit }
      else y
    | .unlock l =>
      if (y.locks l).writer = some tid then { y with locks := set l { y.locks l with writer := none }, threads := go .unit }
      else { y with threads := die }       -- "sync: Unlock of unlocked RWMutex"
    | .rlock l =>
      if (y.locks l).writer = none then
        { y with locks := set l { y.locks l with readers := tid :: (y.locks l).readers }, threads := go .unit }
      else y
    | .runlock l =>
      if tid ∈ (y.locks l).readers then
        { y with locks := set l { y.locks l with readers := (y.locks l).readers.erase tid }, threads := go .unit }
      else { y with threads := die }
    | .enter a => { y with inside := fun i => if i = tid then some a else y.inside i, threads := go .unit }
    | .leave a =>
      let r := y.world.effect a
      { y with world := r.2, inside := fun i => if i = tid then none else y.inside i, threads := go r.1,
               trace := ⟨tid, a, r.1⟩ :: y.trace }

/-- No counterpart in the code: scheduling. -/
def FSys.run (y : FSys) (sched : List Nat) : FSys := sched.foldl FSys.step y

/-- No counterpart in the code: all goroutines at their beginning. -/
def FSys.start (R : Nat → Option Nat) (jobs : Nat → Job) : FSys :=
  { world := { conn := fun _ => {}, pool := fun _ => {} }
    locks := fun _ => {}
    inside := fun _ => none
    threads := fun i => ((jobs i).run R).fine
    trace := [] }

end Tcpx
