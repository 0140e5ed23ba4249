import Verif.Model.Client
/-!
# Model of the client pool and of closing connections, under concurrency

Goroutines execute trees of atomic actions (`PProg`) along arbitrary schedules.

* A critical section of a pool's mutex that makes a single map access (client-pool.go:24-56) is one atomic action, possible only while
  nobody holds the mutex for longer.  Only the goroutine of `closeAllConnection` holds it across several actions (`hold` .. `release`).
  The mutex is not reentrant: the holder itself is also refused.
* A critical section of a context's `L` contains one access of the user state (context.go:288-290, 590-605) and is one atomic action.
* Contexts are represented by the connection they belong to: the request contexts made by `copyContext` share all pointers used here,
  and `poolRef`, set once before the first copy (tcpx.go:533-535).  Contexts are those of TCP connections, not nil, made by `NewContext`.
* The user name is the entry "tcpx-username" of the connection's store, which handlers can also overwrite through
  `SetCtxPerRequest` (context.go:92).
-/
namespace Tcpx

/-- The state of a connection. context.go:25-76. -/
structure ConnSt where
  netClosed : Bool := false      -- Conn.Close was called
  endClosed : Bool := false      -- recvEnd is closed
  offline : Bool := false        -- *userState == CONTEXT_OFFLINE
  name : Option Any := none      -- PerConnectionContext["tcpx-username"]
  sent : List Nat := []          -- frames written, newest first
deriving DecidableEq, Repr

/-- client-pool.go:9-12 `ClientPool`; `holder` is the goroutine in the critical section of tcpx.go:1176-1182. -/
structure PoolSt where
  clients : GoMap String Nat := []
  holder : Option Nat := none
deriving DecidableEq, Repr

/-- All connections (context.go:25) and pools (client-pool.go:9). -/
structure World where
  conn : Nat → ConnSt
  pool : Nat → PoolSt

/-- Calls of the API. `R c` is the `poolRef` of connection `c`. client-pool.go:23-57, context.go:131-175, 276, 590-600, 645-660. -/
inductive PCall where
  | poolOnline (p : Nat) (u : String) (c : Nat)       -- pool.Online, pool.SetClientPool
  | poolGet (p : Nat) (u : String)                    -- pool.GetClientPool
  | poolDelete (p : Nat) (u : String)                 -- pool.DeleteFromClientPool
  | poolOffline (p : Nat) (u : String)                -- pool.Offline
  | online (c : Nat) (u : String)                     -- ctx.Online
  | offline (c : Nat)                                 -- ctx.Offline
  | close (c : Nat)                                   -- ctx.CloseConn
  | sendTo (c : Nat) (u : String) (frame : Nat)       -- ctx.SendToUsername
  | isOffline (c : Nat)
  | setUsername (c : Nat) (u : String)
  | setReq (c : Nat) (v : Any)                        -- ctx.SetCtxPerRequest("tcpx-username", v)
deriving DecidableEq, Repr

/-- What a call returns. No counterpart in the code: results. -/
inductive PRes where
  | unit
  | failed                       -- an error
  | conn (c : Option Nat)
  | bool (b : Bool)
deriving DecidableEq, Repr

/-- Atomic actions.
The accesses made under a mutex or by a single operation; `PAct` is split further in `Model/Locks`, from client-pool.go:23-57. -/
inductive PAct where
  | look (p : Nat) (u : String)
  | put (p : Nat) (u : String) (c : Nat)
  | del (p : Nat) (u : String)
  | hold (p : Nat)
  | release (p : Nat)
  | keys (p : Nat)                     -- by the holder
  | lookHeld (p : Nat) (u : String)    -- by the holder
  | delHeld (p : Nat) (u : String)     -- by the holder
  | closeNet (c : Nat)
  | closeEnd (c : Nat)
  | setOffline (c : Nat)
  | readOffline (c : Nat)
  | setName (c : Nat) (v : Any)
  | getName (c : Nat)
  | write (c : Nat) (frame : Nat)
  | inv (c : PCall)
  | ret (c : PCall) (r : PRes)
deriving DecidableEq, Repr

/-- The result of an action. No counterpart in the code: results. -/
inductive PVal where
  | unit
  | conn (c : Option Nat)
  | bool (b : Bool)
  | any (v : Option Any)
  | keys (l : List String)
deriving DecidableEq, Repr

namespace World

/-- No counterpart in the code. -/
def setConn (w : World) (c : Nat) (s : ConnSt) : World := { w with conn := fun i => if i = c then s else w.conn i }
/-- No counterpart in the code. -/
def setPool (w : World) (p : Nat) (s : PoolSt) : World := { w with pool := fun i => if i = p then s else w.pool i }

/-- The effect of an action of goroutine `tid`; `none` while it is blocked.
client-pool.go:23-57, context.go:276-302, tcpx.go:1169-1188. -/
def act (w : World) (tid : Nat) : PAct → Option (PVal × World)
  | .look p u => if (w.pool p).holder = none then some (.conn ((w.pool p).clients.get? u), w) else none
  | .put p u c =>
    if (w.pool p).holder = none then some (.unit, w.setPool p { w.pool p with clients := (w.pool p).clients.set u c }) else none
  | .del p u =>
    if (w.pool p).holder = none then some (.unit, w.setPool p { w.pool p with clients := (w.pool p).clients.delete u }) else none
  | .hold p => if (w.pool p).holder = none then some (.unit, w.setPool p { w.pool p with holder := some tid }) else none
  | .release p => some (.unit, w.setPool p { w.pool p with holder := none })
  | .keys p => some (.keys (w.pool p).clients.keys, w)
  | .lookHeld p u => some (.conn ((w.pool p).clients.get? u), w)
  | .delHeld p u => some (.unit, w.setPool p { w.pool p with clients := (w.pool p).clients.delete u })
  | .closeNet c => some (.unit, w.setConn c { w.conn c with netClosed := true })
  | .closeEnd c => some (.bool (w.conn c).endClosed, w.setConn c { w.conn c with endClosed := true })
  | .setOffline c => some (.unit, w.setConn c { w.conn c with offline := true })
  | .readOffline c => some (.bool (w.conn c).offline, w)
  | .setName c v => some (.unit, w.setConn c { w.conn c with name := some v })
  | .getName c => some (.any (w.conn c).name, w)
  | .write c f =>
    if (w.conn c).netClosed then some (.bool false, w)
    else some (.bool true, w.setConn c { w.conn c with sent := f :: (w.conn c).sent })
  | .inv _ => some (.unit, w)
  | .ret _ _ => some (.unit, w)

end World

/-- A goroutine: a tree of atomic actions; the code between them is the continuation. No counterpart in the code. -/
inductive PProg (α : Type) where
  | ret (a : α)
  | panic
  | act (a : PAct) (k : PVal → PProg α)

namespace PProg
variable {α β : Type}

/-- No counterpart in the code: sequencing. -/
def bind : PProg α → (α → PProg β) → PProg β
  | ret a, f => f a
  | panic, _ => panic
  | act a k, f => act a (fun r => (k r).bind f)

/-- No counterpart in the code: notation for `PProg.bind`. -/
instance : Monad PProg where
  pure := ret
  bind := bind

end PProg

/-- No counterpart in the code: one action. -/
def doAct (a : PAct) : PProg PVal := .act a .ret
/-- No counterpart in the code: one action without result. -/
def doUnit (a : PAct) : PProg Unit := .act a fun _ => .ret ()

/-- client-pool.go:30-34 `GetClientPool`. -/
def poolLook (p : Nat) (u : String) : PProg (Option Nat) := .act (.look p u) fun
  | .conn r => .ret r
  | _ => .ret none

/-- client-pool.go:45-50 `Offline`. -/
def poolOffline (p : Nat) (u : String) : PProg Unit := do
  match ← poolLook p u with
  | none => .ret ()
  | some _ => doUnit (.del p u)

/-- context.go:370-376 `Username`; the type assertion panics on a value that is not a string. -/
def connName (c : Nat) : PProg (Option String) := .act (.getName c) fun
  | .any (some v) =>
    match v.asString with
    | some u => .ret (some u)
    | none => .panic
  | _ => .ret none

/-- context.go:131-141 `Online`; whether it succeeds. -/
def ctxOnline (R : Nat → Option Nat) (c : Nat) (u : String) : PProg Bool :=
  if u = "" then .ret false
  else do
    doUnit (.setName c (.str u))
    match R c with
    | none => .ret false
    | some p => do
      doUnit (.put p u c)
      .ret true

/-- context.go:163-173 `Offline`; whether it succeeds. -/
def ctxOffline (R : Nat → Option Nat) (c : Nat) : PProg Bool :=
  match R c with
  | none => .ret false
  | some p => do
    match ← connName c with
    | none => .ret false
    | some u => do
      poolOffline p u
      .ret true

/-- context.go:275-302 `CloseConn`; `closeEnd` on a closed channel panics inside `CloseChanel` (utils.go:70-77), which recovers. -/
def closeConn (R : Nat → Option Nat) (c : Nat) : PProg Unit := do
  doUnit (.closeNet c)
  let _ ← doAct (.closeEnd c)
  if (R c).isSome then
    let _ ← ctxOffline R c
  doUnit (.setOffline c)

/-- context.go:590-594. -/
def isOfflineNow (c : Nat) : PProg Bool := .act (.readOffline c) fun
  | .bool b => .ret b
  | _ => .ret false

/-- context.go:645-660 `SendToUsername`, `SendToConn`: the frame packed by `Reply` is written to the other connection (writing to a
closed connection fails). -/
def sendToUsername (R : Nat → Option Nat) (c : Nat) (u : String) (frame : Nat) : PProg Bool :=
  match R c with
  | none => .ret false
  | some p => do
    match ← poolLook p u with
    | none => .ret false
    | some other =>
      if ← isOfflineNow other then .ret false
      else
        match ← doAct (.write other frame) with
        | .bool b => .ret b
        | _ => .ret false

/-- tcpx.go:1175-1183, the goroutine of `closeAllConnection`; `order` is the order in which `range` visits the keys. -/
def sweep (R : Nat → Option Nat) (order : List String → List String) (p : Nat) : PProg Unit :=
  .act (.hold p) fun _ => .act (.keys p) fun
    | .keys l => (go (order l)).bind fun _ => doUnit (.release p)
    | _ => .panic
where
  go : List String → PProg Unit
    | [] => .ret ()
    | k :: ks => .act (.lookHeld p k) fun
      | .conn (some c) => (closeConn R c).bind fun _ => .act (.delHeld p k) fun _ => go ks
      | _ => .panic        -- a nil context

/-- No counterpart in the code: success or error. -/
def boolRes : Bool → PRes
  | true => .unit
  | false => .failed

/-- The execution of a call. client-pool.go:23-57, context.go:131-175, 276, 590-600, 645-660. -/
def PCall.body (R : Nat → Option Nat) : PCall → PProg PRes
  | .poolOnline p u c => do doUnit (.put p u c); .ret .unit
  | .poolGet p u => do let r ← poolLook p u; .ret (.conn r)
  | .poolDelete p u => do doUnit (.del p u); .ret .unit
  | .poolOffline p u => do Tcpx.poolOffline p u; .ret .unit
  | .online c u => do let b ← ctxOnline R c u; .ret (boolRes b)
  | .offline c => do let b ← ctxOffline R c; .ret (boolRes b)
  | .close c => do closeConn R c; .ret .unit
  | .sendTo c u f => do let b ← sendToUsername R c u f; .ret (boolRes b)
  | .isOffline c => do let b ← isOfflineNow c; .ret (.bool b)
  | .setUsername c u => do doUnit (.setName c (.str u)); .ret .unit
  | .setReq c v => do doUnit (.setName c v); .ret .unit

/-- A call, with its beginning and end recorded. No counterpart in the code: history. -/
def PCall.run (R : Nat → Option Nat) (c : PCall) : PProg PRes := do
  doUnit (.inv c)
  let r ← c.body R
  doUnit (.ret c r)
  .ret r

/-- User code: which call is made next may depend on the results so far. No counterpart in the code: user code. -/
inductive PCode where
  | done
  | call (c : PCall) (k : PRes → PCode)

/-- No counterpart in the code: user code. -/
def PCode.run (R : Nat → Option Nat) : PCode → PProg Unit
  | .done => .ret ()
  | .call c k => (c.run R).bind fun r => (k r).run R

/-- A goroutine: user code, or a closing goroutine of the server. tcpx.go:1175 for the closing goroutine. -/
inductive Job where
  | code (c : PCode)
  | sweep (order : List String → List String) (p : Nat)

/-- No counterpart in the code. -/
def Job.run (R : Nat → Option Nat) : Job → PProg Unit
  | .code c => c.run R
  | .sweep order p => Tcpx.sweep R order p

/-- An executed action. No counterpart in the code: history. -/
structure PEvent where
  tid : Nat
  action : PAct
  result : PVal
deriving DecidableEq, Repr

/-- No counterpart in the code: the goroutines, the data and history. -/
structure PSys where
  world : World
  threads : Nat → PProg Unit
  trace : List PEvent            -- newest first

/-- One action of goroutine `tid`, if it has one and is not blocked. No counterpart in the code: scheduling. -/
def PSys.step (y : PSys) (tid : Nat) : PSys :=
  match y.threads tid with
  | .act a k =>
    match y.world.act tid a with
    | some (r, w) =>
      { world := w
        threads := fun i => if i = tid then k r else y.threads i
        trace := ⟨tid, a, r⟩ :: y.trace }
    | none => y
  | _ => y

/-- No counterpart in the code: scheduling. -/
def PSys.run (y : PSys) (sched : List Nat) : PSys := sched.foldl PSys.step y

/-- The start: every goroutine at its beginning (one not scheduled has not been started), new connections, empty pools.
No counterpart in the code. -/
def PSys.start (R : Nat → Option Nat) (jobs : Nat → Job) : PSys :=
  { world := { conn := fun _ => {}, pool := fun _ => {} }
    threads := fun i => (jobs i).run R
    trace := [] }

end Tcpx
