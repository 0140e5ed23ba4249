import Verif.Model.ConnLoop
import Verif.Model.Client
/-!
# Model of request contexts, their key-value stores, and concurrently running requests

Every context has two stores (context.go:44-58, `*sync.Map`), shared by pointer.  A `sync.Map` operation is atomic; between two
of them any other request may run.  A request is a tree of such operations with the code in between (`Prog`); a system is a list
of requests and a memory, executed along an arbitrary schedule.

Simplifications: the messages of a pipe group, handled one after another by `handlePipe` (tcpx.go:994-999), are modelled as separate
requests, which only adds schedules.  Handlers reach the stores through the methods of `Context`, not through the exported fields.
Keys are strings or values of other comparable types.
-/
namespace Tcpx

/-- A key (`interface{}`): a string or something else. context.go:354, 412. -/
inductive Key where
  | str (s : String)
  | other (n : Nat)
deriving DecidableEq, Repr

/-- The identity of a `sync.Map`: that of a TCP connection (context.go:181), the one made for the context of request `tid` at its
creation (context.go:182, 209), or the one made by its `n`-th `Reset` (context.go:575). -/
inductive StoreId where
  | conn (c : Nat)
  | own (tid : Nat)
  | reset (tid n : Nat)
deriving DecidableEq, Repr

/-- Contents of all stores. The `sync.Map`s of context.go:39-40. -/
abbrev Mem := StoreId → Key → Option Any

/-- No counterpart in the code. -/
def Mem.empty : Mem := fun _ _ => none

/-- Package sync, `Map.Store`; context.go:400, 413. -/
def Mem.put (m : Mem) (s : StoreId) (k : Key) (v : Any) : Mem :=
  fun s' k' => if s' = s ∧ k' = k then some v else m s' k'

/-- The pointers of a context. `conn = none` is a nil `PerConnectionContext`, as in a UDP context; `udp` is
`ConnectionProtocolType() == "udp"`. context.go:25-50. -/
structure Ptrs where
  udp  : Bool
  conn : Option StoreId
  req  : StoreId
  resets : Nat := 0
deriving DecidableEq, Repr

/-- The context of a message of TCP connection `c`: context.go:79-104 `copyContext` sets both pointers to the connection's store
(lines 91 and 92). -/
def tcpPtrs (c : Nat) : Ptrs := { udp := false, conn := some (.conn c), req := .conn c }

/-- The context of a datagram: context.go:203-220. -/
def udpPtrs (tid : Nat) : Ptrs := { udp := true, conn := none, req := .own tid }

/-- Who writes to a per-connection store: a handler through `SetCtxPerConn` or the framework (`SetUsername` etc.).
context.go:354, 390-402. -/
inductive Who where
  | user | framework
deriving DecidableEq, Repr

/-- What can be observed of a request besides its store operations. No counterpart in the code: history. -/
inductive Note where
  | dispatch (d : Dispatch)        -- which handlers the message is given to
  | pattern (r : Res String)       -- result of `GetURLPattern`
  | routerType (s : String)        -- result of `RouterType`
  | username (r : Option String)   -- result of `Username`
  | sent (b : Bytes)               -- `Write` of the connection (or `WriteTo`) has transmitted `b`
deriving DecidableEq, Repr

/-- Atomic actions of a request. context.go:395-418, 575. -/
inductive Action where
  | getConn (k : Key)                        -- context.go:405-410 `GetCtxPerConn`
  | setConn (w : Who) (k : Key) (v : Any)    -- context.go:395-401 `setCtxPerConn`
  | getReq (k : Key)                         -- context.go:416-418
  | setReq (k : Key) (v : Any)               -- context.go:412-414
  | reset                                    -- context.go:575
  | note (n : Note)
deriving DecidableEq, Repr

/-- A request: a tree of atomic actions; the code between them is the continuation. No counterpart in the code. -/
inductive Prog (α : Type) where
  | ret (a : α)
  | panic
  | act (a : Action) (k : Option Any → Prog α)

namespace Prog
variable {α β : Type}

/-- No counterpart in the code: sequencing. -/
def bind : Prog α → (α → Prog β) → Prog β
  | ret a, f => f a
  | panic, _ => panic
  | act a k, f => act a (fun r => (k r).bind f)

/-- No counterpart in the code: notation for `Prog.bind`. -/
instance : Monad Prog where
  pure := ret
  bind := bind

end Prog

/-- No counterpart in the code: one action. -/
def perform (a : Action) : Prog (Option Any) := .act a .ret

/-- The store addressed by the per-connection methods: context.go:361-365, 396-400, 406-409.  A nil store is a panic. -/
def connStore (p : Ptrs) : Option StoreId := if p.udp then some p.req else p.conn

/-- Effect of an action of request `tid`: the result given to the continuation, the new memory and pointers; `none` is a nil
pointer dereference. context.go:395-418, 574-582; package sync, `Map`. -/
def Action.effect (tid : Nat) (m : Mem) (p : Ptrs) : Action → Option (Option Any × Mem × Ptrs)
  | .getConn k => (connStore p).map fun s => (m s k, m, p)
  | .setConn _ k v => (connStore p).map fun s => (none, m.put s k v, p)
  | .getReq k => some (m p.req k, m, p)
  | .setReq k v => some (none, m.put p.req k v, p)
  | .reset => some (none, m, { p with req := .reset tid p.resets, resets := p.resets + 1 })
  | .note _ => some (none, m, p)

/-! ## The methods of `Context` -/

/-- context.go:354-366 `SetCtxPerConn`. -/
def setCtxPerConn (k : Key) (v : Any) : Prog Unit :=
  match k with
  | .str s => if "tcpx-".toList.isPrefixOf s.toList then .panic else do let _ ← perform (.setConn .user k v)
  | .other _ => do let _ ← perform (.setConn .user k v)

/-- The key of the user name (context.go:371, 391). -/
def usernameKey : Key := .str "tcpx-username"

/-- context.go:390-392 `SetUsername`. -/
def setUsername (u : String) : Prog Unit := do
  let _ ← perform (.setConn .framework usernameKey (.str u))

/-- context.go:370-376 `Username`; the type assertion panics on a value that is not a string. -/
def username : Prog (Option String) := do
  match ← perform (.getConn usernameKey) with
  | none =>
    let _ ← perform (.note (.username none))
    .ret none
  | some v =>
    match v.asString with
    | none => .panic
    | some s =>
      let _ ← perform (.note (.username (some s)))
      .ret (some s)

/-- The keys of the two caches (context.go:692, 766 and 770, 782). -/
def routerTypeKey : Key := .str "router_type"
/-- context.go:770, 782. -/
def urlPatternKey : Key := .str "url_pattern"

/-- context.go:682-688 `RouterType`.  The receiver is a value, but the store is shared by pointer. -/
def routerType (json : JSONCodec) (stream : Bytes) : Prog String := do
  let cached ← perform (.getReq routerTypeKey)
  match routerTypeWith json cached stream with
  | .ok rt =>
    if (cached.bind Any.asString).isSome then
      let _ ← perform (.note (.routerType rt))
      .ret rt
    else
      let _ ← perform (.setReq routerTypeKey (.str rt))
      let _ ← perform (.note (.routerType rt))
      .ret rt
  | _ => .panic

/-- context.go:769-784 `GetURLPattern`. -/
def getURLPattern (json : JSONCodec) (stream : Bytes) : Prog (Res String) := do
  let cached ← perform (.getReq urlPatternKey)
  match cached.bind Any.asString with
  | some p =>
    let _ ← perform (.note (.pattern (.ok p)))
    .ret (.ok p)
  | none =>
    match urlPatternOf json { live := stream } with
    | .ok p =>
      let _ ← perform (.setReq urlPatternKey (.str p))
      let _ ← perform (.note (.pattern (.ok p)))
      .ret (.ok p)
    | .err e =>
      let _ ← perform (.note (.pattern (.err e)))
      .ret (.err e)
    | _ => .panic

/-- A method call a handler may make. context.go:354-418, 505, 574, 682, 769. -/
inductive Call where
  | setConn (k : Key) (v : Any)
  | getConn (k : Key)
  | setReq (k : Key) (v : Any)
  | getReq (k : Key)
  | setUsername (u : String)      -- also the first step of `Online`
  | username
  | routerType
  | urlPattern                    -- `GetURLPattern`, and the first step of `JSONURLPattern`, `ProtobufURLPattern`
  | send (b : Bytes)              -- `replyBuf`, the last step of replies: a `Write` that transmits `b` (context.go:505-521)
deriving DecidableEq, Repr

/-- What a call returns to the handler. No counterpart in the code: results. -/
inductive CallRes where
  | unit
  | value (v : Option Any)
  | str (s : String)
  | name (r : Option String)
  | pattern (r : Res String)
deriving DecidableEq, Repr

/-- Handler code: which call is made next may depend on the results so far. No counterpart in the code: user code. -/
inductive Code where
  | done
  | panic
  | call (c : Call) (k : CallRes → Code)

/-- context.go:354-418, 505, 574, 682, 769. -/
def Call.run (json : JSONCodec) (stream : Bytes) : Call → Prog CallRes
  | .setConn k v => do setCtxPerConn k v; .ret .unit
  | .getConn k => do let v ← perform (.getConn k); .ret (.value v)
  | .setReq k v => do let _ ← perform (.setReq k v); .ret .unit
  | .getReq k => do let v ← perform (.getReq k); .ret (.value v)
  | .setUsername u => do Tcpx.setUsername u; .ret .unit
  | .username => do let r ← Tcpx.username; .ret (.name r)
  | .routerType => do let s ← Tcpx.routerType json stream; .ret (.str s)
  | .urlPattern => do let r ← getURLPattern json stream; .ret (.pattern r)
  | .send b => do let _ ← perform (.note (.sent b)); .ret .unit

/-- No counterpart in the code: user code. -/
def Code.run (json : JSONCodec) (stream : Bytes) : Code → Prog Unit
  | .done => .ret ()
  | .panic => .panic
  | .call c k => (c.run json stream).bind fun r => (k r).run json stream

/-- Run the handlers selected by a dispatch (given as one piece of code, depending on which handlers they are), then `Reset` if it
was a chain: tcpx.go:886, 944, 991 (not after the direct calls of lines 903, 908). -/
def runDispatch (json : JSONCodec) (stream : Bytes) (code : Dispatch → Code) (d : Dispatch) : Prog Unit := do
  let _ ← perform (.note (.dispatch d))
  match d with
  | .nothing => .ret ()
  | .panic => .panic
  | .direct _ => (code d).run json stream
  | .chain _ => do
    (code d).run json stream
    let _ ← perform .reset

/-- tcpx.go:853-871 `handleMiddleware`, as executed among other requests. -/
def request (s : Srv) (json : JSONCodec) (stream : Bytes) (code : Dispatch → Code) : Prog Unit :=
  match s.onMessage with
  | some f => runDispatch json stream code (s.dispatchOnMessage f)
  | none => do
    let rt ← routerType json stream
    if rt = MESSAGEID then runDispatch json stream code (handleMessageID s stream)
    else
      let rt ← routerType json stream
      if rt = URLPATTERN then runDispatch json stream code (handleURLPattern s json stream)
      else
        let _ ← routerType json stream
        runDispatch json stream code .nothing

/-! ## Concurrent execution -/

/-- A running request. No counterpart in the code. -/
structure Thread where
  ptrs : Ptrs
  prog : Prog Unit

/-- An executed action: by which request, on what pointers, and its result. No counterpart in the code: history. -/
structure Event where
  tid : Nat
  ptrs : Ptrs
  action : Action
  result : Option Any
deriving DecidableEq, Repr

/-- No counterpart in the code: the stores, the requests and history. -/
structure Sys where
  mem : Mem
  threads : Nat → Thread
  trace : List Event      -- newest first

/-- One atomic action of request `tid`; a finished or panicked request does nothing. No counterpart in the code: scheduling. -/
def Sys.step (y : Sys) (tid : Nat) : Sys :=
  match (y.threads tid).prog with
  | .act a k =>
    match a.effect tid y.mem (y.threads tid).ptrs with
    | some (r, m, p) =>
      { mem := m
        threads := fun i => if i = tid then ⟨p, k r⟩ else y.threads i
        trace := ⟨tid, (y.threads tid).ptrs, a, r⟩ :: y.trace }
    | none => { y with threads := fun i => if i = tid then ⟨(y.threads tid).ptrs, .panic⟩ else y.threads i }
  | _ => y

/-- Execution along a schedule. No counterpart in the code. -/
def Sys.run (y : Sys) (sched : List Nat) : Sys := sched.foldl Sys.step y

/-- What requests are received: by which transport (for TCP, which connection), the message, and the code of the handlers.
tcpx.go:565-605, 682-703. -/
structure Arrival where
  tcp : Option Nat
  stream : Bytes
  code : Dispatch → Code

/-- The start: nothing stored, every request about to begin.  (A request that has not arrived yet is one that is not scheduled.).
No counterpart in the code. -/
def Sys.start (s : Srv) (json : JSONCodec) (arrivals : Nat → Arrival) : Sys :=
  { mem := Mem.empty
    threads := fun i =>
      { ptrs := match (arrivals i).tcp with
          | some c => tcpPtrs c
          | none => udpPtrs i
        prog := request s json (arrivals i).stream (arrivals i).code }
    trace := [] }

/-- Requests running any code whatever, in particular code that calls `Reset` (context.go:574-582) before its end. -/
def Sys.ofProgs (tcp : Nat → Option Nat) (prog : Nat → Prog Unit) : Sys :=
  { mem := Mem.empty
    threads := fun i =>
      { ptrs := match tcp i with
          | some c => tcpPtrs c
          | none => udpPtrs i
        prog := prog i }
    trace := [] }

end Tcpx
