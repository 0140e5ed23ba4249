/-!
# Who accesses what when: fields of the server and of contexts

The code reduced to its accesses to fields that several goroutines use, the mutex `pLock` of the server, and `go` statements.  Results
of system calls, `select` statements, the numbers of iterations and user decisions are free choices.  Of the fields only the state, the
number of listener records and whether there is a pool have values here.
-/
namespace Tcpx

/-- Fields. tcpx.go:71, 81-83, 97-104, context.go:25-75. -/
inductive Loc where
  -- of the server (tcpx.go:71, :81-83, :97-104)
  | state
  | properties
  | listener            -- `Listener` of the records
  | pool
  -- of the context of a connection or datagram (context.go:25-75)
  | stream
  | poolRef
  | chain               -- `handlers`, `offset`
  | reqStore            -- the pointer `PerRequestContext`
  | ends                -- `ConnReader`, `ConnWriter`
  -- of the context made by `copyContext` for the n-th message
  | request (n : Nat)
deriving DecidableEq, Repr

/-- The code of a goroutine. No counterpart in the code: the accesses of a goroutine, `pLock` is tcpx.go:82. -/
inductive RProg where
  | done
  | lock (k : RProg)                        -- pLock.Lock
  | unlock (k : RProg)
  | rlock (k : RProg)
  | runlock (k : RProg)
  | read (x : Loc) (k : Nat → RProg)
  | write (x : Loc) (v : Nat) (k : RProg)
  | choose (k : Nat → RProg)
  | go (q k : RProg)

/-- No counterpart in the code: the goroutines, `pLock` and the fields. -/
structure RSys where
  mem : Loc → Nat
  writer : Option Nat := none
  readers : List Nat := []
  threads : List RProg

/-- One step of goroutine `i`, with choice `n`. No counterpart in the code: scheduling. -/
def RSys.step (y : RSys) (i n : Nat) : RSys :=
  match y.threads[i]? with
  | none => y
  | some .done => y
  | some (.lock k) => if y.writer = none ∧ y.readers = [] then { y with writer := some i, threads := y.threads.set i k } else y
  | some (.unlock k) =>
    if y.writer = some i then { y with writer := none, threads := y.threads.set i k }
    else { y with threads := y.threads.set i .done }
  | some (.rlock k) => if y.writer = none then { y with readers := i :: y.readers, threads := y.threads.set i k } else y
  | some (.runlock k) =>
    if i ∈ y.readers then { y with readers := y.readers.erase i, threads := y.threads.set i k }
    else { y with threads := y.threads.set i .done }
  | some (.read x k) => { y with threads := y.threads.set i (k (y.mem x)) }
  | some (.write x v k) => { y with mem := fun z => if z = x then v else y.mem z, threads := y.threads.set i k }
  | some (.choose k) => { y with threads := y.threads.set i (k n) }
  | some (.go q k) => { y with threads := y.threads.set i k ++ [q] }

/-- No counterpart in the code: scheduling. -/
def RSys.run (y : RSys) (sched : List (Nat × Nat)) : RSys := sched.foldl (fun y s => y.step s.1 s.2) y

/-- Settings read here: tcpx.go:70 `builtInPool`, :86 `withSignals`, `HeartBeatOn`, `OnHeartbeatLoss != nil`, :75 `auth`. -/
structure RCfg where
  builtIn : Bool
  signals : Bool
  heartbeat : Bool
  onLoss : Bool
  auth : Bool
deriving DecidableEq, Repr

namespace Race

/-! ## The server (tcpx.go) -/

/-- tcpx.go:625-629 `State`. -/
def state (k : Nat → RProg) : RProg := .rlock <| .read .state fun v => .runlock (k v)

/-- tcpx.go:612-616 `openState`, :620-624 `stopState`. -/
def setState (v : Nat) (k : RProg) : RProg := .lock <| .write .state v <| .unlock k

/-- tcpx.go:396-418 `fillProperty`: whether the endpoint is known is a free choice. -/
def fillProperty (k : RProg) : RProg :=
  .lock <| .read .properties fun m => .choose fun b =>
    if b = 0 ∧ m ≠ 0 then .write .listener 1 <| .unlock k
    else .write .listener 1 <| .write .properties (m + 1) <| .unlock k

/-- The heartbeat watcher as far as it concerns the server (tcpx.go:1039-1043). -/
def beatState : Nat → RProg
  | 0 => .done
  | n + 1 => state fun v => if v = 2 then .done else beatState n

/-- tcpx.go:437-484, :515-607: the accept loop, and the returning call. -/
def accept (c : RCfg) (k : RProg) : Nat → RProg
  | 0 => k
  | n + 1 => state fun v =>
    if v = 2 then k
    else
      let next := if c.heartbeat then .go (.choose beatState) (accept c k n) else accept c k n
      .choose fun e => if e = 0 then k else if c.builtIn then .read .pool fun _ => next else next

/-- tcpx.go:421-486, :489-609 `ListenAndServeRaw`, `ListenAndServeTCP`. -/
def listen (c : RCfg) (k : RProg) : RProg :=
  .choose fun e => if e = 0 then k else fillProperty <| setState 1 <| .choose fun n => accept c k n

/-- tcpx.go:653-707: the read loop of a UDP server. -/
def readLoop (c : RCfg) : Nat → RProg
  | 0 => .done
  | n + 1 => state fun v =>
    if v = 2 then .done
    else
      let next := if c.heartbeat then .go (.choose beatState) (readLoop c n) else readLoop c n
      .choose fun e => if e = 0 then readLoop c n else if c.builtIn then .read .pool fun _ => next else next

/-- tcpx.go:633-712 `ListenAndServeUDP`: never returns. -/
def listenUDP (c : RCfg) : RProg :=
  .choose fun e => if e = 0 then .done else fillProperty <| setState 1 <| .go (.choose fun n => readLoop c n) .done

/-- tcpx.go:1169-1188 `closeAllConnection`. -/
def closeAll (c : RCfg) (k : RProg) : RProg :=
  if c.signals then k
  else .read .pool fun p => if p = 0 then k else .read .pool fun _ => .go .done <| .write .pool (p + 1) k

/-- tcpx.go:1140-1167 `Stop`. -/
def stop (c : RCfg) (all : Bool) (k : RProg) : RProg :=
  state fun v =>
    if v = 2 then k
    else setState 2 <| .lock <| .read .properties fun _ => .read .listener fun _ => .unlock <| if all then closeAll c k else k

/-- `n` goroutines of `Start`, tcpx.go:1196-1209. -/
def restartAll (c : RCfg) (k : RProg) : Nat → RProg
  | 0 => k
  | n + 1 => .go (.choose fun u => if u = 0 then listen c .done else listenUDP c) (restartAll c k n)

/-- tcpx.go:1191-1211 `Start`. -/
def start (c : RCfg) (k : RProg) : RProg :=
  state fun v => if v = 1 then k else .read .properties fun m => restartAll c k m

/-- Calls of user code. tcpx.go:421, 489, 625, 633, 1140, 1191, 1214. -/
inductive Ctl where
  | state
  | listen
  | listenUDP
  | stop (all : Bool)
  | start
  | restart (all : Bool)
deriving DecidableEq, Repr

/-- A goroutine of user code making calls one after another. `Restart` (tcpx.go:1214-1227) may end after its `Stop`. -/
def user (c : RCfg) : List Ctl → RProg
  | [] => .done
  | .state :: l => state fun _ => user c l
  | .listen :: l => listen c (user c l)
  | .listenUDP :: _ => listenUDP c
  | .stop all :: l => stop c all (user c l)
  | .start :: l => start c (user c l)
  | .restart all :: l => stop c all <| .choose fun e => if e = 0 then user c l else start c (user c l)

/-- A server (stopped, with an empty pool if it has one) and the goroutines of user code. tcpx.go:108-123. -/
def server (c : RCfg) (users : List (List Ctl)) : RSys :=
  { mem := fun x => if x = .state then 2 else if x = .pool ∧ c.builtIn then 1 else 0
    threads := users.map (user c) }

/-! ## One connection or datagram -/

/-- context.go:276-302 `CloseConn`: the user name is looked up only if there is a pool (:285), for UDP in the store of the request. -/
def close (c : RCfg) (udp : Bool) (k : RProg) : RProg :=
  .read .poolRef fun _ => if c.builtIn && udp then .read .reqStore fun _ => k else k

/-- context.go:79-104 `copyContext`. -/
def copy (k : RProg) : RProg :=
  .read .chain fun _ => .read .stream fun _ => .read .poolRef fun _ => .read .reqStore fun _ => .read .ends fun _ => k

/-- tcpx.go:1075-1087 `broadcastSignalWatch`, :1091-1116 `authWatch`: they close, or end. -/
def waitClose (c : RCfg) (udp : Bool) : RProg := .choose fun n => if n = 0 then .done else close c udp .done

/-- tcpx.go:1027-1070 `heartBeatWatch`; context.go:621-636 `HeartBeatChan` looks into the store of a datagram at every turn. -/
def beat (c : RCfg) (udp : Bool) : Nat → RProg
  | 0 => .done
  | n + 1 =>
    let turn : RProg := .choose fun e =>
      if e = 0 then beat c udp n
      else if e = 1 then if c.onLoss then copy (close c udp .done) else close c udp .done
      else if e = 2 then close c udp .done
      else .done
    if udp then .read .reqStore fun _ => turn else turn

/-- The watchers, then the rest. tcpx.go:463-464, 541-550, 684-686. -/
def watchers (c : RCfg) (udp : Bool) (k : RProg) : RProg :=
  let k1 := if c.auth && !udp then .go (waitClose c udp) k else k
  let k2 := if c.heartbeat then .go (.choose (beat c udp)) k1 else k1
  if c.signals then .go (waitClose c udp) k2 else k2

/-- User code with a context: it may use all fields, and change the chain. `OnConnect`, `OnClose`, tcpx.go:460, 476, 538, 562. -/
def callback (k : RProg) : RProg := copy (.write .chain 0 k)

/-- tcpx.go:853-871 `handleMiddleware` and :994-999 `handlePipe` with the contexts of messages `a, …, a + m`. -/
def handle (a : Nat) : Nat → RProg
  | 0 => .read (.request a) fun _ => .write (.request a) 0 .done
  | m + 1 => .read (.request a) fun _ => .write (.request a) 0 (handle (a + 1) m)

/-- The rest of a piped group: tcpx.go:585-598. -/
def group (k : RProg) (a : Nat) : Nat → RProg
  | 0 => k
  | m + 1 => .write .stream 0 <| copy <| .write (.request a) 0 (group k (a + 1) m)

/-- tcpx.go:552-606: the goroutine of a TCP connection; `a` counts messages. -/
def conn (c : RCfg) (a : Nat) : Nat → RProg
  | 0 => callback (close c false .done)                                            -- OnClose, CloseConn
  | n + 1 => .write .stream 0 <| .choose fun e =>
    if e = 0 then callback (close c false .done)
    else copy <| .write (.request a) 0 <| .choose fun m => group (.go (handle a m) (conn c (a + 1 + m) n)) (a + 1) m

/-- tcpx.go:526-606: what happens to an accepted TCP connection. -/
def tcp (c : RCfg) : RProg :=
  let k : RProg := callback <| watchers c false <| .go (.choose fun n => conn c 0 n) .done     -- OnConnect
  if c.builtIn then .write .poolRef 1 k else k                                                 -- :533-535

/-- tcpx.go:455-483: a raw connection. There is no auth watcher. -/
def raw (c : RCfg) : RProg :=
  let k : RProg := callback <| watchers { c with auth := false } false <|
    .go (.write .ends 1 <| copy <| .write (.request 0) 0 <| .read (.request 0) fun _ => .write (.request 0) 0 <|
      callback (close c false .done)) .done
  if c.builtIn then .write .poolRef 1 k else k

/-- tcpx.go:682-704: a datagram. Its context itself is handed to the handlers: `Next`, `Reset` (context.go:559-582). -/
def datagram (c : RCfg) : RProg :=
  let k : RProg := .write .stream 0 <| .choose fun e =>
    if e = 0 then .done
    else .go (copy <| .write .chain 0 <| .write .reqStore 0 .done) .done
  watchers c true <| if c.builtIn then .write .poolRef 1 k else k

/-- The context of one connection, and the goroutine that has made it. No counterpart in the code. -/
def one (p : RProg) : RSys := { mem := fun _ => 0, threads := [p] }

end Race

end Tcpx
