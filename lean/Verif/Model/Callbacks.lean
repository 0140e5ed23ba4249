import Verif.Model.Chain
import Verif.Model.Requests
/-!
# Model of the contexts handed to callbacks: `OnConnect`, `OnClose`, `OnHeartbeatLoss`

The server hands `OnConnect` and `OnClose` the context of the connection itself (tcpx.go:460, 476, 538, 562), and messages,
`HandleRaw` and `OnHeartbeatLoss` copies of it made at that time (tcpx.go:481, 574, 596, 1054; `copyContext`, context.go:79-104).  Code
given a context makes any sequence of calls of its methods; calls of several goroutines come one at a time here, in any order
(a `sync.Map` call is atomic; interleavings of single store operations of requests are in `Model/Requests`).
-/
namespace Tcpx

/-- The fields of a context concerned; a store pointer may be nil. context.go:25-76. -/
structure CtxF where
  udp      : Bool
  conn     : Option StoreId        -- PerConnectionContext
  req      : Option StoreId        -- PerRequestContext
  link     : Nat                   -- Conn or PacketConn
  reader   : Option Nat := none    -- ConnReader and ConnWriter: nil or a connection
  offset   : Int := -1
  handlers : Nat := 0              -- len(handlers)
deriving DecidableEq, Repr

namespace CtxF

/-- context.go:176-194 `NewContext`, for connection `c`. -/
def newTcp (c : Nat) : CtxF := { udp := false, conn := some (.conn c), req := some (.own c), link := c }

/-- context.go:203-220 `NewUDPContext`, for datagram `d`. -/
def newUdp (d : Nat) : CtxF := { udp := true, conn := none, req := some (.own d), link := d }

/-- context.go:79-104 `copyContext`. -/
def copy (f : CtxF) : CtxF := { f with req := f.conn }

/-- The store addressed by the per-connection methods: context.go:361-365, 397-401, 406-409; `none` is nil. -/
def store (f : CtxF) : Option StoreId := if f.udp then f.req else f.conn

end CtxF

/-- Calls of methods of a context. context.go:256, 354-418, 552-572. -/
inductive CbCall where
  | setConn (k : Key) (v : Any)     -- SetCtxPerConn
  | getConn (k : Key)               -- GetCtxPerConn
  | setReq (k : Key) (v : Any)      -- SetCtxPerRequest
  | getReq (k : Key)                -- GetCtxPerRequest
  | setUsername (u : String)
  | next | abort | resetOffset
  | initReader                      -- InitReaderAndWriter
deriving DecidableEq, Repr

/-- A context that exists, and what it is. No counterpart in the code: names. -/
inductive CtxName where
  | conn                 -- the context of the connection
  | copy (n : Nat)       -- the `n`-th copy
deriving DecidableEq, Repr

/-- No counterpart in the code: what a call gave. -/
inductive CbRes where
  | done
  | value (v : Option Any)
  | failed            -- an error
  | panicked
deriving DecidableEq, Repr

/-- A connection (or datagram): the contents of the stores, its context, the copies, and history. No counterpart in the code. -/
structure CbState where
  mem    : Mem
  ctx    : CtxF
  copies : List CtxF := []
  log    : List (CtxName × CbCall × CbRes) := []     -- newest first

/-- The key is reserved: a string that begins with "tcpx-". context.go:355-359. -/
def reservedKey : Key → Bool
  | .str s => "tcpx-".toList.isPrefixOf s.toList
  | .other _ => false

/-- The call on a context with these fields.  `Next` on a context without handlers runs none (context.go:559-569): a callback's
context has none.  context.go:256-273, 354-418, 552-572. -/
def CbCall.run (m : Mem) (f : CtxF) : CbCall → CbRes × Mem × CtxF
  | .setConn k v =>
    if reservedKey k then (.panicked, m, f)
    else match f.store with
      | some s => (.done, m.put s k v, f)
      | none => (.panicked, m, f)
  | .getConn k => match f.store with
    | some s => (.value (m s k), m, f)
    | none => (.panicked, m, f)
  | .setReq k v => match f.req with
    | some s => (.done, m.put s k v, f)
    | none => (.panicked, m, f)
  | .getReq k => match f.req with
    | some s => (.value (m s k), m, f)
    | none => (.panicked, m, f)
  | .setUsername u => match f.store with
    | some s => (.done, m.put s usernameKey (.str u), f)
    | none => (.panicked, m, f)
  | .next => (.done, m, { f with offset := f.offset + 1 })
  | .abort => (.done, m, { f with offset := Chain.ABORT })
  | .resetOffset => (.done, m, { f with offset := -1 })
  | .initReader => if f.udp then (.failed, m, f) else (.done, m, { f with reader := some f.link })     -- context.go:256-273

/-- What happens to a connection: a copy is made (for a message, `HandleRaw` or a callback), code calls a method. tcpx.go:460, 481, 538,
574, 596, 1054. -/
inductive CbStep where
  | copy
  | call (x : CtxName) (c : CbCall)
deriving DecidableEq, Repr

/-- The fields of a context. No counterpart in the code. -/
def CbState.fields (s : CbState) : CtxName → Option CtxF
  | .conn => some s.ctx
  | .copy n => s.copies[n]?

/-- No counterpart in the code. -/
def CbState.setFields (s : CbState) (f : CtxF) : CtxName → CbState
  | .conn => { s with ctx := f }
  | .copy n => { s with copies := s.copies.set n f }

/-- No counterpart in the code: scheduling; a call on a context that does not exist is skipped. -/
def CbState.step (s : CbState) : CbStep → CbState
  | .copy => { s with copies := s.copies ++ [s.ctx.copy] }
  | .call x c =>
    match s.fields x with
    | none => s
    | some f =>
      let r := c.run s.mem f
      { s.setFields r.2.2 x with mem := r.2.1, log := (x, c, r.1) :: s.log }

/-- No counterpart in the code: scheduling. -/
def CbState.run (s : CbState) (ls : List CbStep) : CbState := ls.foldl CbState.step s

/-- A new TCP connection (tcpx.go:453, 531). -/
def CbState.tcp (c : Nat) : CbState := { mem := .empty, ctx := .newTcp c }
/-- A new datagram (tcpx.go:682). -/
def CbState.udp (d : Nat) : CbState := { mem := .empty, ctx := .newUdp d }

/-- The execution of a chain of `s` handlers on a copy: the offset is that of the copy (context.go:95), and `Next` is called
(tcpx.go:884, 942, 989, 1011). -/
def Chain.initOn (f : CtxF) (s : Nat) : Chain.State := { s := s, offset := f.offset + 1, stack := [.loop] }

end Tcpx
