import Verif.Model.Lifecycle
/-!
# Model of what listeners speak: TLS configuration, listening calls, the listening calls made by `Start`

`tls.LoadX509KeyPair` gives a certificate (a number) or fails; `net.Listen`, `tls.Listen` and `net.ListenPacket` may fail at any time and
fail for networks they do not know.  A listener is identified by its position among all that were opened.
-/
namespace Tcpx

/-- What is done with a listener: messages of a stream, `HandleRaw`, or datagrams read into a buffer of some size.
tcpx.go:421, 489, 633, 719-723. -/
inductive Proto where
  | messages | raw | datagrams (buf : Nat)
deriving DecidableEq, Repr

/-- A listener: where, what for, and the certificate if it speaks TLS. tcpx.go:429, 500-506, 638; tls.go:15-25. -/
structure Opened where
  network : String
  addr : String
  proto : Proto
  tls : Option Nat
deriving DecidableEq, Repr

/-- The fields of `TcpX` concerned (tcpx.go:87-95), and all listeners opened so far. -/
structure Serving where
  cert : Option Nat := none            -- TLSConfig
  recs : List LRec := []               -- properties
  opened : List Opened := []
deriving DecidableEq, Repr

/-- Networks `net.Listen` (and `tls.Listen`) knows. Package net, used at tcpx.go:429, 500 and tls.go:17, 24. -/
def listenKnows (network : String) : Bool := network ∈ ["tcp", "tcp4", "tcp6", "unix", "unixpacket"]

/-- Networks `net.ListenPacket` knows. Package net, used at tcpx.go:638. -/
def listenPacketKnows (network : String) : Bool :=
  network ∈ ["udp", "udp4", "udp6", "unixgram"] || "ip".toList.isPrefixOf network.toList

namespace Serving

/-- A listener is opened and put into its record: tcpx.go:433, 511, 644. -/
def open_ (s : Serving) (o : Opened) : Serving :=
  { s with recs := fillProperty o.network o.addr s.opened.length s.recs, opened := s.opened ++ [o] }

/-- tcpx.go:1267-1275 `LoadTLSFile`: `r` is what `tls.LoadX509KeyPair` gives. -/
def loadTLSFile (s : Serving) (r : Option Nat) : Serving :=
  match r with
  | none => s
  | some c => { s with cert := some c }

/-- tls.go:15-25 `newListener` (`works`: no other reason to fail): whether there is a listener and its certificate. -/
def newListener (network : String) (cert : Option Nat) (works : Bool) : Option (Option Nat) :=
  if listenKnows network && works then
    match cert with
    | none => some none
    | some c => some (some c)
  else none

/-- tcpx.go:489-514 `ListenAndServeTCP`. -/
def serveTCP (s : Serving) (network addr : String) (works : Bool) : Serving :=
  match s.cert with
  | none => if listenKnows network && works then s.open_ ⟨network, addr, .messages, none⟩ else s
  | some c =>
    match newListener network (some c) works with
    | some t => s.open_ ⟨network, addr, .messages, t⟩
    | none => s

/-- tcpx.go:421-436 `ListenAndServeRaw`. -/
def serveRaw (s : Serving) (network addr : String) (works : Bool) : Serving :=
  if listenKnows network && works then s.open_ ⟨network, addr, .raw, none⟩ else s

/-- tcpx.go:633-646 `ListenAndServeUDP`, the buffer of tcpx.go:719-723. -/
def serveUDP (s : Serving) (network addr : String) (buf : Option Nat) (works : Bool) : Serving :=
  if listenPacketKnows network && works then s.open_ ⟨network, addr, .datagrams (buf.getD 4096), none⟩ else s

/-- tcpx.go:367-384 `ListenAndServe` (`checkPrepare` never panics: C29). -/
def serve (s : Serving) (network addr : String) (works : Bool) : Serving :=
  match transportOf network.toList with
  | .ok .tcp => s.serveTCP network addr works
  | .ok .udp => s.serveUDP network addr none works
  | _ => s

/-- The listening call of one goroutine of `Start`, for record number `i`: tcpx.go:1196-1204 (the shared variable is the subject of C65). -/
def startRec (s : Serving) (i : Nat) (works : Bool) : Serving :=
  match s.recs[i]? with
  | some r => s.serve r.network r.port works
  | none => s

end Serving

/-- The calls, and the listening calls made by `Start`. tcpx.go:367, 421, 489, 633, 1204, 1267. -/
inductive ServeOp where
  | load (r : Option Nat)
  | serve (network addr : String) (works : Bool)
  | serveTCP (network addr : String) (works : Bool)
  | serveRaw (network addr : String) (works : Bool)
  | serveUDP (network addr : String) (buf : Option Nat) (works : Bool)
  | startRec (i : Nat) (works : Bool)
deriving DecidableEq, Repr

/-- One call. tcpx.go:367, 421, 489, 633, 1204, 1267. -/
def Serving.step (s : Serving) : ServeOp → Serving
  | .load r => s.loadTLSFile r
  | .serve n a w => s.serve n a w
  | .serveTCP n a w => s.serveTCP n a w
  | .serveRaw n a w => s.serveRaw n a w
  | .serveUDP n a b w => s.serveUDP n a b w
  | .startRec i w => s.startRec i w

/-- No counterpart in the code: a sequence of calls. -/
def runServe (ops : List ServeOp) : Serving := ops.foldl Serving.step {}

end Tcpx
