import Verif.Model.Udp
import Verif.Model.Requests
/-!
# Model of where the answers to datagrams go (tcpx.go:655-708, context.go:203-220, 505-521)

The read loop of `Model/Udp` with the address that every datagram comes from.  The loop variables `buffer`, `addr` and `e` live outside
the loop (tcpx.go:660-662), but a context is given the address as it is when it is made (tcpx.go:682), and the buffer is a new one for
every datagram (tcpx.go:718-723), so an iteration sees nothing of the one before.  Addresses are values of `A`.
-/
namespace Tcpx
variable {A : Type}

/-- What one iteration of the read loop finds: the server stopped, or a result of `conn.ReadFrom`, a datagram with the address of its
sender. tcpx.go:664-680, 725. -/
inductive UdpRecv (A : Type) where
  | stopped
  | datagram (addr : A) (bs : Bytes)
  | eof
  | fail
deriving DecidableEq, Repr

/-- What the goroutine handling a datagram is given: the fields `Addr` and `Stream` of its context. context.go:203-209,
tcpx.go:682, 691. -/
structure UdpCtx (A : Type) where
  addr : A
  stream : Slice
deriving DecidableEq, Repr

/-- tcpx.go:663-705: the contexts for which the read loop starts a goroutine, in this order. -/
def udpServe (maxBufferSize : List Int) : List (UdpRecv A) → List (UdpCtx A)
  | [] => []
  | .stopped :: _ => []
  | i :: rest =>
    match udpBufferSize maxBufferSize with
    | .ok size =>
      match i with
      | .stopped => []
      | .eof => []
      | .fail => udpServe maxBufferSize rest
      | .datagram a d =>
        match firstBlockOfBytes (udpBuffer size d) with
        | .ok stream => ⟨a, stream⟩ :: udpServe maxBufferSize rest
        | .err _ => udpServe maxBufferSize rest
        | _ => []
    | _ => []

/-- What is written to the socket, oldest first, and to which address: request `i` is that of the `i`-th context, and writes with
`ctx.PacketConn.WriteTo(buf, ctx.Addr)`. context.go:511-513. -/
def udpWritten (ctxs : List (UdpCtx A)) (tr : List Event) : List (A × Bytes) :=
  (tr.filterMap fun e =>
    match e.action with
    | .note (.sent b) => ctxs[e.tid]?.map fun c => (c.addr, b)
    | _ => none).reverse

end Tcpx
