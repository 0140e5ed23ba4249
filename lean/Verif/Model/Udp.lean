import Verif.Model.ConnLoop
/-!
# Model of the UDP server (tcpx.go:634-730)

`net.PacketConn.ReadFrom` as on POSIX systems: a datagram longer than the buffer is cut off silently.  The listening part is in
`Model/Lifecycle`, the watchers started for every datagram in `Model/Watch`.
-/
namespace Tcpx

/-- What one iteration of the read loop finds: the server stopped, or a result of `conn.ReadFrom`. tcpx.go:663-680. -/
inductive UdpIn where
  | stopped
  | datagram (bs : Bytes)
  | eof
  | fail
deriving DecidableEq, Repr

/-- What the read loop does: start the watchers of a new context (tcpx.go:684-686), start the goroutine handling a message
(tcpx.go:703). -/
inductive UdpOut where
  | watch
  | handle (stream : Slice)
deriving DecidableEq, Repr

/-- `make([]byte, n)` filled by `ReadFrom` with a datagram, cut to what was read: tcpx.go:715-729. `zeros` is what is left of
the buffer. -/
def udpBuffer (size : Nat) (d : Bytes) : Slice :=
  { live := d.take size, spare := List.replicate (size - d.length) 0 }

/-- tcpx.go:711-720: the size of the buffer; a negative size is a panic of `make`. -/
def udpBufferSize : List Int → Res Nat
  | [] => .ok 4096
  | [n] => if n < 0 then .panic else .ok n.toNat
  | _ => .panic

/-- How the loop ends, if it does. tcpx.go:663-705. -/
inductive UdpEnd where
  | broke       -- `break`
  | panicked    -- recovered by tcpx.go:655-659; the loop is over
  | running     -- it goes on
deriving DecidableEq, Repr

/-- tcpx.go:663-705: the read loop over what it finds, iteration after iteration. -/
def udpLoop (maxBufferSize : List Int) : List UdpIn → List UdpOut × UdpEnd
  | [] => ([], .running)
  | .stopped :: _ => ([], .broke)
  | i :: rest =>
    match udpBufferSize maxBufferSize with
    | .ok size =>
      match i with
      | .stopped => ([], .broke)
      | .eof => ([], .broke)
      | .fail => udpLoop maxBufferSize rest
      | .datagram d =>
        match firstBlockOfBytes (udpBuffer size d) with
        | .ok stream => let r := udpLoop maxBufferSize rest; (.watch :: .handle stream :: r.1, r.2)
        | .err _ => let r := udpLoop maxBufferSize rest; (.watch :: r.1, r.2)
        | _ => ([.watch], .panicked)
    | _ => ([], .panicked)

/-- The goroutine of tcpx.go:703: `handleMiddleware` without `recover`; `c` is what the request store held, `hp` whether one of
the handlers run panics. -/
def UdpOut.killsProcess (s : Srv) (json : JSONCodec) (c : Nat → Nat → Option Any) (hp : Nat → Dispatch → Bool) : UdpOut → Bool
  | .watch => false
  | .handle stream => taskPanics s json c hp 0 [some stream.live]

end Tcpx
