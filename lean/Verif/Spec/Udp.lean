import Verif.Spec.Wire
import Verif.Model.Udp
/-! # Specification vocabulary for datagrams -/
namespace Tcpx.Spec

/-- The datagram, as far as it fits into a buffer of `size` bytes, begins with a frame of at least the fixed part's length. -/
def FrameInDatagram (size : Nat) (d : List UInt8) : Prop :=
  16 ≤ (d.take size).length ∧ 4 + declaredLength d ≤ (d.take size).length

/-- The frame a datagram begins with. -/
def firstFrame (d : List UInt8) : List UInt8 := d.take (4 + declaredLength d)

instance (size : Nat) (d : List UInt8) : Decidable (FrameInDatagram size d) := by unfold FrameInDatagram; infer_instance

/-- `size` is the size of the buffer that `ListenAndServeUDP(network, addr, sizes...)` reads into: the size given, or 4096. -/
def BufferSize (sizes : List Int) (size : Nat) : Prop :=
  sizes = [] ∧ size = 4096 ∨ sizes = [(size : Int)]

instance (sizes : List Int) (size : Nat) : Decidable (BufferSize sizes size) := by unfold BufferSize; infer_instance

/-- What ends a UDP server: being stopped, or the end of the socket. -/
def _root_.Tcpx.UdpIn.ends : UdpIn → Bool
  | .stopped | .eof => true
  | _ => false

/-- The datagrams that arrive before the server ends. -/
def received : List UdpIn → List (List UInt8)
  | [] => []
  | .datagram d :: rest => d :: received rest
  | .fail :: rest => received rest
  | _ :: _ => []

end Tcpx.Spec
