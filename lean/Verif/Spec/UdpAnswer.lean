import Verif.Model.UdpAnswer
import Verif.Spec.Udp
import Verif.Spec.Answer
/-! # Specification vocabulary: datagrams, their senders and the answers to them -/
namespace Tcpx.Spec
open Tcpx
variable {A : Type}

/-- The datagrams that arrive before the server ends, with their senders. -/
def receivedFrom : List (UdpRecv A) → List (A × List UInt8)
  | [] => []
  | .datagram a d :: rest => (a, d) :: receivedFrom rest
  | .fail :: rest => receivedFrom rest
  | _ :: _ => []

/-- The datagrams that hold a message, as far as they fit into a buffer of `size` bytes, with their senders. -/
def messagesFrom (size : Nat) (ins : List (UdpRecv A)) : List (A × List UInt8) :=
  (receivedFrom ins).filter fun x => decide (FrameInDatagram size x.2)

/-- The requests of the datagrams: each has its own stores and the message as its stream.  Any other request may run beside them. -/
def FromUdp (ctxs : List (UdpCtx A)) (arr : Nat → Arrival) : Prop :=
  ∀ i c, ctxs[i]? = some c → (arr i).tcp = none ∧ (arr i).stream = c.stream.live

/-- Request `i` has a header of a sane length, its handlers do not store under the keys in which the framework keeps router type and
pattern, and those it is given to send `ans i` once if `owed i`, and nothing otherwise. -/
structure UdpAnswered (s : Srv) (json : JSONCodec) (arr : Nat → Arrival) (ans : Nat → List UInt8) (owed : Nat → Bool) (i : Nat) : Prop where
  small : declaredHeaderLen (arr i).stream < 2^31 - 16
  code : ∀ d, Avoids (fun x => StoresKey (.str "router_type") x ∨ StoresKey (.str "url_pattern") x) ((arr i).code d)
  answered : Answered s json arr (urlPatternOf json { live := (arr i).stream }) ans owed i

/-- What has been written along a schedule are the answers of distinct datagrams of `msgs` that are owed one, whole, each to the sender of
its datagram, and nothing else; and each such datagram whose handling has returned is among them. -/
def AnsweredToSender (msgs : List (A × List UInt8)) (ctxs : List (UdpCtx A)) (ans : Nat → List UInt8) (owed : Nat → Bool) (y : Sys) : Prop :=
  ∃ is : List Nat, is.Nodup ∧ (∀ i ∈ is, i < msgs.length ∧ owed i = true) ∧
    udpWritten ctxs y.trace = is.filterMap (fun i => msgs[i]?.map fun m => (m.1, ans i)) ∧
    ∀ i < msgs.length, owed i = true → (y.threads i).prog = .ret () → i ∈ is

end Tcpx.Spec
