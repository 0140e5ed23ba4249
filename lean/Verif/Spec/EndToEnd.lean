import Verif.Model.PackType
import Verif.Spec.Dispatch
import Verif.Spec.Stream
import Verif.Spec.JSONLaw
/-!
# Specification vocabulary: messages a peer sends, and what the receiver can read of them
-/
namespace Tcpx.Spec
open Tcpx
variable {V : Type}

/-- A message as its sender made it: id, header, body, the marshaller asked for (none: json), and the bytes packing returned. -/
structure Sent (V : Type) where
  msg   : Message V
  m     : Option (Marshaller V)
  bytes : List UInt8

/-- Packing succeeded, the result is smaller than 2 GB and within the receiver's limit (none if `max ≤ 0`), and the header has no
pipe marker. -/
structure Sent.Ok (env : Env V) (max : Int) (x : Sent V) : Prop where
  packed   : packWithMarshaller env x.msg x.m = .ok x.bytes
  small    : x.bytes.length < 2^31
  fits     : 0 < max → (x.bytes.length : Int) ≤ 4 + max
  noMarker : Header.get? x.msg.header "[tcpx-buffer-in-serial]" = none

/-- The marshaller turns `v` into a non-empty text and that text back into `v` whatever the destination holds. -/
def Decodes (m : Marshaller V) (v : V) : Prop :=
  ∃ bb, m.marshal v = some bb ∧ bb ≠ [] ∧ ∀ d, m.unmarshal bb d = some v

/-- Two headers answer every look-up of a string alike, have the same keys and are nil together. -/
def SameHeader (h h' : Header) : Prop :=
  (h' = none ↔ h = none) ∧ ∀ k, (h'.get? k).map Any.asString = (h.get? k).map Any.asString

end Tcpx.Spec
