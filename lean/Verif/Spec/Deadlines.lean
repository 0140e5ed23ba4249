import Verif.Model.Deadlines
/-! # Specification vocabulary: the deadline last asked for -/
namespace Tcpx.Spec

/-- The read deadlines a sequence of setter calls asks for one after another. -/
def readRequests : List DlCall → List (Option Nat)
  | [] => []
  | .both t :: cs => t :: readRequests cs
  | .read t :: cs => t :: readRequests cs
  | .write _ :: cs => readRequests cs

/-- The write deadlines. -/
def writeRequests : List DlCall → List (Option Nat)
  | [] => []
  | .both t :: cs => t :: writeRequests cs
  | .write t :: cs => t :: writeRequests cs
  | .read _ :: cs => writeRequests cs

/-- `t` is the deadline wanted: the last one asked for, none if there was no request. -/
def Wanted (requests : List (Option Nat)) (t : Option Nat) : Prop :=
  requests.getLast? = some t ∨ (requests = [] ∧ t = none)

/-- The peer a context talks to: the other end of a stream connection, or the sender of the datagram. -/
def peerOf : CtxLink → Nat × Option Nat
  | .conn k => (k, none)
  | .packet k p => (k, some p)

end Tcpx.Spec
