import Verif.Model.Serve
/-! # Vocabulary for C106, C107 -/
namespace Tcpx.Spec

/-- The certificate of the last successful `LoadTLSFile` among calls given most recent first. -/
def lastCertRev : List ServeOp → Option Nat
  | [] => none
  | .load (some c) :: _ => some c
  | _ :: ops => lastCertRev ops

/-- The certificate of the last successful `LoadTLSFile`. -/
def lastCert (ops : List ServeOp) : Option Nat := lastCertRev ops.reverse

/-- A call opens a listener. -/
def Opens (ops : List ServeOp) (op : ServeOp) (o : Opened) : Prop :=
  (runServe (ops ++ [op])).opened = (runServe ops).opened ++ [o]

/-- The listener last opened for an endpoint. -/
def currentAt (s : Serving) (network addr : String) (o : Opened) : Prop :=
  ∃ before after, s.opened = before ++ o :: after ∧ o.network = network ∧ o.addr = addr ∧
    ∀ x ∈ after, ¬ (x.network = network ∧ x.addr = addr)

end Tcpx.Spec
