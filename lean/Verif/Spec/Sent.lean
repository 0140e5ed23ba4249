import Verif.Spec.Stream

namespace Tcpx.Spec

/-- All bytes of a stream, those reported together with its end included. -/
def sent (r : Reader) : List UInt8 :=
  (stream r).1 ++ match (stream r).2 with
    | .closedWith bs => bs
    | _ => []

end Tcpx.Spec
