import Verif.Model.Mux
/-!
# Specification vocabulary: programs that register their handlers and then listen
-/
namespace Tcpx.Spec
open Tcpx

/-- No call panics, and the check made when listening begins does not panic either. -/
def Registers (s : Srv) : List RegOp → Bool
  | [] => s.checkPrepare
  | op :: ops => !(op.run s).panicked && Registers (op.run s).st ops

end Tcpx.Spec
