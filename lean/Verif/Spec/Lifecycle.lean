/-!
# Specification vocabulary: endpoints
-/
namespace Tcpx.Spec

/-- A history of successful listening calls: network, address, listener; oldest first. -/
abbrev Listens := List (String × String × Nat)

/-- Endpoints in the order of first use. -/
def endpointsInOrder : List (String × String) → List (String × String)
  | [] => []
  | e :: es => e :: (endpointsInOrder es).filter (· ≠ e)

/-- The most recent listener of an endpoint. -/
def lastListener (h : Listens) (e : String × String) : Option Nat :=
  (h.reverse.find? (fun x => (x.1, x.2.1) = e)).map (·.2.2)

end Tcpx.Spec
