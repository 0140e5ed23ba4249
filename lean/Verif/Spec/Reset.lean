import Verif.Model.Requests
/-!
# Specification vocabulary: what `Reset` does to the values of a request

Works on the sequence of executed actions (newest first) and on who executed them.
-/
namespace Tcpx.Spec
open Tcpx

/-- Request `i` has called `Reset`. -/
def hasReset (i : Nat) (tr : List Event) : Bool := tr.any fun e => e.tid == i && e.action == .reset

/-- The value request `i` has stored last under `k` since its last `Reset`.  For a datagram `SetCtxPerConn` counts too: "When
context serves for udp, set context k-v pair of PerRequestContext" (context.go:352). -/
def sinceReset (datagram : Bool) (i : Nat) (k : Key) : List Event → Option Any
  | [] => none
  | e :: es =>
    if e.tid = i then
      match e.action with
      | .reset => none
      | .setReq k' v => if k' = k then some v else sinceReset datagram i k es
      | .setConn _ k' v => if datagram = true ∧ k' = k then some v else sinceReset datagram i k es
      | _ => sinceReset datagram i k es
    else sinceReset datagram i k es

/-- The value stored last under `k` for connection `c`: with `SetCtxPerConn`, or with `SetCtxPerRequest` by a request that had not
called `Reset`. -/
def connValue (tcp : Nat → Option Nat) (c : Nat) (k : Key) : List Event → Option Any
  | [] => none
  | e :: es =>
    if tcp e.tid = some c then
      match e.action with
      | .setConn _ k' v => if k' = k then some v else connValue tcp c k es
      | .setReq k' v => if k' = k ∧ hasReset e.tid es = false then some v else connValue tcp c k es
      | _ => connValue tcp c k es
    else connValue tcp c k es

end Tcpx.Spec
