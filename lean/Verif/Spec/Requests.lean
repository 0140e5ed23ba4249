import Verif.Model.Requests
import Verif.Spec.Dispatch
/-!
# Specification vocabulary: requests, what they see and where they are routed

Works on the sequence of executed actions (newest first), who executed them, and the messages received.
-/
namespace Tcpx.Spec
open Tcpx

/-- The requests that belong together: those of one TCP connection; a datagram is on its own. -/
def scope (arr : Nat → Arrival) (i : Nat) : StoreId :=
  match (arr i).tcp with
  | some c => .conn c
  | none => .own i

/-- The value most recently stored under `k` (by any of the setters) by a request satisfying `who`. -/
def lastSet (who : Nat → Bool) (k : Key) : List Event → Option Any
  | [] => none
  | e :: es =>
    if who e.tid then
      match e.action with
      | .setReq k' v => if k' = k then some v else lastSet who k es
      | .setConn _ k' v => if k' = k then some v else lastSet who k es
      | _ => lastSet who k es
    else lastSet who k es

/-- The value most recently stored under `k` with `SetCtxPerConn` / `SetUsername` by a request satisfying `who`. -/
def lastSetConn (who : Nat → Bool) (k : Key) : List Event → Option Any
  | [] => none
  | e :: es =>
    if who e.tid then
      match e.action with
      | .setConn _ k' v => if k' = k then some v else lastSetConn who k es
      | _ => lastSetConn who k es
    else lastSetConn who k es

/-- The name most recently given with `SetUsername` by a request satisfying `who`. -/
def lastName (who : Nat → Bool) : List Event → Option Any
  | [] => none
  | e :: es =>
    if who e.tid then
      match e.action with
      | .setConn .framework k v => if k = .str "tcpx-username" then some v else lastName who es
      | _ => lastName who es
    else lastName who es

/-- The dispatches of request `i`, newest first. -/
def dispatches (i : Nat) (tr : List Event) : List Dispatch :=
  tr.filterMap fun e => if e.tid = i then
    match e.action with
    | .note (.dispatch d) => some d
    | _ => none
    else none

/-- How a message is to be routed, from its header: `Router-Type` must be the string "URL_PATTERN" for routing by pattern; anything
that is not a string, or "MESSAGE_ID", or no header at all, means by id. -/
inductive RoutedOf (json : JSONCodec) (f : List UInt8) : Srv.Routed → Prop where
  | noHeader : frameHeader json f = none → 8 ≤ f.length → RoutedOf json f (.byId (Int32.ofInt (declaredId f)))
  | plain (h) : frameHeader json f = some h → (∀ s, Header.get? h "Router-Type" = some (.str s) → s = "MESSAGE_ID") →
      8 ≤ f.length → RoutedOf json f (.byId (Int32.ofInt (declaredId f)))
  | noId : f.length < 8 → RoutedOf json f .unreadable
  | url (h p) : frameHeader json f = some h → Header.get? h "Router-Type" = some (.str "URL_PATTERN") →
      Header.get? h "Router-Pattern-Value" = some (.str p) → RoutedOf json f (.byUrl p)
  | noPattern (h) : frameHeader json f = some h → Header.get? h "Router-Type" = some (.str "URL_PATTERN") →
      Header.get? h "Router-Pattern-Value" = none → RoutedOf json f (.byUrl "")
  | badPattern (h v) : frameHeader json f = some h → Header.get? h "Router-Type" = some (.str "URL_PATTERN") →
      Header.get? h "Router-Pattern-Value" = some v → (∀ s, v ≠ .str s) → RoutedOf json f .unreadable
  | otherType (h s) : frameHeader json f = some h → Header.get? h "Router-Type" = some (.str s) → s ≠ "MESSAGE_ID" →
      s ≠ "URL_PATTERN" → RoutedOf json f .unknownType

/-- The router type a header asks for. -/
def typeIn : Option Header → String
  | none => "MESSAGE_ID"
  | some h =>
    match Header.get? h "Router-Type" with
    | some (.str s) => s
    | _ => "MESSAGE_ID"

/-- The router type a message asks for. -/
def headerType (json : JSONCodec) (f : List UInt8) : String := typeIn (frameHeader json f)

/-- Handler code that never makes a call satisfying `bad`. -/
inductive Avoids (bad : Call → Prop) : Code → Prop where
  | done : Avoids bad .done
  | panic : Avoids bad .panic
  | call (c k) : ¬ bad c → (∀ r, Avoids bad (k r)) → Avoids bad (.call c k)

/-- A call storing under key `k` with a setter available to handlers. -/
def StoresKey (k : Key) : Call → Prop
  | .setReq k' _ => k' = k
  | .setConn k' _ => k' = k
  | _ => False

end Tcpx.Spec
