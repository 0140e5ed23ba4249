import Verif.Model.Answer
import Verif.Spec.Requests
import Verif.Spec.EndToEnd
/-!
# Specification vocabulary: what requests send over their connection
-/
namespace Tcpx.Spec
open Tcpx

/-- What request `i` has sent, newest first. -/
def sentBy (i : Nat) (tr : List Event) : List Bytes :=
  tr.filterMap fun e => if e.tid = i then
    match e.action with
    | .note (.sent b) => some b
    | _ => none
    else none

/-- What has been sent over connection `c`, by whatever request, oldest first. -/
def sentOn (arr : Nat → Arrival) (c : Nat) (tr : List Event) : List Bytes :=
  (tr.filterMap fun e => if (arr e.tid).tcp = some c then
    match e.action with
    | .note (.sent b) => some b
    | _ => none
    else none).reverse

/-- Handler code that sends `b` and nothing else, once (`true`) or not at all (`false`), on every path that it can take if
`GetURLPattern` returns `p`, unless it panics. -/
inductive Replies (p : Res String) (b : Bytes) : Bool → Code → Prop where
  | done : Replies p b false .done
  | panic (o) : Replies p b o .panic
  | send (k) : (∀ r, Replies p b false (k r)) → Replies p b true (.call (.send b) k)
  | other (o c k) : (∀ b', c ≠ .send b') → (∀ r, (c = .urlPattern → r = .pattern p) → Replies p b o (k r)) → Replies p b o (.call c k)

/-- The requests of connection `c` have headers of the same router type and URL pattern (and of a sane length), and their handlers do
not store under the keys in which the framework keeps these. -/
structure Alike (json : JSONCodec) (arr : Nat → Arrival) (c : Nat) (rt : String) (p : Res String) : Prop where
  small : ∀ j, (arr j).tcp = some c → declaredHeaderLen (arr j).stream < 2^31 - 16
  type : ∀ j, (arr j).tcp = some c → headerType json (arr j).stream = rt
  pattern : ∀ j, (arr j).tcp = some c → urlPatternOf json { live := (arr j).stream } = p
  code : ∀ j, (arr j).tcp = some c → ∀ d, Avoids (fun x => StoresKey (.str "router_type") x ∨ StoresKey (.str "url_pattern") x) ((arr j).code d)

/-- Request `j` is routed, and the code of the handlers it is given to sends `ans j` once if `owed j`, and nothing otherwise. -/
def Answered (s : Srv) (json : JSONCodec) (arr : Nat → Arrival) (p : Res String) (ans : Nat → Bytes) (owed : Nat → Bool) (j : Nat) : Prop :=
  ∃ r, RoutedOf json (arr j).stream r ∧ s.handle r ≠ .nothing ∧ Replies p (ans j) (owed j) ((arr j).code (s.handle r))

end Tcpx.Spec
