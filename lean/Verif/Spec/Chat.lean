import Verif.Model.Chat
import Verif.Spec.Pool
/-!
# Specification vocabulary: what a chat server does with a message
-/
namespace Tcpx.Spec
open Tcpx

/-- At some moment since goroutine `tid` began (it had made an action) and before `tr` ended, the connection put online last as `u` in
pool `p`, and not removed since, was `o`. -/
def OnlineMeanwhile (tid p : Nat) (u : String) (o : Nat) (tr : List PEvent) : Prop :=
  ∃ later e before, tr = later ++ e :: before ∧ e.tid = tid ∧ latestEntry p u (e :: before) = some o

/-- At some moment since goroutine `tid` began and before `tr` ended, nobody was online as `u` in pool `p`. -/
def OfflineMeanwhile (tid p : Nat) (u : String) (tr : List PEvent) : Prop :=
  ∃ later e before, tr = later ++ e :: before ∧ e.tid = tid ∧ latestEntry p u (e :: before) = none

/-- Goroutine `tid` has written nothing in `tr`. -/
def WroteNothing (tid : Nat) (tr : List PEvent) : Prop := ∀ e ∈ tr, e.tid = tid → ∀ o f, e.action ≠ .write o f

/-- The text of the note to a sender whose message could not be delivered. -/
def offlineNote (to : String) : String := "'" ++ to ++ "' is offline"

end Tcpx.Spec
