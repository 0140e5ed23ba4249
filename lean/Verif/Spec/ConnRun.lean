import Verif.Model.ConnRun
/-! # Vocabulary for C103, C104: the parts of the history of a connection -/
namespace Tcpx
open Chain

/-- What the connection goroutine has done. -/
def Spec.connPart (l : List CREv) : List ConnEv := l.filterMap fun e => match e with | .conn e => some e | _ => none

/-- What goroutine number `k` has done. -/
def Spec.taskPart (k : Nat) (l : List CREv) : List (Nat × CEv) :=
  l.filterMap fun e => match e with | .task k' m e => if k' = k then some (m, e) else none | _ => none

/-- The goroutines started for messages. -/
def Spec.started (l : List ConnEv) : List Task := l.filterMap fun e => match e with | .go t => some t | _ => none

end Tcpx
