import Verif.Model.Control
/-! # Vocabulary for statements about concurrent control calls -/
namespace Tcpx.Spec

/-- A server on which nothing has been listened on yet. -/
structure Unstarted (life : Life) : Prop where
  stopped : life.state = .stopped
  noRecs : life.recs = []
  noClosed : life.closed = []

/-- How many calls of `Stop` have returned nil. -/
def succeeded (tr : List CEvt) : Nat := tr.countP (· = .stopRet (.ok ()))

/-- How often a listening call has declared the server running. -/
def startedUp (tr : List CEvt) : Nat := tr.countP (· = .running)

/-- How many connections have been accepted. -/
def acceptances (tr : List CEvt) : Nat := tr.countP (match · with | .accepted _ => true | _ => false)

/-- The call of `Stop` has passed its check and not yet returned. -/
def stopping : CPc → Bool
  | .stopSet _ => true
  | .stopClose _ => true
  | .stopAll => true
  | _ => false

/-- At no time are two calls of `Stop` past their checks. -/
def NoOverlap (s : CState) (ls : List CLabel) : Prop :=
  ∀ ls₁ ls₂, ls = ls₁ ++ ls₂ → (s.run ls₁).threads.countP stopping ≤ 1

/-- The schedule begins no call that listens. -/
def NoNewListening (ls : List CLabel) : Prop :=
  ∀ c, CLabel.begin c ∈ ls → ∃ b, c = .stop b

/-- The call is not about to bring up a listener. -/
def settled : CPc → Bool
  | .startCheck => false
  | .startLoop _ => false
  | .open _ _ => false
  | .fill _ _ _ => false
  | .setState _ _ _ => false
  | .loop n _ _ => n = "tcp"
  | .accept n _ _ => n = "tcp"
  | _ => true

/-- Once `Stop` has returned nil, the server stays stopped and accepts nothing, until a new call that listens is begun. -/
def StopTakesEffect (life : Life) : Prop :=
  ∀ ls ls', (∃ tr, ((CState.start life).run ls).trace = .stopRet (.ok ()) :: tr) → NoNewListening ls' →
    ((CState.start life).run (ls ++ ls')).life.state = .stopped ∧
    acceptances ((CState.start life).run (ls ++ ls')).trace = acceptances ((CState.start life).run ls).trace

/-- `Stop` is not refused if the server is going to accept connections without another call that listens. -/
def StopNotRefused (life : Life) : Prop :=
  ∀ ls ls', (∃ tr, ((CState.start life).run ls).trace = .stopRet (.err .other) :: tr) → NoNewListening ls' →
    acceptances ((CState.start life).run (ls ++ ls')).trace = acceptances ((CState.start life).run ls).trace

end Tcpx.Spec
