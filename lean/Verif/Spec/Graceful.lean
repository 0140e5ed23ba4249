import Verif.Model.Graceful
/-!
# Specification vocabulary: what the log of a server and its clients says (newest first)
-/
namespace Tcpx.Graceful.Spec
open Tcpx.Graceful

/-- `x` happened, and everything since satisfies `P`. -/
def Since (P : Ev → Prop) (x : Ev) : List Ev → Prop
  | [] => False
  | e :: t => e = x ∨ P e ∧ Since P x t

/-- Every listener opened at `a` had come into its record. -/
def AllRecorded (a : String) (t : List Ev) : Prop := ∀ i l, .listening i a l ∈ t → .recorded a l ∈ t

/-- `Stop` closed the listeners when every one at `a` was in its record, and none has been opened at `a` since. -/
def SweptAt (a : String) : List Ev → Prop
  | [] => False
  | e :: t => e = .swept ∧ AllRecorded a t ∨ (∀ i l, e ≠ .listening i a l) ∧ SweptAt a t

/-- Neither `Stop` has begun or closed listeners, nor has `Accept` failed on the open listener `l`. -/
def NoStop (l : Nat) (e : Ev) : Prop := e ≠ .stopping ∧ e ≠ .swept ∧ e ≠ .acceptFailed l

/-- Every listening call made so far has opened the state (`openState`) or has failed. -/
def Settled (t : List Ev) : Prop := ∀ i, .calling i ∈ t → .opened i ∈ t ∨ .failed i ∈ t

/-- No listening call is made, by user code or by `Start`. -/
def NoCall (e : Ev) : Prop := ∀ i, e ≠ .calling i

/-- `Stop` set the state when all listening calls were settled, and none has been made since. -/
def StoppedQuietly : List Ev → Prop
  | [] => False
  | e :: t => e = .stopping ∧ Settled t ∨ NoCall e ∧ StoppedQuietly t

/-- The same, and after that `Stop` has closed the listeners. -/
def SweptQuietly : List Ev → Prop
  | [] => False
  | e :: t => e = .swept ∧ StoppedQuietly t ∨ NoCall e ∧ SweptQuietly t

/-- User code that calls `Stop` while the server is up (again, if it returns an error), then `Start`, and so on; `up` says whether the server
is up (or coming up).  Nothing is required of what it does after a `Stop` succeeds on a stopped server: that does not happen. -/
def Alternates : Bool → User → Prop
  | _, .ret => True
  | _, .serve _ _ => False
  | true, .stop ok err => Alternates false ok ∧ Alternates true err
  | false, .stop _ err => Alternates false err
  | true, .start _ _ => False
  | false, .start ok _ => Alternates true ok

/-- Neither `net.Listen` nor `Accept` (on an open listener) has failed. -/
def NothingFailed (t : List Ev) : Prop := (∀ i, .failed i ∉ t) ∧ ∀ l, .acceptFailed l ∉ t

/-- How many clients listener `l` has let in. -/
def letIn (l : Nat) (t : List Ev) : Nat := t.countP fun | .connected _ l' => l' == l | _ => false

/-- How many connections `Accept` has returned for listener `l`. -/
def accepted (l : Nat) (t : List Ev) : Nat := t.countP (· == .served l)

end Tcpx.Graceful.Spec
