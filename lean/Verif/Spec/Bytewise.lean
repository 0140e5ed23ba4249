import Verif.Model.Bytewise
/-!
# Specification vocabulary: bytes arriving over time
-/
namespace Tcpx.Spec
open Tcpx Tcpx.Bytewise

/-- The bytes a run delivers to the server, with their times of arrival: those sent before the connection is closed. -/
def arrivedBytes (now : Nat) : List Label → List (Nat × UInt8)
  | [] => []
  | .arrive bs :: ls => bs.map (fun b => (now, b)) ++ arrivedBytes now ls
  | .delay n :: ls => arrivedBytes (now + n) ls
  | .close :: _ => []
  | .cut :: _ => []
  | _ :: ls => arrivedBytes now ls

/-- The bytes that have arrived by time `T`. -/
def bytesBy (T : Nat) (ls : List Label) : Bytes := ((arrivedBytes 0 ls).filter fun p => p.1 ≤ T).map (·.2)

/-- The goroutine is not late, `d` being the delay it is allowed: unless it has left its loop no unread byte has been there for longer
than `d`; it has not stood at a `go` statement for longer than `d`; and if there is nothing to read and the connection is closed, it has
not failed to notice for longer than `d`. -/
structure Prompt (d : Nat) (s : State) : Prop where
  bytes : (∀ e, s.place ≠ .over e) → ∀ p ∈ s.wire, s.now ≤ p.1 + d
  start : ∀ t, s.place = .start t → s.now ≤ s.since + d
  closed : ∀ c, s.shut = some c → s.wire = [] → 0 < s.place.room → s.now ≤ max c s.since + d

/-- `P` holds from the beginning of a run to its end. -/
def Always (json : JSONCodec) (max : Int32) (ls : List Label) (P : State → Prop) : Prop :=
  ∀ k, P (State.run json max {} (ls.take k))

/-- The goroutines started in a run, in order. -/
def begunIn (json : JSONCodec) (max : Int32) (ls : List Label) : List Task := (State.run json max {} ls).begun.map (·.2)

/-- The goroutine about to be started, if any. -/
def aboutToStart : Place → List Task
  | .start t => [t]
  | _ => []

/-- How the loop has ended, if it has; otherwise it waits for more, unless reading has failed. -/
def endOf (failed : Bool) : Place → LoopEnd
  | .over e => e
  | _ => if failed then .ended else .blocked

/-- What the server itself does, no time passing. -/
def ByGoroutine : Label → Prop
  | .read _ | .fail | .go => True
  | _ => False

end Tcpx.Spec
