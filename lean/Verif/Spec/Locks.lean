import Verif.Model.Locks
/-!
# Specification vocabulary: concurrent accesses
-/
namespace Tcpx.Spec
open Tcpx

/-- Two accesses that must not overlap: to the same memory, at least one of them writing. -/
def Conflict (a b : PAct) : Prop :=
  ∃ v wa wb, a.access = some (v, wa) ∧ b.access = some (v, wb) ∧ (wa = true ∨ wb = true)

/-- Two goroutines are in the middle of accesses that must not overlap: for a map the Go runtime ends the process when it notices. -/
def Clash (y : FSys) : Prop :=
  ∃ i j a b, i ≠ j ∧ y.inside i = some a ∧ y.inside j = some b ∧ Conflict a b

/-- Taking and giving back the mutex for a whole loop (an event of `Model/Pool`, not of `Model/Locks`). -/
def isLocking : PAct → Bool
  | .hold _ => true
  | .release _ => true
  | _ => false

end Tcpx.Spec
