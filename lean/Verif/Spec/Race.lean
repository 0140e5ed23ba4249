import Verif.Model.Race
/-!
# Specification vocabulary: data races
-/
namespace Tcpx.Spec
open Tcpx

/-- The next thing the goroutine does is to access `x`, writing if `w`. -/
def About (x : Loc) (w : Bool) : RProg → Prop
  | .read y _ => y = x ∧ w = false
  | .write y _ _ => y = x ∧ w = true
  | _ => False

/-- A data race on `x`: two goroutines can access it at the same moment, at least one of them to write. -/
def RaceAt (y : RSys) (x : Loc) : Prop :=
  ∃ (i j : Nat) (p q : RProg) (w v : Bool), i ≠ j ∧ y.threads[i]? = some p ∧ y.threads[j]? = some q ∧ About x w p ∧ About x v q ∧ (w = true ∨ v = true)

end Tcpx.Spec
