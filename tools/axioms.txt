import Verif
import Lean.Elab.Command
import Lean.Util.CollectAxioms
/-! Prints, for every property theorem, the axioms it depends on.  Run by `tools/axioms.sh`. -/
open Lean Elab Command

private def isProp (n : Name) : Bool :=
  match n with
  | .str (.str .anonymous "Tcpx") s =>
    let ds := (s.toList.drop 1).takeWhile Char.isDigit
    s.startsWith "C" && ds.length ≥ 2 && ((s.toList.drop (1 + ds.length)).take 1) == ['_']
  | _ => false

private def number (n : Name) : Nat := match n with
  | .str _ s => ((String.ofList ((s.toList.drop 1).takeWhile Char.isDigit)).toNat?).getD 0
  | _ => 0

private instance : LT (Nat × String) := ⟨fun a b => a.1 < b.1 ∨ (a.1 = b.1 ∧ a.2 < b.2)⟩
private instance (a b : Nat × String) : Decidable (a < b) := inferInstanceAs (Decidable (_ ∨ _))

run_cmd do
  let env ← getEnv
  let mut names : Array Name := #[]
  for (n, ci) in env.constants.toList do
    if isProp n && (ci matches .thmInfo _) then names := names.push n
  for n in names.qsort (fun a b => (number a, a.toString) < (number b, b.toString)) do
    let ax ← liftCoreM (collectAxioms n)
    IO.println s!"{n}: {(ax.qsort (fun a b => a.toString < b.toString)).toList}"
