import Verif.Model.Client
import Verif.Spec.Wire
import Verif.Spec.JSONLaw
/-!
# Specification vocabulary: what a `PipeJSON` call should put on the wire
-/
namespace Tcpx.Spec
open Tcpx
variable {V : Type}

/-- The message body an argument of `PipeJSON` stands for: nothing if it is nil, otherwise its value (also if it is an int). -/
def bodyOf (msg : PArg V) : Option V :=
  match msg with
  | .nil => none
  | .val v | .int _ v => some v

/-- The argument list is a list of pairs (int id, message). -/
inductive WellTyped : List (PArg V) → List (Int × Option V) → Prop where
  | nil : WellTyped [] []
  | cons (z : Int) (v : V) (msg : PArg V) (rest : List (PArg V)) (ps : List (Int × Option V)) :
      WellTyped rest ps → WellTyped (.int z v :: msg :: rest) ((z, bodyOf msg) :: ps)

/-- The header of a message of a group of `num`: only the first carries the marker. -/
def groupHeader (num : Nat) (first : Bool) : Header :=
  if first then some [(PIPED, .str ("enable;" ++ num.repr))] else none

/-- The frames for a list of messages (id, body), `first` saying whether the list starts a group of `num`. -/
inductive Frames (env : Env V) (num : Nat) : Bool → List (Int × Option V) → List (List UInt8) → Prop where
  | nil (first) : Frames env num first [] []
  | cons (first z body ps hb bb fs) : env.json.marshal (groupHeader num first) = some hb →
      ((body = none ∧ bb = []) ∨ ∃ v, body = some v ∧ env.enc .json v = some bb) →
      Frames env num false ps fs →
      Frames env num first ((z, body) :: ps) (Spec.frame (Int32.ofInt z).toInt hb bb :: fs)

/-- Some argument in the position of an id is nil. -/
inductive NilId : List (PArg V) → Prop where
  | here (msg rest) : NilId (.nil :: msg :: rest)
  | later (a msg rest) : NilId rest → NilId (a :: msg :: rest)

end Tcpx.Spec
