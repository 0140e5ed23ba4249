import Verif.Model.Alias
/-!
# What registration should do with the slices of its caller

Registration is by value: what is registered is what the slice holds when the call is made.
-/
namespace Tcpx.Spec

/-- What a variable of the caller holds. -/
def held (s : AState) (v : Nat) : List Fn := match s.vars v with
  | none => []
  | some x => s.heap.read x

/-- What an operation hands to `UseGlobal`. -/
def toGlobal (s : AState) : AOp → List Fn
  | .useGlobal v _ => held s v
  | _ => []

/-- Everything handed to `UseGlobal`, call after call, as it was at the time of the call. -/
def givenGlobal : AState → List AOp → List Fn
  | _, [] => []
  | s, op :: ops => toGlobal s op ++ givenGlobal (s.step op) ops

/-- `Any` adds two or more handlers twice (C33). -/
def doubled (xs : List Fn) : List Fn := if xs.length ≤ 1 then xs else xs ++ xs

/-- What an operation hands to `Any` for a pattern. -/
def toURL (p : String) (s : AState) : AOp → List Fn
  | .anyNew q xs _ => if q = p then doubled xs else []
  | .any q v _ => if q = p then doubled (held s v) else []
  | _ => []

/-- Everything handed to `Any` for a pattern. -/
def givenURL (p : String) : AState → List AOp → List Fn
  | _, [] => []
  | s, op :: ops => toURL p s op ++ givenURL p (s.step op) ops

/-- Does the operation hand an existing slice to `Any`, for the pattern `p`? -/
def passesSlice (p : String) : AOp → Bool
  | .any q _ _ => q = p
  | _ => false

/-- Calls of the library. -/
def isCall : AOp → Bool
  | .useGlobal .. | .addHandler .. | .any .. | .anyNew .. => true
  | _ => false

end Tcpx.Spec
