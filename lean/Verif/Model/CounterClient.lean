import Verif.Model.Counter
import Verif.Model.ExampleClients
/-!
# Model of the client of the request counter, examples/modules/middleware/global-middleware/client/main.go

`json.Unmarshal` is a parameter; what is printed is a list.
-/
namespace Tcpx.CounterClient
open ExampleClients (Ended)

/-- What the client prints: the text of a body, or a map (indented, which is left out).
examples/modules/middleware/global-middleware/client/main.go:76-87 `wellPrint`. -/
inductive Shown (M : Type) where
  | text (b : Bytes)
  | map (m : M)
deriving DecidableEq, Repr

/-- examples/modules/middleware/global-middleware/client/main.go:53-65: what is printed for a message; `none` is `handleError`, which ends
the process.  `obj` is `json.Unmarshal` into a map. -/
def display {M : Type} (obj : Bytes → Option M) (id : Int32) (body : Bytes) : Option (List (Shown M)) :=
  if id = 500 ∨ id = 400 ∨ id = 403 then
    match obj body with
    | some m => some [.map m]
    | none => none
  else if id = 4 then some [.text body]
  else some []

/-- examples/modules/middleware/global-middleware/client/main.go:35-67 `Recv`: what is printed, and how the goroutine stands in the end. -/
def recv {M : Type} (obj : Bytes → Option M) (r : Reader) : List (Shown M) × Ended :=
  match _h : firstBlockOf (some r) with
  | .err _ _ => ([], .exits)
  | .panic => ([], .panics)
  | .block => ([], .waits)
  | .ok buf r' =>
    match messageIDOf { live := buf } with
    | .err _ => ([], .exits)
    | .panic => ([], .panics)
    | .block => ([], .waits)           -- does not occur
    | .ok id =>
      match bodyBytesOf { live := buf } with
      | .err _ => ([], .exits)
      | .panic => ([], .panics)
      | .block => ([], .waits)         -- does not occur
      | .ok body =>
        match display obj id body.live with
        | none => ([], .exits)
        | some l => let rest := recv obj r'; (l ++ rest.1, rest.2)
termination_by r.size
decreasing_by exact (firstBlock_size r 0).1 _ _ (by simpa [firstBlockOfLimitMaxByte, firstBlockOf] using _h)

end Tcpx.CounterClient
