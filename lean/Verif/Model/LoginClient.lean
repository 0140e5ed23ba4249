import Verif.Model.Login
import Verif.Model.ExampleClients
/-!
# Model of what the guarded login answers, and of its clients

The servers are those of `Model/Login`; the clients are examples/modules/middleware/anchor-middleware/client/main.go and
router-middleware/client/main.go, which are the same.
`json.Unmarshal` is a parameter; what is printed is a list.
-/
namespace Tcpx.LoginClient
open ExampleClients (Ended)

/-- An answer: its message id and the keys and values of its body (`tcpx.H`). context.go:436 `JSON`. -/
structure Answer where
  id : Int32
  body : List (String × String)
deriving DecidableEq, Repr

/-- examples/modules/middleware/anchor-middleware/main.go:63 `token`. -/
def token : String := "AD2KQ33M3ZI56EJ127AI5DK4EO31Q6QWE8ZK75D43ADF412G"

/-- examples/modules/middleware/anchor-middleware/main.go:50-65 `login`, by what `Bind` returns: the text of the error, or nothing. -/
def loginAnswer : Except String Unit → Answer
  | .error e => ⟨2, [("message", e)]⟩
  | .ok _ => ⟨2, [("message", "login success"), ("token", token)]⟩

/-- examples/modules/middleware/anchor-middleware/main.go:20-65: the answer to a message, by what `HeaderOf` gives (`text` makes the
text of an error) and by what `Bind` will return; none if `HeaderOf` panics. -/
def answer (text : Err → String) (header : Res Header) (bound : Except String Unit) : Option Answer :=
  match header with
  | .ok h =>
    match h.get? "Authorization" with
    | none => some ⟨403, [("message", "not found auth in header['Authorization']")]⟩
    | some auth =>
      if auth ≠ .str "a client secret key" then some ⟨403, [("message", "auth fail, invalid client secret key")]⟩
      else some (loginAnswer bound)
  | .err e => some ⟨500, [("message", text e)]⟩
  | .panic => none
  | .block => none

/-- What a client prints: a map, or the field `Token` of a `Response`.
examples/modules/middleware/anchor-middleware/client/main.go:62, 73. -/
inductive Shown where
  | map (m : List (String × String))
  | token (s : String)
deriving DecidableEq, Repr

/-- examples/modules/middleware/anchor-middleware/client/main.go:54-74: what is printed for a message; `none` is `handleError`, which ends
the process.  `obj` and `tok` are `json.Unmarshal` into a map and into a `Response`. -/
def display (obj : Bytes → Option (List (String × String))) (tok : Bytes → Option String) (id : Int32) (body : Bytes) :
    Option (List Shown) :=
  if id = 500 ∨ id = 400 ∨ id = 403 then
    match obj body with
    | some m => some [.map m]
    | none => none
  else if id = 2 then
    match tok body with
    | some s => some [.token s]
    | none => none
  else some []

/-- examples/modules/middleware/anchor-middleware/client/main.go:35-76 `Recv`: what is printed, and how the goroutine stands in the end. -/
def recv (obj : Bytes → Option (List (String × String))) (tok : Bytes → Option String) (r : Reader) : List Shown × Ended :=
  match _h : firstBlockOf (some r) with
  | .err _ _ => ([], .exits)
  | .panic => ([], .panics)
  | .block => ([], .waits)
  | .ok buf r' =>
    match messageIDOf { live := buf } with
    | .err _ => ([], .exits)
    | .panic => ([], .panics)
    | .block => ([], .waits)           -- does not occur
    | .ok id =>
      match bodyBytesOf { live := buf } with
      | .err _ => ([], .exits)
      | .panic => ([], .panics)
      | .block => ([], .waits)         -- does not occur
      | .ok body =>
        match display obj tok id body.live with
        | none => ([], .exits)
        | some l => let rest := recv obj tok r'; (l ++ rest.1, rest.2)
termination_by r.size
decreasing_by exact (firstBlock_size r 0).1 _ _ (by simpa [firstBlockOfLimitMaxByte, firstBlockOf] using _h)

end Tcpx.LoginClient
