import Verif.Model.Mux
import Verif.Model.Packx
import Verif.Model.ChainTrace
/-!
# Model of the guarded login, examples/modules/middleware/anchor-middleware/main.go and router-middleware/main.go

The two servers have the same handlers; one registers the guard with `Use`, the other as middleware of the route.
-/
namespace Tcpx.Login
open Tcpx.Chain

/-- examples/modules/middleware/anchor-middleware/main.go:20 `beforeLogin` (router-middleware/main.go:19). -/
def beforeLogin : H := 0
/-- examples/modules/middleware/anchor-middleware/main.go:50 `login` (router-middleware/main.go:49). -/
def login : H := 1

/-- examples/modules/middleware/anchor-middleware/main.go:11-12. -/
def anchored : List RegOp := [.use [.key "before-login", .fn beforeLogin], .addHandler 1 [login]]
/-- examples/modules/middleware/router-middleware/main.go:11. -/
def routed : List RegOp := [.addHandler 1 [beforeLogin, login]]

/-- What `beforeLogin`, at place `i` of the chain, does in order, by the result of `HeaderOf(c.Stream)`.  Replies and printing are
`act`. examples/modules/middleware/anchor-middleware/main.go:20-49, router-middleware/main.go:19-48. -/
def guardEvents (i : Nat) : Res Header → List CEv
  | .ok h =>
    match h.get? "Authorization" with
    | none => [.start i, .act i, .abort i, .finish i]
    | some auth =>
      if auth ≠ .str "a client secret key" then [.start i, .act i, .abort i, .finish i]
      else [.start i, .next i, .back i, .act i, .finish i]
  | .err _ => [.start i, .act i, .abort i, .finish i]
  | .panic => [.start i, .panicked i]
  | .block => [.start i]

/-- The handler an event belongs to. No counterpart in the code. -/
def ofEv : CEv → Option Nat
  | .start i => some i
  | .act i => some i
  | .next i => some i
  | .back i => some i
  | .abort i => some i
  | .finish i => some i
  | .panicked i => some i
  | .done => none

/-- In `es`, handler `i` has done a first part of `l`. No counterpart in the code: a constraint on executions. -/
def Does (i : Nat) (l es : List CEv) : Prop := es.filter (fun e => ofEv e = some i) <+: l

end Tcpx.Login
