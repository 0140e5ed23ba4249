import Verif.Model.Serve
import Verif.Model.Requests
/-!
# Model of the tls example, examples/modules/tls

TLS is a transparent stream once the connection is set up; reading the PEM files, dialling and certificates themselves are outside the model.
-/
namespace Tcpx.TlsExample
variable {V : Type}

/-- Name of the handler, which prints a line. examples/modules/tls/server/main.go:10-12. -/
def login : H := 1

/-- examples/modules/tls/server/main.go:9-12. -/
def ops : List RegOp := [.any "/login/" [login]]

/-- The calls the server makes: `cert` is what `LoadTLSFile` finds in the files; without a certificate `main` panics before it listens.
`works` is whether nothing else keeps the listener from being opened. examples/modules/tls/server/main.go:19-25. -/
def serverOps (cert : Option Nat) (works : Bool) : List ServeOp :=
  match cert with
  | none => [.load none]
  | some c => [.load (some c), .serve "tcp" ":8080" works]

/-- What the client writes before it closes the connection. examples/modules/tls/client/main.go:53-60. -/
def sends (env : Env V) : Res (List Bytes) :=
  match (newURLPatternMessage "/login/" (none : Option V)).pack env none with
  | .ok buf => .ok [buf]
  | .err _ => .panic
  | .panic => .panic
  | .block => .block

end Tcpx.TlsExample
