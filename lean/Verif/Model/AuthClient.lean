import Verif.Model.AuthExample
import Verif.Model.PackType
/-!
# Model of the clients of the auth example, examples/modules/auth/client/main.go

`Recv` is that of `Model/RawClient`.  `tcpx.MD5` (utils.go:78-83) is the function of the same name of the server, here a parameter.
The credentials are values of `V` by way of `val`.
-/
namespace Tcpx.AuthClient
open AuthExample
variable {V : Type}

/-- The three clients. examples/modules/auth/client/main.go:22, 55, 87. -/
inductive Which where
  | valid | invalid | timeout
deriving DecidableEq, Repr

/-- examples/modules/auth/client/main.go:23, 56, 88. -/
def secret : Which → String
  | .valid => "hello2222"
  | .invalid => "hello2222"
  | .timeout => "hello2222"

/-- examples/modules/auth/client/main.go:32-35, 65-68, 97-100. -/
def credentials (md5 : String → String) (secret : String) : Auth :=
  { f1 := "ft", f2 := "fj", signature := encrypt md5 { f1 := "ft", f2 := "fj", signature := "" } secret }

/-- The message, packed. examples/modules/auth/client/main.go:37-42, 70-75, 102-107. -/
def packed (env : Env V) (val : Auth → V) (a : Auth) : Res Bytes :=
  packWithMarshaller env { id := defaultAuthMessageID, header := none, body := some (val a) } none

/-- What a client writes.  The error of packing is overwritten or not looked at; the buffer is then nil.
examples/modules/auth/client/main.go:44-49, 77-81, 109-114. -/
def sends (env : Env V) (val : Auth → V) (md5 : String → String) (w : Which) : Res (List Bytes) :=
  match packed env val (credentials md5 (secret w)) with
  | .panic => .panic
  | .block => .block
  | .err _ => match w with
    | .invalid => .ok [[]]
    | _ => .ok []
  | .ok b => match w with
    | .invalid => .ok [b]
    | _ => .ok []

/-- What `Bind` into an `Auth` returns for a message: the error's text, or the credentials. examples/modules/auth/server/main.go:17-19. -/
def bound (env : Env V) (auth : V → Auth) (noAuth : V) (text : Err → String) (stream : Bytes) : Except String Auth :=
  match ctxBind env (env.builtin .json) { live := stream } noAuth with
  | .ok ⟨_, _, some v⟩ => .ok (auth v)
  | .err e => .error (text e)
  | _ => .error ""       -- does not occur for what a client sends

end Tcpx.AuthClient
