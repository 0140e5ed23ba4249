import Verif.Model.Login
import Verif.Model.Answer
/-!
# Model of what the handlers of the guarded login do with a connection, and of what its client sends

examples/modules/middleware/anchor-middleware/main.go and router-middleware/main.go; their clients are the same.
-/
namespace Tcpx.Login
variable {V : Type}

/-- The values in the handlers: the zero `User`, and the bodies of the answers (those with `e.Error()` by the error).
examples/modules/middleware/anchor-middleware/main.go:55, 24, 32, 40, 58, 64. -/
structure Vals (V : Type) where
  noUser : V
  headerError : Err → V
  notFound : V
  invalid : V
  bindError : Err → V
  welcome : V

/-- `c.JSON`, whose error is not looked at, and what follows. examples/modules/middleware/anchor-middleware/main.go:23, 31, 39, 57, 64. -/
def say (env : Env V) (room : Nat) (id : Int32) (body : V) (k : Code) : Code :=
  .ofSend (ctxFormat env (env.builtin .json) .json .conn (.accept room) id (some body) []) k

/-- examples/modules/middleware/anchor-middleware/main.go:20-48 `beforeLogin`; `k` is what `c.Next` runs, which nothing but printing follows.
After `c.Abort` nothing is run. -/
def guardBody (env : Env V) (room : Nat) (v : Vals V) (stream : Bytes) (k : Code) : Code :=
  match headerOf env.json { live := stream } with
  | .ok h =>
    match h.get? "Authorization" with
    | none => say env room 403 v.notFound .done
    | some auth => if auth ≠ .str "a client secret key" then say env room 403 v.invalid .done else k
  | .err e => say env room 500 (v.headerError e) .done
  | .panic => .panic
  | .block => .panic            -- does not occur

/-- examples/modules/middleware/anchor-middleware/main.go:50-65 `login`; `k` are the handlers after it. -/
def loginBody (env : Env V) (room : Nat) (v : Vals V) (stream : Bytes) (k : Code) : Code :=
  match ctxBind env (env.builtin .json) { live := stream } v.noUser with
  | .ok _ => say env room 2 v.welcome k
  | .err e => say env room 2 (v.bindError e) k
  | .panic => .panic
  | .block => .panic            -- does not occur

/-- The handlers of a message. examples/modules/middleware/anchor-middleware/main.go:20-65; context.go:559-569 `Next`. -/
def code (env : Env V) (room : Nat) (v : Vals V) (stream : Bytes) : Dispatch → Code
  | .chain hs => hs.foldr (fun h k =>
      if h = beforeLogin then guardBody env room v stream k else if h = login then loginBody env room v stream k else k) .done
  | _ => .done

/-- What the client sends; the error of packing is not looked at, but the program then writes a nil buffer.
examples/modules/middleware/anchor-middleware/client/main.go:19-31. -/
def clientSends (env : Env V) (user : V) : Res Bytes :=
  match packWithMarshallerName env
    { id := 1, header := some [("Authorization", .str "a client secret key")], body := some user } "json" with
  | .ok b => .ok b
  | .err _ => .ok []
  | .panic => .panic
  | .block => .block

end Tcpx.Login
