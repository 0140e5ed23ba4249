import Verif.Model.PackType
import Verif.Model.ConnLoop
/-!
# Model of the helloworld example, examples/modules/helloworld

Texts (`[]byte` in the code) are values of `V`, which the JSON marshaller turns into bytes (base64 in the code).
-/
namespace Tcpx.HelloWorld
variable {V : Type}

/-- Name of the function given to `OnMessage`. examples/modules/helloworld/server/server.go:11. -/
def onMessage : H := 1

/-- examples/modules/helloworld/server/server.go:10-15. -/
def ops : List RegOp := [.setOnMessage (some onMessage)]

/-- What the client sends. examples/modules/helloworld/client/main.go:17-22. -/
def packed (env : Env V) (text : V) : Res Bytes :=
  packWithMarshaller env { id := 1, header := none, body := some text } none

/-- The text printed for a message; `noText` is the empty variable.  The error of `Bind` is ignored; if there is one, the variable is taken
to be empty still. examples/modules/helloworld/server/server.go:12-14. -/
def shown (env : Env V) (noText : V) (stream : Bytes) : Res V :=
  match ctxBind env (env.builtin .json) { live := stream } noText with
  | .ok m => match m.body with
    | some v => .ok v
    | none => .panic            -- does not occur: the destination is a variable
  | .err _ => .ok noText
  | .panic => .panic
  | .block => .block

/-- No counterpart in the code: what the goroutines started for messages have still to handle (a missing message of a group is `none`),
what has been printed, and whether the process has ended. -/
structure State (V : Type) where
  todo : List (List (Option Bytes))
  out  : List V := []
  dead : Bool := false

/-- The goroutines started by the connections, tcpx.go:600, 602. -/
def start (conns : List (List Task)) : State V := { todo := conns.flatten.map Task.contexts }

/-- A goroutine handles its next message (tcpx.go:994-999, 853-885), or, if it has none left, does nothing.  `routed` is what
`handleMiddleware` would find out about a message.  Only one handler is run, and it prints once: the steps of different goroutines can be
taken to follow each other. -/
def State.step (env : Env V) (noText : V) (routed : Bytes → Srv.Routed) (s : State V) (i : Nat) : State V :=
  if s.dead then s
  else match s.todo[i]? with
    | none => s
    | some [] => s
    | some (none :: _) => { s with dead := true }
    | some (some b :: rest) =>
      match (runOps .new ops).handle (routed b) with
      | .chain hs =>
        hs.foldl (fun s h =>
          if s.dead then s
          else if h = onMessage then
            match shown env noText b with
            | .ok v => { s with out := s.out ++ [v] }
            | .err _ => s       -- does not occur
            | .block => s       -- does not occur
            | .panic => { s with dead := true }
          else s) { s with todo := s.todo.set i rest }
      | _ => { s with todo := s.todo.set i rest }

/-- No counterpart in the code: goroutines run in the order of `sched`. -/
def State.run (env : Env V) (noText : V) (routed : Bytes → Srv.Routed) (s : State V) (sched : List Nat) : State V :=
  sched.foldl (State.step env noText routed) s

end Tcpx.HelloWorld
