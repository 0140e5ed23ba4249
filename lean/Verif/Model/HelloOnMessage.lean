import Verif.Model.Hello
/-!
# Model of the function `OnMessage` of the sayHello example

examples/sayHello/server/main.go:91-120.  The example has it, with its use commented out (line 43); this is the server with that line.
-/
namespace Tcpx.SayHello
variable {V : Type}

/-- Name of the function `OnMessage`. examples/sayHello/server/main.go:91. -/
def onMessage : H := 10

/-- examples/sayHello/server/main.go:27-53 with line 43 in use. -/
def opsOnMessage : List RegOp := ops.take 3 ++ [.setOnMessage (some onMessage)] ++ ops.drop 3

/-- The values in `OnMessage`: zero values to bind into, and the text replied. examples/sayHello/server/main.go:107, 113, 111, 117. -/
structure OnVals (V : Type) where
  noA : V
  noB : V
  success : V

/-- examples/sayHello/server/main.go:91-120 `OnMessage`; the error of `Bind` is printed only. -/
def onMessageBody (env : Env V) (room : Nat) (v : OnVals V) (stream : Bytes) : Code :=
  match messageIDOf { live := stream } with
  | .ok messageID =>
    if messageID = 7 then
      match ctxBind env (env.builtin .json) { live := stream } v.noA with
      | .panic => .panic
      | .block => .panic        -- does not occur
      | _ => .ofSend (ctxReply env (env.builtin .json) .conn (.accept room) 8 (some v.success) []) .done
    else if messageID = 9 then
      match ctxBind env (env.builtin .json) { live := stream } v.noB with
      | .panic => .panic
      | .block => .panic        -- does not occur
      | _ => .ofSend (ctxFormat env (env.builtin .json) .json .conn (.accept room) 10 (some v.success) []) .done
    else .done
  | .err _ => .done
  | .panic => .panic
  | .block => .panic            -- does not occur

/-- The handlers a message is given to: the middlewares only print. examples/sayHello/server/main.go:200-214; context.go:559-569 `Next`. -/
def codeOnMessage (env : Env V) (room : Nat) (v : OnVals V) (stream : Bytes) : Dispatch → Code
  | .chain hs => hs.foldr (fun h k => if h = onMessage then onMessageBody env room v stream else k) .done
  | _ => .done

end Tcpx.SayHello
