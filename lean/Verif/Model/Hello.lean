import Verif.Model.SayHello
import Verif.Model.Answer
import Verif.Model.ExampleClients
/-!
# Model of what the sayHello server answers, and of its client

The server is examples/sayHello/server/main.go (registered as in `Model/SayHello`), the client examples/sayHello/client/main.go.
Printing by the server is left out.  The values of Go types are values of `V`.
-/
namespace Tcpx.SayHello
open ExampleClients (Ended)
variable {V : Type}

/-- The values in the handlers: zero values to bind into (examples/sayHello/server/main.go:122, 141, 160, 179), and what is replied
(134, 153, 172, 194). -/
structure Vals (V : Type) where
  noText : V
  noRequest : V
  hello : V
  bye : V
  name : V
  response : V

/-- A handler that binds a text, panics if it cannot, and replies with `id` and `text`; then `k`.  A `Write` takes up to `room` bytes.
examples/sayHello/server/main.go:121-138, 140-157, 159-176. -/
def say (env : Env V) (room : Nat) (v : Vals V) (stream : Bytes) (id : Int32) (text : V) (k : Code) : Code :=
  match ctxBind env (env.builtin .json) { live := stream } v.noText with
  | .ok _ => .ofSend (ctxReply env (env.builtin .json) .conn (.accept room) id (some text) []) k
  | _ => .panic

/-- What a handler does with a message, and `k` after it; the middlewares and the rewritten heartbeat handler only print.
examples/sayHello/server/main.go:33-35, 121-214. -/
def body (env : Env V) (room : Nat) (v : Vals V) (stream : Bytes) (h : H) (k : Code) : Code :=
  if h = sayHello then say env room v stream 2 v.hello k
  else if h = sayGoodBye then say env room v stream 4 v.bye k
  else if h = sayName then say env room v stream 6 v.name k
  else if h = sayHelloProtobuf then
    match ctxBindWithMarshaller env (some (env.builtin .protobuf)) { live := stream } v.noRequest with
    | .ok _ => .ofSend (ctxFormat env (env.builtin .json) .protobuf .conn (.accept room) 12 (some v.response) []) k
    | .panic => .panic
    | _ => k
  else k

/-- The handlers a message is given to, one after the other. context.go:559-569 `Next`; tcpx.go:902-905 (`direct`, the heartbeat
handler). -/
def code (env : Env V) (room : Nat) (v : Vals V) (stream : Bytes) : Dispatch → Code
  | .chain hs => hs.foldr (body env room v stream) .done
  | .direct h => body env room v stream h .done
  | _ => .done

/-- What the client prints of a message: its bytes, the message and its text. examples/sayHello/client/main.go:31-39. -/
structure Printed (V : Type) where
  buf : Bytes
  msg : Message V
  text : Option V

/-- examples/sayHello/client/main.go:22-48: what the receiving goroutine prints, and how it stands in the end. -/
def receive (env : Env V) (noText : V) (r : Reader) : List (Printed V) × Ended :=
  match _h : firstBlockOf (some r) with
  | .err _ _ => ([], .panics)
  | .panic => ([], .panics)
  | .block => ([], .waits)
  | .ok buf r' =>
    match packxUnpack env (some (env.builtin .json)) { live := buf } noText with
    | .ok msg => let rest := receive env noText r'; (⟨buf, msg, msg.body⟩ :: rest.1, rest.2)
    | _ => ([], .panics)
termination_by r.size
decreasing_by exact (firstBlock_size r 0).1 _ _ (by simpa [firstBlockOfLimitMaxByte, firstBlockOf] using _h)

/-- examples/sayHello/client/main.go:77-79: the header of the message sent. -/
def clientHeader : Header := some [("api", .str "/tcpx/client1/")]

/-- examples/sayHello/client/main.go:77-88: the buffer is packed once and written a thousand times (`n`). -/
def sends (env : Env V) (text : V) (n : Nat) : Res (List Bytes) :=
  match packxPack env (env.builtin .json) 5 (some text) [clientHeader] with
  | .ok buf => .ok (List.replicate n buf)
  | .err _ => .panic
  | .panic => .panic
  | .block => .block

end Tcpx.SayHello
