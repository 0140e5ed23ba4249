import Verif.Model.RawExample
/-!
# Model of clients of the examples: examples/modules/chat/client_1 (and client_2), online-offline/client, graceful/*/client

The chat clients read whole messages with `FirstBlockOf`; the others take what one `Read` gives for a message.  What is printed, or put
into the channel `panel`, is a list: the goroutine of chat/client_1/main.go:29-36 prints what the channel gives in order and never ends.
-/
namespace Tcpx.ExampleClients

/-- How a receiving goroutine stands: waiting in `Read`; the process has ended by `os.Exit`; the process has crashed.
examples/modules/chat/client_1/main.go:70-75, 86-88, 97-99; examples/modules/online-offline/client/client.go:39-43. -/
inductive Ended where
  | waits | exits | panics
deriving DecidableEq, Repr

/-- examples/modules/chat/client_1/main.go:79-101: what is put into the channel for a message; `note` and `talk` are `json.Unmarshal`
into the two structures.  An id that is none of these gives nothing. -/
def text (note : Bytes → Option String) (talk : Bytes → Option (String × String)) (id : Int32) (bf : Bytes) : Res (Option String) :=
  if id = 400 ∨ id = 200 ∨ id = 500 then
    match note bf with
    | some message => .ok (some ("message: " ++ message))
    | none => .panic
  else if id = 6 then
    match talk bf with
    | some (message, fromUser) => .ok (some (fromUser ++ ": " ++ message))
    | none => .panic
  else .ok none

/-- examples/modules/chat/client_1/main.go:76-101, one message; the errors of `BodyBytesOf` and `MessageIDOf` are ignored (their
results are then nil and 0). -/
def message (note : Bytes → Option String) (talk : Bytes → Option (String × String)) (buf : Bytes) : Res (Option String) :=
  match bodyBytesOf { live := buf }, messageIDOf { live := buf } with
  | .panic, _ => .panic
  | _, .panic => .panic
  | .block, _ => .block
  | _, .block => .block
  | .ok bf, .ok id => text note talk id bf.live
  | .ok bf, .err _ => text note talk 0 bf.live
  | .err _, .ok id => text note talk id []
  | .err _, .err _ => text note talk 0 []

/-- examples/modules/chat/client_1/main.go:66-104 `Recv`: what is put into the channel, and how it stands in the end. -/
def recv (note : Bytes → Option String) (talk : Bytes → Option (String × String)) (r : Reader) : List String × Ended :=
  match _h : firstBlockOf (some r) with
  | .err _ _ => ([], .exits)
  | .panic => ([], .panics)
  | .block => ([], .waits)
  | .ok buf r' =>
    match message note talk buf with
    | .ok shown => let rest := recv note talk r'; (shown.toList ++ rest.1, rest.2)
    | .err _ => ([], .panics)          -- does not occur
    | .panic => ([], .panics)
    | .block => ([], .waits)           -- does not occur
termination_by r.size
decreasing_by exact (firstBlock_size r 0).1 _ _ (by simpa [firstBlockOfLimitMaxByte, firstBlockOf] using _h)

/-- examples/modules/chat/client_1/main.go:41-51: the texts sent in the first `n` turns of the loop.  `lines` are the lines typed, without
the line ends; `last` is what is typed after them before the input ends, `none` if it does not end. `ReadString` returns an empty
string at the end of the input, with an error that is ignored. -/
def sends : Nat → List String → Option String → List String
  | 0, _, _ => []
  | _ + 1, [], none => []
  | n + 1, [], some s => (if s.utf8ByteSize = 1 then [] else [s]) ++ sends n [] (some "")
  | n + 1, l :: ls, last => (if (l ++ "\n").utf8ByteSize = 1 then [] else [l ++ "\n"]) ++ sends n ls last

/-- examples/modules/online-offline/client/client.go:36-48 `Recv` (also graceful/graceful-stop/client/client.go:20-33,
graceful/graceful-restart/client/client.go:20-33): the bodies printed.  `buf` is what the buffer of 500 bytes holds. -/
def printing (buf : Bytes) (r : Reader) : List Bytes × Ended :=
  match _h : RawExample.readOnce 500 r with
  | .err _ _ => ([], .exits)
  | .panic => ([], .panics)
  | .block => ([], .waits)
  | .ok bs r' =>
    match bodyBytesOf ⟨bs, buf.drop bs.length⟩ with
    | .ok bf => let rest := printing (bs ++ buf.drop bs.length) r'; (bf.live :: rest.1, rest.2)
    | .err _ => let rest := printing (bs ++ buf.drop bs.length) r'; ([] :: rest.1, rest.2)
    | .panic => ([], .panics)
    | .block => ([], .waits)           -- does not occur
termination_by r.size
decreasing_by all_goals exact RawExample.readOnce_size (by decide) _h

end Tcpx.ExampleClients
