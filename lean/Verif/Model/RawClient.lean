import Verif.Model.RawExample
import Verif.Model.ExampleClients
/-!
# Model of the clients that read without frames: examples/modules/raw/client/client.go, and `Recv` of the auth client

What is printed is a list.
-/
namespace Tcpx.RawClient
open ExampleClients (Ended)

/-- What `Recv` prints: what it has read, or an error. examples/modules/raw/client/client.go:27, 30;
examples/modules/auth/client/main.go:123, 126. -/
inductive Shown where
  | text (bs : Bytes)
  | error
deriving DecidableEq, Repr

/-- examples/modules/raw/client/client.go:22-32 `Recv`, examples/modules/auth/client/main.go:118-128 `Recv`, which are the same: what is
printed, and how the goroutine stands in the end. -/
def recv (r : Reader) : List Shown × Ended :=
  match _h : RawExample.readOnce 500 r with
  | .ok bs r' => let rest := recv r'; (.text bs :: rest.1, rest.2)
  | .err _ _ => ([.error], .exits)
  | .panic => ([], .panics)
  | .block => ([], .waits)
termination_by r.size
decreasing_by exact RawExample.readOnce_size (by decide) _h

/-- examples/modules/raw/client/client.go:17 (the bytes of the text). -/
def greeting : Bytes := "hello,I am client.".toUTF8.data.toList

/-- examples/modules/raw/server/server.go:28 (the bytes of the text): the answers among what the handler does. -/
def answered : List RawExample.Act → Bytes
  | [] => []
  | .answer :: as => "hello,I am server.".toUTF8.data.toList ++ answered as
  | _ :: as => answered as

end Tcpx.RawClient
