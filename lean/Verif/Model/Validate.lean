import Verif.Model.Packx
/-!
# Model of the program that validates the streams of clients, all-language-clients/main.go, and of its Go client

What reads the request (`C.Bind`: `ioutil.ReadAll` and `json.Unmarshal`) and what writes the answer (`C.JSON`) are left to the
environment: a request is readable, giving a stream (a slice with any spare capacity) and a name, or it is not.  A handler that panics
is recovered by net/http, which then closes the connection without an answer.
-/
namespace Tcpx.Validate
variable {V : Type}

/-- What the client gets: a status and, if it is 200, the message shown under "ms"; or no answer at all.
all-language-clients/main.go:27-31, 48, 77, 82, 85. -/
inductive Answer (V : Type) where
  | bad (result : Bool)          -- 400; whether there is a "result": "not ok"
  | ok (ms : Message V)          -- 200
  | aborted                      -- the handler panicked

/-- all-language-clients/main.go:65-79: the variable a stream is decoded into; `fresh b` is a user of the type for format `b`, with an
empty name. -/
def user (fresh : Builtin → V) (name : String) : Option V :=
  match name with
  | "json" => some (fresh .json)
  | "xml" => some (fresh .xml)
  | "toml" | "tml" => some (fresh .toml)
  | "yaml" | "yml" => some (fresh .yaml)
  | "protobuf" | "proto" => some (fresh .protobuf)
  | _ => none

/-- all-language-clients/main.go:34-86, the handler of "/tcpx/clients/stream/"; `none`: the request is not readable. -/
def answer (env : Env V) (fresh : Builtin → V) (request : Option (Slice × String)) : Answer V :=
  match request with
  | none => .bad false
  | some (stream, name) =>
    match user fresh name with
    | none => .bad false
    | some dest =>
      match unpackWithMarshallerName env stream dest name with
      | .ok message => .ok message
      | .err _ => .bad true
      | .panic => .aborted
      | .block => .aborted          -- does not occur: nothing here waits

/-- The name each function of the Go client gives. all-language-clients/go/main.go:57, 96, 134, 172, 210. -/
def formatName : Builtin → String
  | .json => "json"
  | .xml => "xml"
  | .toml => "toml"
  | .yaml => "yaml"
  | .protobuf => "protobuf"

/-- all-language-clients/go/main.go:42-58, 82-97, 121-135, 159-173, 197-211: what the function of the Go client for a format posts for a
user; `none`: it panics.  The slice is that made by the validating program from the request. -/
def posted (env : Env V) (b : Builtin) (u : V) (spare : Bytes) : Option (Slice × String) :=
  match packxPack env (env.builtin b) 1 (some u) [] with
  | .ok buf => some (⟨buf, spare⟩, formatName b)
  | _ => none

end Tcpx.Validate
