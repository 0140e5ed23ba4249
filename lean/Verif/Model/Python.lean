import Verif.Model.Packx
/-!
# Model of the Python client (all-language-clients/python/protocol.py)

Python integers are unbounded, slices are clipped to the bytes there are, and an exception is `none` here.  `json.dumps`,
`json.loads` and the protobuf methods are parameters.
-/
namespace Tcpx

/-- protocol.py:4-7 `TCPXMessage`; `id = none` is `None`, the default.  The header is `None` or a dict with string keys. -/
structure PyMessage (V : Type) where
  id     : Option Int
  header : Header
  body   : V

/-- What protocol.py takes from its environment: `json.dumps` on headers (line 28), and on bodies (line 21), `SerializeToString` (line 23),
`json.loads` (line 50), `ParseFromString` (line 53). -/
structure PyEnv (V : Type) where
  dumpsHeader : Header → Option Bytes
  dumps       : V → Option Bytes
  loads       : Bytes → Option V
  serialize   : V → Option Bytes
  parse       : Bytes → Option V

/-- Python, `int.to_bytes(4, 'big')`: an OverflowError outside of 0 .. 2^32-1. protocol.py:27-34. -/
def pyToBytes4 (n : Int) : Option Bytes :=
  if n < 0 ∨ n ≥ 2^32 then none
  else some [UInt8.ofNat (n.toNat / 256 / 256 / 256), UInt8.ofNat (n.toNat / 256 / 256), UInt8.ofNat (n.toNat / 256), UInt8.ofNat n.toNat]

/-- Python, `int.from_bytes(b, 'big')`, of any number of bytes. protocol.py:42-45. -/
def pyFromBytes (b : Bytes) : Nat := b.foldl (fun n x => n * 256 + x.toNat) 0

/-- Python, the slice `l[a:b]` for `a`, `b` not negative. protocol.py:41-48. -/
def pySlice (l : Bytes) (a b : Nat) : Bytes := (l.take b).drop a

section
variable {V : Type}

/-- protocol.py:20-25: the body. -/
def pyDump (e : PyEnv V) (serializer : String) (v : V) : Option Bytes :=
  if serializer = "json" then e.dumps v
  else if serializer = "protobuf" then e.serialize v
  else none

/-- protocol.py:49-56: the body. -/
def pyLoad (e : PyEnv V) (serializer : String) (b : Bytes) : Option V :=
  if serializer = "json" then e.loads b
  else if serializer = "protobuf" then e.parse b
  else none

/-- protocol.py:15-36 `TCPXProtocol.pack`. -/
def pyPack (e : PyEnv V) (serializer : String) (msg : PyMessage V) : Option Bytes := do
  let body ← pyDump e serializer msg.body
  let id ← msg.id
  let id ← pyToBytes4 id
  let header ← e.dumpsHeader msg.header
  let headerLength ← pyToBytes4 header.length
  let bodyLength ← pyToBytes4 body.length
  let packet := id ++ headerLength ++ bodyLength ++ header ++ body
  let length ← pyToBytes4 packet.length
  some (length ++ packet)

/-- What `unpack` returns: the id, the header as it is on the wire, the body. protocol.py:45-46, 51, 54. -/
structure PyReceived (V : Type) where
  id     : Nat
  header : Bytes
  body   : V
deriving DecidableEq, Repr

/-- protocol.py:38-58 `TCPXProtocol.unpack` (with a `response` to fill in, if the serializer is protobuf). -/
def pyUnpack (e : PyEnv V) (serializer : String) (data : Bytes) : Option (PyReceived V) := do
  let packet := data.drop 4
  let headerLength := pyFromBytes (pySlice packet 4 8)
  let bodyLength := pyFromBytes (pySlice packet 8 12)
  let body ← pyLoad e serializer (pySlice data (16 + headerLength) (16 + headerLength + bodyLength))
  some { id := pyFromBytes (pySlice packet 0 4), header := pySlice data 16 (16 + headerLength), body := body }

end
end Tcpx
