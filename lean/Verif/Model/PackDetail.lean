import Verif.Model.Packx
/-!
# Model of the examples that pack and unpack by hand, examples/modules/pack-detail

The five encoders (json, protobuf, toml, xml, yaml) have the same text up to the library that makes the body, and so have the five
decoders.  Lines are those of json/encode/main.go and json/decode/main.go.
-/
namespace Tcpx.PackDetail

/-- `uint32(x)` of an `int`. The Go language, json/encode/main.go:22. -/
def uint32OfInt (x : Int) : UInt32 := UInt32.ofNat (x % 4294967296).toNat

/-- examples/modules/pack-detail/json/encode/main.go:21-56; the header and the body as the libraries have made them. -/
def encode (messageID : Int) (headerBuf bodyBuf : Bytes) : Bytes :=
  let messageIDBuf := putUint32 (uint32OfInt messageID)
  let headerLengthBuf := putUint32 (lenU32 headerBuf)
  let bodyLengthBuf := putUint32 (lenU32 bodyBuf)
  let content := messageIDBuf
  let content := content ++ headerLengthBuf
  let content := content ++ bodyLengthBuf
  let content := content ++ headerBuf
  let content := content ++ bodyBuf
  let lengthBuf := putUint32 (lenU32 content)
  let packet := lengthBuf
  packet ++ content

/-- What a decoder prints, with the bytes its libraries are given. json/decode/main.go:14-30. -/
structure Decoded where
  length : UInt32
  messageID : UInt32
  headerLength : UInt32
  bodyLength : UInt32
  header : Bytes
  body : Bytes
deriving DecidableEq, Repr

/-- examples/modules/pack-detail/json/decode/main.go:14-23; the index arithmetic is `uint32`. -/
def decode (buf : Slice) : Res Decoded := do
  let b ← buf.sub 0 4
  let length ← uint32Of b.live
  let b ← buf.sub 4 8
  let messageID ← uint32Of b.live
  let b ← buf.sub 8 12
  let headerLength ← uint32Of b.live
  let b ← buf.sub 12 16
  let bodyLength ← uint32Of b.live
  let h ← buf.sub 16 (16 + headerLength).toNat
  let bb ← buf.sub (16 + headerLength).toNat (16 + headerLength + bodyLength).toNat
  .ok { length, messageID, headerLength, bodyLength, header := h.live, body := bb.live }

end Tcpx.PackDetail
