/-!
# Specification vocabulary: the documented wire format

Written from README.md ("Pack") without reference to the model.
-/
namespace Tcpx.Spec

/-- The number `n < 2^32` as four bytes, most significant first. -/
def be4 (n : Nat) : List UInt8 :=
  [UInt8.ofNat (n / 2^24 % 256), UInt8.ofNat (n / 2^16 % 256), UInt8.ofNat (n / 2^8 % 256), UInt8.ofNat (n % 256)]

/-- The value of four bytes, most significant first. -/
def value4 (b0 b1 b2 b3 : UInt8) : Nat :=
  b0.toNat * 2^24 + b1.toNat * 2^16 + b2.toNat * 2^8 + b3.toNat

/-- An `int32` as the 32-bit pattern it is transmitted as (two's complement). -/
def pattern32 (id : Int) : Nat := (id % 2^32).toNat

/-- README.md "Pack": length, message id, header length, body length (4 bytes each, big endian; the length counts
everything after itself), header, body. -/
def frame (id : Int) (header body : List UInt8) : List UInt8 :=
  be4 (12 + header.length + body.length) ++ be4 (pattern32 id) ++ be4 header.length ++ be4 body.length
    ++ header ++ body

/-- Size in bytes of the part of a frame counted by its length field. -/
def payload (header body : List UInt8) : Nat := 12 + header.length + body.length

end Tcpx.Spec

namespace Tcpx.Spec

/-- The 4-byte big-endian number found at offset `k` of a byte string. -/
def fieldAt (l : List UInt8) (k : Nat) : Nat :=
  value4 (l.getD k 0) (l.getD (k+1) 0) (l.getD (k+2) 0) (l.getD (k+3) 0)

/-- A 32-bit pattern read as a signed number. -/
def signed32 (n : Nat) : Int := if n < 2^31 then n else (n : Int) - 2^32

/-- The bytes `l[a .. b)`. -/
def range (l : List UInt8) (a b : Nat) : List UInt8 := (l.drop a).take (b - a)

/-- What the accessors of a frame should report, given the raw bytes: the declared fields. -/
def declaredLength (l : List UInt8) : Nat := fieldAt l 0
def declaredId (l : List UInt8) : Int := signed32 (fieldAt l 4)
def declaredHeaderLen (l : List UInt8) : Nat := fieldAt l 8
def declaredBodyLen (l : List UInt8) : Nat := fieldAt l 12
/-- The declared header region. -/
def declaredHeader (l : List UInt8) : List UInt8 := range l 16 (16 + declaredHeaderLen l)
/-- The declared body region. -/
def declaredBody (l : List UInt8) : List UInt8 :=
  range l (16 + declaredHeaderLen l) (16 + declaredHeaderLen l + declaredBodyLen l)

end Tcpx.Spec
