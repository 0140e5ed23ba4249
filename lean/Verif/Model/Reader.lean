import Verif.Model.Packx
/-!
# Model of reading blocks from a connection (packx.go:90-134, 432-510)

A reader is the script of what its successive `Read` calls would return if the buffer were large enough.
-/
namespace Tcpx

/-- One event on the reading side of a connection. Package io, used at packx.go:491-510. -/
inductive Ev where
  | chunk (bs : Bytes)      -- bytes delivered with nil error; `[]` is a `Read` returning `0, nil`
  | chunkEOF (bs : Bytes)   -- bytes delivered together with `io.EOF` (allowed by io.Reader)
  | eof                     -- `0, io.EOF`
  | fail                    -- `0, e` with another error
deriving DecidableEq, Repr

/-- A reader: pending events.  The empty script is a peer that sends nothing more and does not close: `Read` blocks.
Package io, used at packx.go:491-510. -/
abbrev Reader := List Ev

/-- Outcome of a reading function together with the reader afterwards. No counterpart in the code: results. -/
inductive ReadOut (α : Type) where
  | ok (a : α) (rest : Reader)
  | err (e : Err) (rest : Reader)
  | panic
  | block
deriving DecidableEq, Repr

namespace ReadOut
variable {α β : Type}

/-- No counterpart in the code: sequencing. -/
def bind : ReadOut α → (α → Reader → ReadOut β) → ReadOut β
  | ok a r, f => f a r
  | err e r, _ => err e r
  | panic, _ => panic
  | block, _ => block

@[simp] theorem bind_ok (a : α) (r : Reader) (f : α → Reader → ReadOut β) : (ok a r).bind f = f a r := rfl
@[simp] theorem bind_err (e : Err) (r : Reader) (f : α → Reader → ReadOut β) : (err e r).bind f = err e r := rfl
@[simp] theorem bind_panic (f : α → Reader → ReadOut β) : (panic : ReadOut α).bind f = panic := rfl
@[simp] theorem bind_block (f : α → Reader → ReadOut β) : (block : ReadOut α).bind f = block := rfl

/-- Put bytes already read in front of the bytes read later. No counterpart in the code: the buffer filled by packx.go:491-510. -/
def prepend (bs : Bytes) : ReadOut Bytes → ReadOut Bytes
  | ok a r => ok (bs ++ a) r
  | err e r => err e r
  | panic => panic
  | block => block

end ReadOut

/-- packx.go:491-510 `readUntil(reader, buf)` with `len(buf) = n`; returns the bytes put into `buf`.
`Read(buf[offset:])` returns at most the free space; the rest of a chunk stays pending.  An error returned together
with data discards the data (line 498: `e != nil` is tested before `offset += n`). -/
def readUntil : Reader → Nat → ReadOut Bytes
  | r, 0 => .ok [] r
  | [], _ + 1 => .block
  | .chunk bs :: r, n + 1 =>
    if bs.length < n + 1 then (readUntil r (n + 1 - bs.length)).prepend bs
    else if bs.length = n + 1 then .ok bs r
    else .ok (bs.take (n + 1)) (.chunk (bs.drop (n + 1)) :: r)
  | .chunkEOF bs :: r, n + 1 =>
    if bs.length ≤ n + 1 then .err .eof (.eof :: r)
    else .ok (bs.take (n + 1)) (.chunkEOF (bs.drop (n + 1)) :: r)
  | .eof :: r, _ + 1 => .err .eof (.eof :: r)
  | .fail :: r, _ + 1 => .err .io r

/-- `make([]byte, length, length)` followed by `readUntil`: packx.go:448-454, 480-486.  `make` panics for a negative
length. -/
def readContent (r : Reader) (length : Int32) : ReadOut Bytes :=
  if length.toInt < 0 then .panic
  else readUntil r length.toInt.toNat

/-- `LengthOf(info)` on the four bytes read (packx.go:444, 471). -/
def announcedLength (info : Bytes) : Res Int32 := lengthOf { live := info }

/-- packx.go:432-457 `UnpackToBlockFromReader`; `none` is a nil reader. -/
def unpackToBlockFromReader : Option Reader → ReadOut Bytes
  | none => .err .nilReader []
  | some r =>
    (readUntil r 4).bind fun info r =>
      match announcedLength info with
      | .ok length => (readContent r length).bind fun content r => .ok (info ++ content) r
      | .err e => .err e r
      | .panic => .panic
      | .block => .block

/-- packx.go:459-489 `UnpackToBlockFromReaderLimitMaxLengthOfByte`. -/
def unpackToBlockFromReaderLimit (max : Int32) : Option Reader → ReadOut Bytes
  | none => .err .nilReader []
  | some r =>
    (readUntil r 4).bind fun info r =>
      match announcedLength info with
      | .ok length =>
        if length.toInt > max.toInt then .err .tooBig r
        else (readContent r length).bind fun content r => .ok (info ++ content) r
      | .err e => .err e r
      | .panic => .panic
      | .block => .block

/-- packx.go:123-125 `FirstBlockOf` (also `Packx.FirstBlockOf`, packx.go:86-88). -/
def firstBlockOf (r : Option Reader) : ReadOut Bytes := unpackToBlockFromReader r

/-- packx.go:127-132 `FirstBlockOfLimitMaxByte` (also `Packx.FirstBlockOfLimitMaxByte`, packx.go:90-95). -/
def firstBlockOfLimitMaxByte (r : Option Reader) (max : Int32) : ReadOut Bytes :=
  if max.toInt ≤ 0 then unpackToBlockFromReader r
  else unpackToBlockFromReaderLimit max r

/-- Continue a reading function with a call that does not read. No counterpart in the code: sequencing. -/
def ReadOut.lift {α β : Type} (f : α → Res β) : ReadOut α → ReadOut β
  | .ok a r => match f a with
    | .ok b => .ok b r
    | .err e => .err e r
    | .panic => .panic
    | .block => .block
  | .err e r => .err e r
  | .panic => .panic
  | .block => .block

/-- packx.go:98-119 `UnPackFromReader`: id, header and body bytes of the first block. -/
def unPackFromReader (json : JSONCodec) (r : Option Reader) : ReadOut (Int32 × Header × Bytes) :=
  (unpackToBlockFromReader r).lift fun buf => do
    let id ← messageIDOf { live := buf }
    let header ← headerOf json { live := buf }
    let body ← bodyBytesOf { live := buf }
    .ok (id, header, body.live)

end Tcpx
