import Verif.Model.Raw
/-!
# Model of the raw example, examples/modules/raw/server/server.go

Writes are taken to return: their results are ignored by the code (line 28).
-/
namespace Tcpx.RawExample

/-- No counterpart in the code: the name of the global middleware, examples/modules/raw/server/server.go:11-13. -/
def before : H := 1
/-- No counterpart in the code: the name of the middleware "middle-1", examples/modules/raw/server/server.go:14-16. -/
def middle1 : H := 2
/-- No counterpart in the code: the name of the function given as `HandleRaw`, examples/modules/raw/server/server.go:17-30. -/
def handleRaw : H := 3

/-- The server after the registrations. examples/modules/raw/server/server.go:10-16. -/
def server : Srv := ((Srv.new.useGlobal [before]).andThen fun s => s.use [.key "middle-1", .fn middle1]).st

/-- What `HandleRaw` does. examples/modules/raw/server/server.go:24-28. -/
inductive Act where
  | receive (bs : Bytes)   -- `fmt.Println("receive:", string(buf[:n]))`
  | answer                 -- `c.ConnWriter.Write([]byte("hello,I am server."))`
  | report                 -- `fmt.Println(e.Error())`
deriving DecidableEq, Repr

/-- One `Read` into a buffer of `size` bytes; an error that comes together with bytes hides them from this code (the error is tested
first, line 23).  Package net, used at examples/modules/raw/server/server.go:22. -/
def readOnce (size : Nat) : Reader → ReadOut Bytes
  | [] => .block
  | .chunk bs :: r => if bs.length ≤ size then .ok bs r else .ok (bs.take size) (.chunk (bs.drop size) :: r)
  | .chunkEOF bs :: r => if bs.length ≤ size then .err .eof (.eof :: r) else .ok (bs.take size) (.chunkEOF (bs.drop size) :: r)
  | .eof :: r => .err .eof (.eof :: r)
  | .fail :: r => .err .io r

theorem readOnce_size {size : Nat} (hs : 0 < size) {r r' : Reader} {bs : Bytes} (h : readOnce size r = .ok bs r') : r'.size < r.size := by
  unfold readOnce at h
  split at h
  · cases h
  · split at h <;> cases h <;> simp only [Reader.size, List.length_drop] <;> omega
  · split at h <;> cases h
    simp only [Reader.size, List.length_drop]; omega
  · cases h
  · cases h

/-- The loop of `HandleRaw` on the connection `r`; whether it returns (otherwise it waits in `Read`).
examples/modules/raw/server/server.go:18-29. -/
def loop (r : Reader) : List Act × Bool :=
  match h : readOnce 500 r with
  | .ok bs r' => let rest := loop r'; (.receive bs :: .answer :: rest.1, rest.2)
  | .err _ _ => ([.report], true)
  | .panic => ([], true)
  | .block => ([], false)
termination_by r.size
decreasing_by exact readOnce_size (by decide) h

end Tcpx.RawExample
