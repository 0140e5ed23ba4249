import Verif.Model.ConnLoop
/-!
# Model of the connection goroutine read by read, in time (tcpx.go:565-605, packx.go:459-510)

`Model/ConnLoop` runs the loop on a whole script of reads; `Model/Session` lets a message be read in one step.  Here the goroutine
goes from one `Read` call to the next: bytes arrive at their own times in pieces of any size, a `Read` returns as many of the bytes that
are there as it likes (at least one, at most what the buffer has room for), and between the calls the goroutine stands at one of the few
places where it can wait.

Simplifications: the ways in which reading can fail (end of stream, error, closed by the server) are not told apart, since the loop
treats them alike (tcpx.go:567-573, 589-595); once reading has failed it goes on failing.
-/
namespace Tcpx.Bytewise

/-- Where the goroutine of a connection stands. tcpx.go:565-605, packx.go:459-489. -/
inductive Place where
  | info (got : Bytes)                            -- packx.go:464: in `readUntil(reader, info)`; `got` is `info[:offset]`
  | content (info : Bytes) (length : Nat) (got : Bytes)   -- packx.go:481: in `readUntil(reader, content)`; `got` is `content[:offset]`
  | start (t : Task)                              -- tcpx.go:600, 602: at the `go` statement
  | over (e : LoopEnd)                            -- tcpx.go:565-605 is left, by `break` or by a panic
deriving DecidableEq, Repr

/-- The variables of the loop body: `ctxs` and `i` of tcpx.go:585-587, inside a group. -/
structure Group where
  got : List Bytes       -- `ctxs[:i]`
  missing : Nat          -- `restN + 1 - i`
deriving DecidableEq, Repr

/-- Where the goroutine is after a block has been read without error: tcpx.go:576-587, 597-602. `none`: not inside a group. -/
def blockRead (json : JSONCodec) : Option Group → Bytes → Option Group × Place
  | none, b =>
    match isPipe json b with
    | .err _ => (none, .over .ended)
    | .panic => (none, .over .panicked)
    | .block => (none, .over .blocked)
    | .ok (false, _) => (none, .start (.single b))
    | .ok (true, n) =>
      if n ≤ 0 ∨ maxPointers < n then (none, .over .panicked)
      else if n = 1 then (none, .start (.group [some b]))
      else (some ⟨[b], n.toNat - 1⟩, .info [])
  | some g, b =>
    if g.missing = 1 then (none, .start (.group ((g.got ++ [b]).map some)))
    else (some ⟨g.got ++ [b], g.missing - 1⟩, .info [])

/-- Where the goroutine is after reading a block has failed: tcpx.go:567-573; inside a group the `break` of tcpx.go:589-595 leaves only
the inner loop, and the group is handed on as it is (tcpx.go:600). -/
def blockFailed : Option Group → Option Group × Place
  | none => (none, .over .ended)
  | some g => (none, .start (.group (g.got.map some ++ List.replicate g.missing none)))

/-- packx.go:471-481 (with a limit) and packx.go:444-449 (without, packx.go:127-132): the four bytes of the length are there.
`readUntil` returns at once for an empty buffer (packx.go:492-494). -/
def infoRead (json : JSONCodec) (max : Int32) (g : Option Group) (info : Bytes) : Option Group × Place :=
  match announcedLength info with
  | .err _ => blockFailed g
  | .panic => (none, .over .panicked)
  | .block => (none, .over .blocked)
  | .ok length =>
    if 0 < max.toInt ∧ max.toInt < length.toInt then blockFailed g
    else if length.toInt < 0 then (none, .over .panicked)
    else if length.toInt = 0 then blockRead json g info
    else (g, .content info length.toInt.toNat [])

/-- How many bytes the next `Read` has room for (`len(buf) - offset`, packx.go:497); none where the goroutine does not read. -/
def Place.room : Place → Nat
  | .info got => 4 - got.length
  | .content _ n got => n - got.length
  | .start _ => 0
  | .over _ => 0

/-- A `Read` has returned `bs` and no error: packx.go:504-507. -/
def took (json : JSONCodec) (max : Int32) (g : Option Group) (bs : Bytes) : Place → Option Group × Place
  | .info got => if 4 ≤ (got ++ bs).length then infoRead json max g (got ++ bs) else (g, .info (got ++ bs))
  | .content info n got => if n ≤ (got ++ bs).length then blockRead json g (info ++ (got ++ bs)) else (g, .content info n (got ++ bs))
  | p => (g, p)

/-- What can happen. No counterpart in the code: scheduling and the network. -/
inductive Label where
  | arrive (bs : Bytes)   -- bytes reach the server
  | close                 -- the client closes its side: what has arrived can still be read
  | cut                   -- the connection is broken or closed by the server: what has arrived is lost
  | delay (n : Nat)       -- time passes
  | read (n : Nat)        -- a `Read` returns `n` bytes
  | fail                  -- a `Read` returns an error
  | go                    -- the `go` statement
deriving DecidableEq, Repr

/-- No counterpart in the code: the goroutine and its connection, with history. -/
structure State where
  now : Nat := 0
  wire : List (Nat × UInt8) := []       -- arrived and not read, with the time of arrival
  shut : Option Nat := none             -- when the connection was closed, by anybody
  group : Option Group := none
  place : Place := .info []
  since : Nat := 0                      -- when the goroutine came to where it stands (it made its last step)
  taken : Bytes := []                   -- everything read so far
  failed : Bool := false                -- a `Read` has returned an error
  begun : List (Nat × Task) := []       -- the goroutines started, with the time
deriving DecidableEq, Repr

/-- One step. tcpx.go:565-605, packx.go:459-510; `arrive`, `close`, `cut` and `delay` have no counterpart in the code. -/
def State.step (json : JSONCodec) (max : Int32) (s : State) : Label → Option State
  | .arrive bs => if s.shut = none then some { s with wire := s.wire ++ bs.map fun b => (s.now, b) } else none
  | .close => if s.shut = none then some { s with shut := some s.now } else none
  | .cut => some { s with wire := [], shut := some (s.shut.getD s.now) }
  | .delay n => some { s with now := s.now + n }
  | .read n =>
    if 0 < n ∧ n ≤ s.wire.length ∧ n ≤ s.place.room then
      let bs := (s.wire.take n).map (·.2)
      let r := took json max s.group bs s.place
      some { s with wire := s.wire.drop n, group := r.1, place := r.2, since := s.now, taken := s.taken ++ bs }
    else none
  | .fail =>
    if 0 < s.place.room ∧ s.wire = [] ∧ s.shut ≠ none then
      let r := blockFailed s.group
      some { s with group := r.1, place := r.2, since := s.now, failed := true }
    else none
  | .go =>
    match s.place with
    | .start t => some { s with place := .info [], since := s.now, begun := s.begun ++ [(s.now, t)] }
    | _ => none

/-- A run; what cannot happen is skipped. No counterpart in the code: scheduling. -/
def State.run (json : JSONCodec) (max : Int32) (s : State) : List Label → State
  | [] => s
  | l :: ls => ((s.step json max l).getD s).run json max ls

end Tcpx.Bytewise
