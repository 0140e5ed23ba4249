import Verif.Model.Reader
/-!
# Specification vocabulary: what a connection delivers, independent of fragmentation
-/
namespace Tcpx.Spec
open Tcpx

/-- How a byte stream ends. -/
inductive Ending where
  | stillOpen    -- the peer neither sends nor closes
  | closed       -- end of stream, reported on its own
  | closedWith (lost : List UInt8)  -- end of stream reported together with the last bytes
  | failed       -- transport error
deriving DecidableEq, Repr

/-- The bytes delivered (without error) and how the stream ends. -/
def stream : Reader → List UInt8 × Ending
  | [] => ([], .stillOpen)
  | .chunk bs :: r => (bs ++ (stream r).1, (stream r).2)
  | .chunkEOF bs :: _ => ([], .closedWith bs)
  | .eof :: _ => ([], .closed)
  | .fail :: _ => ([], .failed)

/-- The ending is reported separately from data. -/
def Ending.plain : Ending → Prop
  | .closedWith _ => False
  | _ => True

end Tcpx.Spec
