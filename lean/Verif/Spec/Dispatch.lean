import Verif.Model.ConnLoop
import Verif.Spec.Wire
/-!
# Specification vocabulary: which messages a connection carries and how they are grouped

Works on the sequence of complete frames, not on reads.
-/
namespace Tcpx.Spec
open Tcpx

/-- `ds` consists of digits and denotes `n`. -/
def Digits (ds : List Char) (n : Nat) : Prop :=
  ds ≠ [] ∧ (∀ c ∈ ds, c.isDigit = true) ∧ n = ds.foldl (fun a c => 10 * a + (c.toNat - 48)) 0

/-- `s` is a decimal numeral for the integer `z`, with optional sign, in the range of a 64-bit integer. -/
def Numeral (s : List Char) (z : Int) : Prop :=
  -2^63 ≤ z ∧ z < 2^63 ∧ ∃ n ds, Digits ds n ∧
    ((s = ds ∧ z = n) ∨ (s = '+' :: ds ∧ z = n) ∨ (s = '-' :: ds ∧ z = -(n : Int)))

/-- What the pipe entry of a header says. -/
inductive Marker where
  | none             -- no marker, or a well-formed one that is not "enable": an ordinary message
  | group (n : Int)  -- "enable;n"
  | bad              -- not a string, not "a;b", or `b` not a decimal integer

/-- The marker denoted by a header. -/
inductive MarkerOf : Header → Marker → Prop where
  | absent (h) : Header.get? h PIPED = .none → MarkerOf h .none
  | enable (h s b n) : Header.get? h PIPED = some (.str s) → s.toList = "enable;".toList ++ b → Numeral b n → MarkerOf h (.group n)
  | other (h s a b n) : Header.get? h PIPED = some (.str s) → s.toList = a ++ ';' :: b → ';' ∉ a → a ≠ "enable".toList →
      Numeral b n → MarkerOf h .none
  | notString (h v) : Header.get? h PIPED = some v → (∀ s, v ≠ .str s) → MarkerOf h .bad
  | notNumber (h s a b) : Header.get? h PIPED = some (.str s) → s.toList = a ++ ';' :: b → ';' ∉ a → (∀ n, ¬ Numeral b n) →
      MarkerOf h .bad
  | noSemicolon (h s) : Header.get? h PIPED = some (.str s) → ';' ∉ s.toList → MarkerOf h .bad

/-- The part of the processing of one frame that matters for grouping. -/
inductive Kind where
  | ordinary
  | pipe (n : Int)
  | bad
deriving DecidableEq, Repr

/-- The declared header of a frame, decoded; `none` if it does not fit the frame (or not an `int32`) or cannot be decoded. -/
def frameHeader (json : JSONCodec) (f : List UInt8) : Option Header :=
  if f.length < 16 + declaredHeaderLen f ∨ 2^31 - 16 ≤ declaredHeaderLen f then none
  else json.unmarshal (declaredHeader f)

/-- The kind of a frame. -/
inductive KindOf (json : JSONCodec) (f : List UInt8) : Kind → Prop where
  | undecodable : frameHeader json f = none → KindOf json f .bad
  | badMarker (h) : frameHeader json f = some h → MarkerOf h .bad → KindOf json f .bad
  | ordinary (h) : frameHeader json f = some h → MarkerOf h .none → KindOf json f .ordinary
  | pipe (h n) : frameHeader json f = some h → MarkerOf h (.group n) → KindOf json f (.pipe n)

/-- A complete frame of acceptable size for the limit `max` (no limit if `max ≤ 0`). -/
def Acceptable (max : Int) (f : List UInt8) : Prop :=
  4 ≤ f.length ∧ f.length = 4 + declaredLength f ∧ declaredLength f < 2^31 ∧ (0 < max → (declaredLength f : Int) ≤ max)

/-- What is left of the stream is an incomplete frame (possibly empty), of acceptable size as far as known. -/
def Incomplete (max : Int) (l : List UInt8) : Prop :=
  l.length < 4 ∨ (declaredLength l < 2^31 ∧ (0 < max → (declaredLength l : Int) ≤ max) ∧ l.length < 4 + declaredLength l)

/-- What is left of the stream starts with a frame announcing too many bytes for the limit. -/
def Oversized (max : Int) (l : List UInt8) : Prop :=
  4 ≤ l.length ∧ declaredLength l < 2^31 ∧ 0 < max ∧ max < declaredLength l

/-- What is left of the stream starts with a length that is negative as an `int32`. -/
def NegativeLength (l : List UInt8) : Prop := 4 ≤ l.length ∧ 2^31 ≤ declaredLength l

/-- Position after a sequence of complete frames. -/
inductive Pos where
  | between                              -- the next frame starts a new message
  | inGroup (missing : Nat) (got : List (List UInt8))   -- inside a group, `missing` more frames to come
  | refused                              -- a bad frame was met: nothing more is accepted
deriving DecidableEq, Repr

/-- Largest group for which memory can be requested. -/
def maxGroup : Int := 2^45

/-- The goroutines to be started for a sequence of complete frames whose kinds are given by `kind`, and the position after them. -/
def expected (kind : List UInt8 → Kind) : Pos → List (List UInt8) → List Task × Pos
  | p, [] => ([], p)
  | .refused, _ :: _ => ([], .refused)
  | .between, f :: fs =>
    match kind f with
    | .bad => ([], .refused)
    | .ordinary => let r := expected kind .between fs; (.single f :: r.1, r.2)
    | .pipe n =>
      if n ≤ 0 ∨ maxGroup < n then ([], .refused)
      else if n = 1 then let r := expected kind .between fs; (.group [some f] :: r.1, r.2)
      else expected kind (.inGroup (n.toNat - 1) [f]) fs
  | .inGroup missing got, f :: fs =>
    if missing ≤ 1 then let r := expected kind .between fs; (.group ((got ++ [f]).map some) :: r.1, r.2)
    else expected kind (.inGroup (missing - 1) (got ++ [f])) fs

end Tcpx.Spec
