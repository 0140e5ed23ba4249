import Verif.Props.Reading
import Verif.Props.Codec
/-!
# Further theorems for C04, C09 and C12: `UnPackFromReader` on bad streams, `PackStuff` without a usable json library
-/
namespace Tcpx
open Spec

/-- C04, caveat: if the nil header cannot be encoded, `PackStuff` and `PackHeartbeat` panic instead of returning an error. -/
theorem C04_unencodable_limit (json : JSONCodec) (id : Int32) (h : json.marshal none = none) :
    packStuff json id = .panic ∧ packHeartbeat json = .panic := by
  simp [packStuff, packHeartbeat, packWithMarshallerAndBody, h, orPanic, orErr]

example : ∃ json : JSONCodec, json.marshal none = none := ⟨{ Demo.json with marshal := fun _ => none }, rfl⟩

/-- C09: `UnPackFromReader` on a truncated stream waits, or returns an error, which says that the stream has ended if it has. -/
theorem C09_unPackFromReader (json : JSONCodec) (r : Reader) (hL : declaredLength (stream r).1 < 2^31)
    (hlen : (stream r).1.length < 4 ∨ (stream r).1.length < 4 + declaredLength (stream r).1) :
    match (stream r).2 with
    | .stillOpen => unPackFromReader json (some r) = .block
    | .closed => ∃ r', unPackFromReader json (some r) = .err .eof r'
    | .failed => ∃ e r', unPackFromReader json (some r) = .err e r' ∧ e ≠ .eof
    | .closedWith _ => True := by
  have key := C09_truncated r hL hlen
  have hu : ∀ o, firstBlockOf (some r) = o → unpackToBlockFromReader (some r) = o := fun o h => h
  cases he : (stream r).2 with
  | stillOpen =>
    rw [he] at key
    simp only [unPackFromReader, hu _ key, ReadOut.lift]
  | closed =>
    rw [he] at key
    obtain ⟨r', h⟩ := key
    exact ⟨r', by simp only [unPackFromReader, hu _ h, ReadOut.lift]⟩
  | failed =>
    rw [he] at key
    obtain ⟨e, r', h, hn⟩ := key
    exact ⟨e, r', by simp only [unPackFromReader, hu _ h, ReadOut.lift], hn⟩
  | closedWith l => trivial

/-- Six bytes of a frame of which fourteen are announced, in two pieces, before the stream ends. -/
example : let r : Reader := [.chunk [0, 0, 0], .chunk [14, 0, 0], .eof]
    stream r = ([0, 0, 0, 14, 0, 0], .closed) ∧ declaredLength (stream r).1 = 14 ∧ (stream r).1.length < 4 + declaredLength (stream r).1 := by
  decide

/-- C12 is false of `UnPackFromReader` too: it panics on an announced length of 2^31 or more. -/
theorem C12_unPackFromReader_violated (json : JSONCodec) (r : Reader) (h4 : 4 ≤ (stream r).1.length)
    (hL : 2^31 ≤ declaredLength (stream r).1) : unPackFromReader json (some r) = .panic := by
  have h : unpackToBlockFromReader (some r) = .panic := (C12_negative_length_violated r 0 h4 hL).1
  simp only [unPackFromReader, h, ReadOut.lift]

example : let r : Reader := [.chunk [255, 0], .chunk [0, 1, 7]]
    4 ≤ (stream r).1.length ∧ 2^31 ≤ declaredLength (stream r).1 := by decide

end Tcpx
