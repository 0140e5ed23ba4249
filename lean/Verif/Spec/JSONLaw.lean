import Verif.Model.Packx
/-!
# What the theorems assume about `encoding/json`

`JSONCodec.Lawful` is the only assumption made about the header codec; theorems that need it take it as a
hypothesis.  `Verif/Lemmas/DemoCodec.lean` shows it is satisfiable.
-/
namespace Tcpx

/-- Header maps survive encoding: nil stays nil, non-nil stays non-nil, the same keys are present, string values
are kept and other values stay non-strings (numbers may change representation).  Headers holding only strings,
integers and booleans can be encoded. -/
structure JSONCodec.Lawful (j : JSONCodec) : Prop where
  roundtrip : ∀ h bs, j.marshal h = some bs → bs ≠ [] ∧
    ∃ h', j.unmarshal bs = some h' ∧ (h' = none ↔ h = none) ∧
      ∀ k, (h'.get? k).map Any.asString = (h.get? k).map Any.asString
  nil_ok : (j.marshal none).isSome
  simple_ok : ∀ m : HMap, (∀ e ∈ m, (∃ s, e.2 = .str s) ∨ (∃ z, e.2 = .num z) ∨ ∃ b, e.2 = .bool b) →
    (j.marshal (some m)).isSome

end Tcpx

namespace Tcpx.Spec
open Tcpx

/-- The value a key should have after merging several header maps: that of the last map containing the key. -/
def lastWins (hs : List Header) (k : String) : Option Any := hs.reverse.findSome? (fun h => h.get? k)

/-- A header that is a legal Go map: no key twice. -/
def ProperMap (h : Header) : Prop := ∀ m, h = some m → m.keys.Nodup

/-- The names documented for the built-in marshallers (README.md "Pack", marshaller.go doc comment). -/
def marshallerNames : List (String × Builtin) :=
  [("json", .json), ("xml", .xml), ("toml", .toml), ("tml", .toml), ("yaml", .yaml), ("yml", .yaml),
   ("protobuf", .protobuf), ("proto", .protobuf)]

end Tcpx.Spec
