import Verif.Model.Python
import Verif.Lemmas.Codec
import Verif.Lemmas.DemoCodec
/-!
# C98: the Python client and the Go code exchange frames

Statements use `Verif/Spec/Wire.lean`, the modelled Go API and the two functions of the Python client.
-/
namespace Tcpx
open Spec
variable {V : Type}

/-- The bytes the chosen serializer makes of a body. -/
def Spec.PyBody (e : PyEnv V) (serializer : String) (v : V) (bb : Bytes) : Prop :=
  (serializer = "json" ∧ e.dumps v = some bb) ∨ (serializer = "protobuf" ∧ e.serialize v = some bb)

/-- What the chosen serializer makes of these bytes. -/
def Spec.PyBodyOf (e : PyEnv V) (serializer : String) (bb : Bytes) (v : V) : Prop :=
  (serializer = "json" ∧ e.loads bb = some v) ∨ (serializer = "protobuf" ∧ e.parse bb = some v)

theorem pyDump_iff (e : PyEnv V) (ser : String) (v : V) (bb : Bytes) : pyDump e ser v = some bb ↔ PyBody e ser v bb := by
  unfold pyDump PyBody
  by_cases h1 : ser = "json"
  · subst h1; simp
  · by_cases h2 : ser = "protobuf"
    · subst h2; simp
    · simp [h1, h2]

theorem pyLoad_iff (e : PyEnv V) (ser : String) (v : V) (bb : Bytes) : pyLoad e ser bb = some v ↔ PyBodyOf e ser bb v := by
  unfold pyLoad PyBodyOf
  by_cases h1 : ser = "json"
  · subst h1; simp
  · by_cases h2 : ser = "protobuf"
    · subst h2; simp
    · simp [h1, h2]

theorem pyToBytes4_eq (n : Int) : pyToBytes4 n = if 0 ≤ n ∧ n < 2^32 then some (be4 n.toNat) else none := by
  unfold pyToBytes4
  by_cases h : n < 0 ∨ n ≥ 2^32
  · rw [if_pos h, if_neg (by omega)]
  · rw [if_neg h, if_pos (by omega)]
    simp only [be4, Option.some.injEq, List.cons.injEq, and_true]
    refine ⟨?_, ?_, ?_, ?_⟩ <;> (apply UInt8.toNat_inj.1; simp only [UInt8.toNat_ofNat']; omega)

theorem pyToBytes4_nat (n : Nat) : pyToBytes4 (n : Int) = if n < 2^32 then some (be4 n) else none := by
  rw [pyToBytes4_eq]
  by_cases h : n < 2^32
  · rw [if_pos h, if_pos (by omega)]; simp
  · rw [if_neg h, if_neg (by omega)]

/-- C98: exactly what the Python client packs: for ids from 0 to 2^32-1 the documented frame, and nothing otherwise. -/
theorem C98_pack_exact (e : PyEnv V) (ser : String) (msg : PyMessage V) (bs : Bytes) :
    pyPack e ser msg = some bs ↔
      ∃ id hb bb, msg.id = some id ∧ 0 ≤ id ∧ id < 2^32 ∧ e.dumpsHeader msg.header = some hb ∧ PyBody e ser msg.body bb ∧
        payload hb bb < 2^32 ∧ bs = Spec.frame id hb bb := by
  have hpat : ∀ id : Int, 0 ≤ id → id < 2^32 → pattern32 id = id.toNat := by intro id h1 h2; unfold pattern32; omega
  constructor
  · intro h
    unfold pyPack at h
    simp only [Option.bind_eq_bind, Option.bind_eq_some_iff] at h
    obtain ⟨bb, hb', id, hid, ib, hib, hb, hhb, hl, hhl, bl, hbl, ln, hln, h⟩ := h
    rw [pyToBytes4_eq] at hib
    rw [pyToBytes4_nat] at hhl hbl hln
    by_cases h1 : 0 ≤ id ∧ id < 2^32
    · rw [if_pos h1] at hib; cases hib
      by_cases h2 : hb.length < 2^32
      · rw [if_pos h2] at hhl; cases hhl
        by_cases h3 : bb.length < 2^32
        · rw [if_pos h3] at hbl; cases hbl
          simp only [List.length_append, be4_length] at hln
          by_cases h4 : 4 + 4 + 4 + hb.length + bb.length < 2^32
          · rw [if_pos h4] at hln; cases hln
            refine ⟨id, hb, bb, hid, h1.1, h1.2, hhb, (pyDump_iff ..).1 hb', by unfold payload; omega, ?_⟩
            injection h with h
            rw [← h]
            simp [Spec.frame, hpat id h1.1 h1.2, List.append_assoc]
          · rw [if_neg h4] at hln; cases hln
        · rw [if_neg h3] at hbl; cases hbl
      · rw [if_neg h2] at hhl; cases hhl
    · rw [if_neg h1] at hib; cases hib
  · rintro ⟨id, hb, bb, hid, h1, h2, hhb, hbb, hp, rfl⟩
    have hbb := (pyDump_iff ..).2 hbb
    unfold payload at hp
    unfold pyPack
    simp only [hbb, hid, hhb, Option.bind_eq_bind, Option.bind_some, pyToBytes4_nat]
    rw [pyToBytes4_eq, if_pos ⟨h1, h2⟩, if_pos (by omega), if_pos (by omega)]
    have hlen : (be4 id.toNat ++ be4 hb.length ++ be4 bb.length ++ hb ++ bb).length = 12 + hb.length + bb.length := by
      simp only [List.length_append, be4_length]
    simp only [Option.bind_some]
    rw [hlen, if_pos hp]
    simp [Spec.frame, hpat id h1 h2, List.append_assoc]

/-- An environment for examples: header codec of `Demo`, bodies are byte strings. -/
def Demo.pyEnv : PyEnv Bytes :=
  { dumpsHeader := fun h => some (encHeader h), dumps := some, loads := some, serialize := some, parse := some }

example : pyPack Demo.pyEnv "json" { id := some 7, header := none, body := [1, 2] }
    = some [0, 0, 0, 15, 0, 0, 0, 7, 0, 0, 0, 1, 0, 0, 0, 2, 110, 1, 2] := by decide

example := (C98_pack_exact Demo.pyEnv "json" { id := some 7, header := none, body := [1, 2] } _).2
  ⟨7, [110], [1, 2], rfl, by decide, by decide, rfl, Or.inl ⟨rfl, rfl⟩, by decide, rfl⟩

/-- C98 (for ids below 2^31): Go unpacks what the Python client packed, whatever follows it: the same id, the header as Go's json
library reads it, the body as the marshaller reads it.
Missing: larger and negative ids (`C98_big_id_violated`, `C98_negative_violated`). -/
theorem C98_go_reads_partial (e : PyEnv V) (ser : String) (msg : PyMessage V) (bs : Bytes) (hpk : pyPack e ser msg = some bs)
    (hid : ∀ id, msg.id = some id → id < 2^31)
    (env : Env V) (m : Option (Marshaller V)) (dest v : V) (h' : Header) (rest spare : Bytes)
    (hh : ∀ hb, e.dumpsHeader msg.header = some hb → hb ≠ [] ∧ env.json.unmarshal hb = some h')
    (hb : ∀ bb, PyBody e ser msg.body bb → bb ≠ [] ∧ (m.getD (env.builtin .json)).unmarshal bb dest = some v)
    (hsz : bs.length < 2^32) :
    ∃ id : Int32, msg.id = some id.toInt ∧
      unpackWithMarshaller env ⟨bs ++ rest, spare⟩ dest m = .ok { id := id, header := h', body := some v } := by
  obtain ⟨id, hbs, bbs, hi, h0, _, h1, h2, hp, rfl⟩ := (C98_pack_exact e ser msg bs).1 hpk
  have h31 := hid id hi
  rw [frame_length] at hsz
  obtain ⟨hne, hdec⟩ := hh _ h1
  obtain ⟨bne, bdec⟩ := hb _ h2
  have hint : (Int32.ofInt id).toInt = id := by
    rw [Int32.toInt_ofInt_of_le] <;> omega
  refine ⟨Int32.ofInt id, by rw [hint]; exact hi, ?_⟩
  rw [unpack_frame env _ dest m id hbs bbs rest rfl (by omega), if_neg hne, hdec]
  have := id_of_pattern (Int32.ofInt id)
  rw [hint] at this
  simp [orErr, bne, bdec, this]

example := C98_go_reads_partial Demo.pyEnv "protobuf" { id := some 7, header := none, body := [1, 2] } _ rfl
  (by intro id h; cases h; decide) Demo.env none [] [1, 2] none [9] []
  (by intro hb h; cases h; exact ⟨by decide, rfl⟩)
  (by rintro bb (⟨h, _⟩ | ⟨_, h⟩); exact absurd h (by decide); cases h; exact ⟨by decide, rfl⟩) (by decide)

theorem pySlice_range (l : Bytes) (a b : Nat) : pySlice l a b = Spec.range l a b := by
  unfold pySlice Spec.range
  rw [List.drop_take]

theorem pyFromBytes_field (l : Bytes) (k : Nat) (h : k + 4 ≤ l.length) : pyFromBytes (pySlice l k (k + 4)) = fieldAt l k := by
  have hd : ∃ a b c d r, l.drop k = a :: b :: c :: d :: r := by
    have : 4 ≤ (l.drop k).length := by rw [List.length_drop]; omega
    rcases hl : l.drop k with _ | ⟨a, _ | ⟨b, _ | ⟨c, _ | ⟨d, r⟩⟩⟩⟩ <;> rw [hl] at this
    · simp at this
    · simp at this
    · simp at this
    · simp at this
    · exact ⟨_, _, _, _, _, rfl⟩
  obtain ⟨a, b, c, d, r, hd⟩ := hd
  have g : ∀ i, l.getD (k + i) 0 = (l.drop k).getD i 0 := by
    intro i; simp [List.getD_eq_getElem?_getD, List.getElem?_drop]
  have h0 := g 0; have h1 := g 1; have h2 := g 2; have h3 := g 3
  rw [hd] at h0 h1 h2 h3
  simp only [Nat.add_zero] at h0
  rw [pySlice_range]
  unfold Spec.range fieldAt pyFromBytes
  rw [h0, h1, h2, h3, hd, show k + 4 - k = 4 by omega]
  simp [value4]
  omega

/-- C98 (for ids that are not negative): the Python client unpacks what Go packed, whatever follows it.
Missing: negative ids (`C98_negative_violated`), incomplete frames (`C98_truncated_violated`). -/
theorem C98_python_reads_partial (env : Env V) (msg : Message V) (m : Option (Marshaller V)) (bs hb bb rest : Bytes) (v : V)
    (hpk : packWithMarshaller env msg m = .ok bs) (hid : 0 ≤ msg.id.toInt)
    (h1 : env.json.marshal msg.header = some hb)
    (h2 : match msg.body with | none => bb = [] | some v => (m.getD (env.builtin .json)).marshal v = some bb)
    (hsz : payload hb bb < 2^32)
    (e : PyEnv V) (ser : String) (hl : PyBodyOf e ser bb v) :
    ∃ r, pyUnpack e ser (bs ++ rest) = some r ∧ (r.id : Int) = msg.id.toInt ∧ r.header = hb ∧ r.body = v := by
  obtain ⟨hb', bb', g1, g2, rfl⟩ := pack_ok hpk
  rw [h1] at g1; cases g1
  have : bb' = bb := by
    cases hbd : msg.body with
    | none => rw [hbd] at g2 h2; exact g2.trans h2.symm
    | some w => rw [hbd] at g2 h2; exact Option.some.inj (g2.symm.trans h2)
  subst this
  rw [frame_eq_spec _ _ _ hsz]
  have hlen : (Spec.frame msg.id.toInt hb bb' ++ rest).length = 16 + hb.length + bb'.length + rest.length := by
    rw [List.length_append, frame_length]; unfold payload; omega
  generalize hfr : Spec.frame msg.id.toInt hb bb' ++ rest = fr at hlen ⊢
  have f : ∀ k, k + 4 ≤ fr.length - 4 → pyFromBytes (pySlice (fr.drop 4) k (k + 4)) = fieldAt fr (4 + k) := by
    intro k hk
    rw [pyFromBytes_field _ _ (by rw [List.length_drop]; exact hk)]
    have := fieldAt_append_right (fr.take 4) (fr.drop 4) k
    rw [List.take_append_drop, List.length_take, Nat.min_eq_left (by omega)] at this
    exact this.symm
  have e8 := f 4 (by omega)
  have e12 := f 8 (by omega)
  have e4 := f 0 (by omega)
  rw [show 4 + 4 = 8 from rfl] at e8
  rw [show 8 + 4 = 12 from rfl] at e12
  rw [show 0 + 4 = 4 from rfl] at e4
  rw [← hfr, frame_field8 _ _ _ _ hsz, hfr] at e8
  rw [← hfr, frame_field12 _ _ _ _ hsz, hfr] at e12
  rw [← hfr, frame_field4, hfr] at e4
  have hh : pySlice fr 16 (16 + hb.length) = hb := by
    rw [pySlice_range, ← hfr]
    have := frame_header msg.id.toInt hb bb' rest hsz
    unfold declaredHeader declaredHeaderLen at this
    rwa [frame_field8 _ _ _ _ hsz] at this
  have hbo : pySlice fr (16 + hb.length) (16 + hb.length + bb'.length) = bb' := by
    rw [pySlice_range, ← hfr]
    have := frame_body msg.id.toInt hb bb' rest hsz
    unfold declaredBody declaredHeaderLen declaredBodyLen at this
    rwa [frame_field8 _ _ _ _ hsz, frame_field12 _ _ _ _ hsz] at this
  refine ⟨⟨pattern32 msg.id.toInt, hb, v⟩, ?_, ?_, rfl, rfl⟩
  · unfold pyUnpack
    simp only [e8, e12, e4, hh, hbo, (pyLoad_iff ..).2 hl, Option.bind_eq_bind, Option.bind_some]
  · have := msg.id.toInt_lt
    show (pattern32 msg.id.toInt : Int) = msg.id.toInt
    unfold pattern32
    omega

example := C98_python_reads_partial Demo.env { id := 7, header := none, body := some [1, 2] } none _ [110] [1, 2] [9] [1, 2] rfl (by decide)
  rfl rfl (by decide) Demo.pyEnv "json" (Or.inl ⟨rfl, rfl⟩)

/-- C98 fails for negative ids: the Python client cannot pack them, and reads those packed by Go as other numbers.
protocol.py:27, 45. -/
theorem C98_negative_violated :
    (∀ (V : Type) (e : PyEnv V) (ser : String) (msg : PyMessage V) (id : Int), msg.id = some id → id < 0 → pyPack e ser msg = none) ∧
    ∃ (msg : Message Bytes) (bs : Bytes), packWithMarshaller Demo.env msg none = .ok bs ∧ msg.id = -1 ∧
      ∃ r, pyUnpack Demo.pyEnv "json" bs = some r ∧ r.id = 4294967295 := by
  constructor
  · intro V e ser msg id h hneg
    cases hp : pyPack e ser msg with
    | none => rfl
    | some bs =>
      obtain ⟨id', _, _, h', h0, _⟩ := (C98_pack_exact e ser msg bs).1 hp
      rw [h] at h'; cases h'
      omega
  · exact ⟨{ id := -1, header := none, body := some [1, 2] }, _, rfl, rfl, _, rfl, by decide⟩

/-- C98 fails for ids from 2^31: Go reads them as negative numbers. protocol.py:27. -/
theorem C98_big_id_violated :
    ∃ (msg : PyMessage Bytes) (bs : Bytes), pyPack Demo.pyEnv "json" msg = some bs ∧ msg.id = some (2^32 - 1) ∧
      messageIDOf ⟨bs, []⟩ = .ok (-1) := by
  refine ⟨{ id := some (2^32 - 1), header := none, body := [1, 2] }, _, rfl, rfl, by decide⟩

/-- C98 fails on incomplete frames: slices are cut off silently, so of a frame that lacks its last byte the Python client makes a message
with another body (say the number 1 of the number 12). protocol.py:46-48. -/
theorem C98_truncated_violated :
    ∃ (msg : Message Bytes) (bs cut : Bytes), packWithMarshaller Demo.env msg none = .ok bs ∧ cut = bs.dropLast ∧ msg.body = some [49, 50] ∧
      ∃ r, pyUnpack Demo.pyEnv "json" cut = some r ∧ r.body = [49] ∧
        unpackWithMarshaller Demo.env ⟨cut, []⟩ [] none = .panic := by
  refine ⟨{ id := 1, header := none, body := some [49, 50] }, _, _, rfl, rfl, rfl, _, rfl, by decide, rfl⟩

end Tcpx
