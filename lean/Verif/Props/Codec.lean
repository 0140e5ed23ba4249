import Verif.Lemmas.Codec
import Verif.Lemmas.DemoCodec
/-!
# C01–C07, C11, C13–C15: the wire format

Statements use only `Verif/Spec/Wire.lean`, `Verif/Spec/JSONLaw.lean` and the modelled API.
-/
namespace Tcpx
open Spec
variable {V : Type}

/-- The bytes a body is encoded as: nothing for a nil body, else what the chosen marshaller produces
(json if none is chosen). -/
def Spec.BodyEnc (env : Env V) (m : Option (Marshaller V)) (body : Option V) (bb : Bytes) : Prop :=
  (body = none ∧ bb = []) ∨ ∃ v, body = some v ∧
    ((m = none ∧ env.enc .json v = some bb) ∨ ∃ m', m = some m' ∧ m'.marshal v = some bb)

theorem bodyEnc_of {env : Env V} {m : Option (Marshaller V)} {body : Option V} {bb : Bytes}
    (h : match body with | none => bb = [] | some v => (m.getD (env.builtin .json)).marshal v = some bb) :
    BodyEnc env m body bb := by
  cases body with
  | none => exact Or.inl ⟨rfl, h⟩
  | some v =>
    refine Or.inr ⟨v, rfl, ?_⟩
    cases m with
    | none => exact Or.inl ⟨rfl, h⟩
    | some m' => exact Or.inr ⟨m', rfl, h⟩

/-! ## C01 -/

/-- C01: whatever packing returns has the documented layout. -/
theorem C01_pack_layout (env : Env V) (msg : Message V) (m : Option (Marshaller V)) (bs : Bytes)
    (h : packWithMarshaller env msg m = .ok bs) :
    ∃ hb bb, env.json.marshal msg.header = some hb ∧ BodyEnc env m msg.body bb ∧
      (payload hb bb < 2^32 → bs = Spec.frame msg.id.toInt hb bb) := by
  obtain ⟨hb, bb, h1, h2, h3⟩ := pack_ok h
  exact ⟨hb, bb, h1, bodyEnc_of h2, fun hs => h3.trans (frame_eq_spec _ _ _ hs)⟩

example := C01_pack_layout Demo.env { id := -7, header := some [("a", .num 3)], body := some [1, 2] } none _ rfl

/-- C01: packing succeeds exactly when header and body can be encoded, and never panics. -/
theorem C01_pack_succeeds (env : Env V) (msg : Message V) (m : Option (Marshaller V)) (hb bb : Bytes)
    (h1 : env.json.marshal msg.header = some hb) (h2 : BodyEnc env m msg.body bb)
    (hs : payload hb bb < 2^32) :
    packWithMarshaller env msg m = .ok (Spec.frame msg.id.toInt hb bb) := by
  rw [← frame_eq_spec _ _ _ hs]
  unfold packWithMarshaller
  simp only [h1, orErr, Res.bind_ok]
  rcases h2 with ⟨h, rfl⟩ | ⟨v, hv, h⟩
  · simp [h]
  · simp only [hv]
    rcases h with ⟨rfl, h⟩ | ⟨m', rfl, h⟩
    · simp [Env.builtin, h]
    · simp [h]

example := C01_pack_succeeds Demo.env { id := -7, header := none, body := some [1, 2] } none [110] [1, 2] rfl
  (Or.inr ⟨_, rfl, Or.inl ⟨rfl, rfl⟩⟩) (by decide)

/-- C01: the same layout for `PackWithBody` and for the signal packers' common function. -/
theorem C01_packWithBody_layout (json : JSONCodec) (id : Int32) (header : Header) (body hb : Bytes)
    (h1 : json.marshal header = some hb) (hs : payload hb body < 2^32) :
    packWithMarshallerAndBody json id header body = .ok (Spec.frame id.toInt hb body) := by
  simp [packWithMarshallerAndBody, h1, orErr, frame_eq_spec _ _ _ hs]

-- non-vacuity: a message with a negative id, a header and a two-byte body
example : ∃ bs, packWithMarshaller Demo.env { id := -7, header := some [("a", .num 3)], body := some [1, 2] } none = .ok bs :=
  ⟨_, rfl⟩
example : payload (Demo.encHeader none) [1, 2] < 2^32 := by decide
example : BodyEnc Demo.env none (some [1,2]) [1,2] := Or.inr ⟨_, rfl, Or.inl ⟨rfl, rfl⟩⟩

/-! ## C02 -/

/-- C02: on a frame (followed by anything) every accessor reports the field that was packed. -/
theorem C02_accessors (s : Slice) (id : Int32) (hb bb rest : Bytes)
    (hs : s.live = Spec.frame id.toInt hb bb ++ rest) (hp : payload hb bb < 2^31 - 4) :
    (∃ v, lengthOf s = .ok v ∧ v.toInt = (payload hb bb : Int)) ∧
    messageIDOf s = .ok id ∧
    (∃ v, headerLengthOf s = .ok v ∧ v.toInt = (hb.length : Int)) ∧
    (∃ v, bodyLengthOf s = .ok v ∧ v.toInt = (bb.length : Int)) ∧
    (∃ t, headerBytesOf s = .ok t ∧ t.live = hb) ∧
    (∃ t, bodyBytesOf s = .ok t ∧ t.live = bb) := by
  have hp' : payload hb bb < 2^32 := by omega
  have hlen : s.len = 4 + payload hb bb + rest.length := by
    unfold Slice.len; rw [hs, List.length_append, frame_length]
  have e8 : declaredHeaderLen s.live = hb.length := by
    unfold declaredHeaderLen; rw [hs]; exact frame_field8 _ _ _ _ hp'
  have e12 : declaredBodyLen s.live = bb.length := by
    unfold declaredBodyLen; rw [hs]; exact frame_field12 _ _ _ _ hp'
  have eh : declaredHeader s.live = hb := by rw [hs]; exact frame_header _ _ _ _ hp'
  have eb : declaredBody s.live = bb := by rw [hs]; exact frame_body _ _ _ _ hp'
  have hpl : payload hb bb = 12 + hb.length + bb.length := rfl
  refine ⟨?_, ?_, ?_, ?_, ?_, ?_⟩
  · rw [lengthOf_eq, if_neg (by omega)]
    refine ⟨_, rfl, ?_⟩
    apply declared_toInt
    · rw [hs]; exact frame_field0 _ _ _ _ hp'
    · omega
  · rw [messageIDOf_eq, if_neg (by omega), hs, frame_field4, id_of_pattern]
  · rw [headerLengthOf_eq, if_neg (by omega)]
    exact ⟨_, rfl, declared_toInt _ _ _ e8 (by omega)⟩
  · rw [bodyLengthOf_eq, if_neg (by omega)]
    exact ⟨_, rfl, declared_toInt _ _ _ e12 (by omega)⟩
  · rw [headerBytesOf_small _ (by rw [e8]; omega), e8, if_neg (by omega)]
    exact ⟨_, rfl, eh⟩
  · rw [bodyBytesOf_small _ (by rw [e8, e12]; omega), e8, e12, if_neg (by omega)]
    exact ⟨_, rfl, eb⟩

example := C02_accessors ⟨Spec.frame (-7) [123, 0] [1, 2] ++ [9], [5]⟩ (-7) [123, 0] [1, 2] [9] rfl (by decide)

/-- C02: the same, stated on the output of packing; the decoded header is what the json library makes of the
encoded header. -/
theorem C02_accessors_of_packed (env : Env V) (msg : Message V) (m : Option (Marshaller V)) (bs hb bb rest : Bytes)
    (spare : Bytes) (hpk : packWithMarshaller env msg m = .ok bs)
    (h1 : env.json.marshal msg.header = some hb) (h2 : BodyEnc env m msg.body bb) (hp : payload hb bb < 2^31 - 4) :
    messageIDOf ⟨bs ++ rest, spare⟩ = .ok msg.id ∧
    (∃ t, headerBytesOf ⟨bs ++ rest, spare⟩ = .ok t ∧ t.live = hb) ∧
    (∃ t, bodyBytesOf ⟨bs ++ rest, spare⟩ = .ok t ∧ t.live = bb) ∧
    (∀ h', env.json.unmarshal hb = some h' → headerOf env.json ⟨bs ++ rest, spare⟩ = .ok h') := by
  rw [C01_pack_succeeds env msg m hb bb h1 h2 (by omega)] at hpk
  injection hpk with hpk
  subst hpk
  obtain ⟨_, a2, _, _, a5, a6⟩ := C02_accessors ⟨_, spare⟩ msg.id hb bb rest rfl hp
  refine ⟨a2, a5, a6, ?_⟩
  intro h' hh
  obtain ⟨t, ht, hl⟩ := a5
  simp [headerOf, ht, hl, hh, orErr]

example : (⟨Spec.frame (-7) [123, 0] [1, 2] ++ [9], []⟩ : Slice).live = Spec.frame (-7 : Int32).toInt [123, 0] [1, 2] ++ [9] ∧
    payload [123, 0] [1, 2] < 2^31 - 4 := by decide

/-! ## C03 -/

/-- C03: unpacking what was packed gives back id, header (as the json library decodes its own output) and body,
for every marshaller that decodes its own encoding of this value.  If the encoding is empty the destination is not
touched. -/
theorem C03_unpack_pack (env : Env V) (msg : Message V) (m : Option (Marshaller V)) (bs hb bb spare rest : Bytes)
    (v dest : V) (h' : Header)
    (hpk : packWithMarshaller env msg m = .ok bs)
    (h1 : env.json.marshal msg.header = some hb) (hne : hb ≠ []) (hdec : env.json.unmarshal hb = some h')
    (hbody : msg.body = some v) (h2 : BodyEnc env m msg.body bb)
    (hm : bb ≠ [] → (m.getD (env.builtin .json)).unmarshal bb dest = some v) (hm0 : bb = [] → dest = v)
    (hp : payload hb bb + 4 < 2^32) :
    unpackWithMarshaller env ⟨bs ++ rest, spare⟩ dest m = .ok { id := msg.id, header := h', body := msg.body } := by
  rw [hbody]
  rw [C01_pack_succeeds env msg m hb bb h1 h2 (by omega)] at hpk
  injection hpk with hpk
  subst hpk
  rw [unpack_frame env _ dest m msg.id.toInt hb bb rest rfl hp, if_neg hne, hdec]
  simp only [orErr, Res.bind_ok, id_of_pattern]
  by_cases hb0 : bb = []
  · simp [hb0, hm0 hb0]
  · simp [hb0, hm hb0]

example := C03_unpack_pack Demo.env { id := -7, header := none, body := some [1, 2] } none _ [110] [1, 2] [] [9] [1, 2] []
  none rfl rfl (by decide) rfl rfl (Or.inr ⟨_, rfl, Or.inl ⟨rfl, rfl⟩⟩) (fun _ => rfl) (by decide) (by decide)

/-- C03: with a lawful json library the header read back answers every string look-up like the header packed, and a
nil body leaves the destination alone. -/
theorem C03_unpack_pack_header (env : Env V) (hj : env.json.Lawful) (msg : Message V) (m : Option (Marshaller V))
    (bs spare rest : Bytes) (dest : V) (hpk : packWithMarshaller env msg m = .ok bs) (hbody : msg.body = none)
    (hsz : ∀ hb, env.json.marshal msg.header = some hb → payload hb [] + 4 < 2^32) :
    ∃ h', unpackWithMarshaller env ⟨bs ++ rest, spare⟩ dest m = .ok { id := msg.id, header := h', body := some dest } ∧
      (h' = none ↔ msg.header = none) ∧
      ∀ k, (h'.get? k).map Any.asString = (msg.header.get? k).map Any.asString := by
  obtain ⟨hb, bb, h1, h2, h3⟩ := C01_pack_layout env msg m bs hpk
  have hbb : bb = [] := by
    rcases h2 with ⟨_, h⟩ | ⟨v, hv, _⟩
    · exact h
    · rw [hbody] at hv; cases hv
  subst hbb
  have hps := hsz hb h1
  have h3 := h3 (by omega)
  subst h3
  obtain ⟨hne, h', hd, hn, hk⟩ := hj.roundtrip _ _ h1
  refine ⟨h', ?_, hn, hk⟩
  rw [unpack_frame env _ dest m msg.id.toInt hb [] rest rfl hps, if_neg hne, hd, id_of_pattern]
  simp [orErr]

example := C03_unpack_pack_header Demo.env Demo.json_lawful { id := -7, header := none, body := none } none _ [] [9] [3] rfl rfl
  (by intro hb h; cases h; decide)

-- non-vacuity
example : ∃ bs, packWithMarshaller Demo.env { id := -7, header := none, body := some [1, 2] } none = .ok bs ∧
    Demo.env.json.marshal none = some [110] ∧ Demo.env.json.unmarshal [110] = some none ∧
    BodyEnc Demo.env none (some [1,2]) [1,2] ∧
    ((none : Option (Marshaller Bytes)).getD (Demo.env.builtin .json)).unmarshal [1,2] [] = some [1,2] :=
  ⟨_, rfl, rfl, rfl, Or.inr ⟨_, rfl, Or.inl ⟨rfl, rfl⟩⟩, rfl⟩

/-- C03, caveat: a value whose encoding is empty (protobuf default message, empty toml) is *not* decoded: a reused
destination keeps its stale value.  Full claim ("for any destination") fails. -/
theorem C03_stale_destination_limit :
    ∃ (env : Env Bytes) (msg : Message Bytes) (bs : Bytes) (stale : Bytes),
      packWithMarshaller env msg none = .ok bs ∧ msg.body = some [] ∧
      (∀ d, (env.builtin .json).unmarshal [] d = some []) ∧
      ∃ r, unpackWithMarshaller env ⟨bs, []⟩ stale none = .ok r ∧ r.body ≠ some [] := by
  refine ⟨Demo.env, { id := 1, header := none, body := some [] }, _, [5], rfl, rfl, fun _ => rfl, _, rfl, ?_⟩
  decide

/-! ## C04 -/

/-- C04: `PackStuff` yields a body-less frame with nil header for every id. -/
theorem C04_packStuff (json : JSONCodec) (id : Int32) (hb : Bytes) (h : json.marshal none = some hb)
    (hs : payload hb [] + 4 < 2^32) : packStuff json id = .ok (Spec.frame id.toInt hb []) := by
  unfold packStuff
  rw [C01_packWithBody_layout json id none [] hb h (by omega)]
  rfl

example := C04_packStuff Demo.json (-7) [110] rfl (by decide)

/-- C04: the default heartbeat is the signal frame of id 1392. -/
theorem C04_packHeartbeat (json : JSONCodec) (hb : Bytes) (h : json.marshal none = some hb) (hs : payload hb [] + 4 < 2^32) :
    packHeartbeat json = .ok (Spec.frame 1392 hb []) := by
  unfold packHeartbeat
  rw [C01_packWithBody_layout json _ none [] hb h (by omega)]
  rfl

example := C04_packHeartbeat Demo.json [110] rfl (by decide)

/-- C04: any signal frame can be unpacked with any marshaller and any destination; the destination is untouched and
the id is recovered. -/
theorem C04_signal_unpacks (env : Env V) (hj : env.json.Lawful) (id : Int32) (hb spare rest : Bytes) (dest : V)
    (m : Option (Marshaller V)) (h : env.json.marshal none = some hb) (hs : payload hb [] + 4 < 2^32) :
    ∃ bs, packStuff env.json id = .ok bs ∧ messageIDOf ⟨bs ++ rest, spare⟩ = .ok id ∧
      unpackWithMarshaller env ⟨bs ++ rest, spare⟩ dest m = .ok { id := id, header := none, body := some dest } := by
  refine ⟨_, C04_packStuff env.json id hb h hs, ?_, ?_⟩
  · rw [messageIDOf_eq, if_neg, frame_field4, id_of_pattern]
    unfold Slice.len; rw [List.length_append, frame_length]; unfold payload; omega
  · obtain ⟨hne, h', hd, hn, _⟩ := hj.roundtrip _ _ h
    rw [unpack_frame env _ dest m id.toInt hb [] rest rfl (by omega), if_neg hne, hd, hn.mpr rfl, id_of_pattern]
    simp [orErr]

example : Demo.env.json.marshal none = some [110] ∧ Demo.env.json.Lawful := ⟨rfl, Demo.json_lawful⟩

/-! ## C05 -/

/-- C05: packing pre-encoded bytes is the same as packing the value they encode, and the bytes come out verbatim. -/
theorem C05_packWithBody (env : Env V) (m : Marshaller V) (id : Int32) (v : V) (bb : Bytes) (headers : List Header)
    (h : m.marshal v = some bb) :
    packxPackWithBody env.json id bb headers = packxPack env m id (some v) headers := by
  unfold packxPackWithBody packxPack packWithMarshallerAndBody packWithMarshaller
  split <;> simp [h, orErr]

example := C05_packWithBody Demo.env (Demo.env.builtin .json) 5 [7, 8] [7, 8] [some [("k", .str "v")], none] rfl

theorem C05_body_verbatim (json : JSONCodec) (id : Int32) (bb bs hb spare : Bytes) (headers : List Header)
    (h : packxPackWithBody json id bb headers = .ok bs)
    (hh : json.marshal (some (if headers = [] then [] else mergeHeaders headers)) = some hb)
    (hs : payload hb bb < 2^31 - 4) :
    (∃ t, bodyBytesOf ⟨bs, spare⟩ = .ok t ∧ t.live = bb) ∧ messageIDOf ⟨bs, spare⟩ = .ok id := by
  have : bs = Spec.frame id.toInt hb bb := by
    unfold packxPackWithBody at h
    split at h <;> rename_i he <;> simp only [he, if_true, if_false] at hh <;>
      rw [C01_packWithBody_layout json id _ bb hb hh (by omega)] at h <;> injection h with h <;> exact h.symm
  subst this
  have := C02_accessors ⟨Spec.frame id.toInt hb bb ++ [], spare⟩ id hb bb [] rfl hs
  rw [List.append_nil] at this
  exact ⟨this.2.2.2.2.2, this.2.1⟩

example : ∃ bs, packxPackWithBody Demo.json 5 [7, 8] [some [("k", .str "v")], none] = .ok bs := ⟨_, rfl⟩

/-! ## C06 -/

/-- C06: with several headers, each key gets the value of the last header containing it, and no other key appears.
The iteration order of the maps (the order of the association lists) is irrelevant. -/
theorem C06_header_merge (env : Env V) (m : Marshaller V) (id : Int32) (src : Option V) (headers : List Header)
    (hne : headers ≠ []) (hp : ∀ h ∈ headers, ProperMap h) :
    ∃ merged : HMap, (∀ k, Header.get? (some merged) k = lastWins headers k) ∧
      packxPack env m id src headers = packWithMarshaller env { id := id, header := some merged, body := src } (some m) ∧
      ∀ body, packxPackWithBody env.json id body headers = packWithMarshallerAndBody env.json id (some merged) body := by
  refine ⟨mergeHeaders headers, ?_, ?_, ?_⟩
  · intro k
    have := get?_mergeHeaders headers hp [] k
    simpa [Header.get?, mergeHeaders] using this
  · unfold packxPack; rw [if_neg hne]
  · intro body; unfold packxPackWithBody; rw [if_neg hne]

example := C06_header_merge Demo.env (Demo.env.builtin .json) 5 (some [7])
  [some [("a", .num 1), ("b", .num 2)], none, some [("a", .num 3)]] (by decide)
  (by intro h hh; simp only [List.mem_cons, List.not_mem_nil, or_false] at hh; rcases hh with rfl | rfl | rfl <;> simp [ProperMap, GoMap.keys])

/-- C06: without headers an empty (non-nil) header is sent. -/
theorem C06_no_header (env : Env V) (m : Marshaller V) (id : Int32) (src : Option V) :
    packxPack env m id src [] = packWithMarshaller env { id := id, header := some [], body := src } (some m) := rfl

example : lastWins [some [("a", .num 1), ("b", .num 2)], none, some [("a", .num 3)]] "a" = some (.num 3) ∧
    lastWins [some [("a", .num 1), ("b", .num 2)], none, some [("a", .num 3)]] "b" = some (.num 2) := by decide

/-! ## C07 -/

/-- C07: `FirstBlockOfBytes` cuts exactly the first frame off any byte string that starts with one. -/
theorem C07_first_frame (id : Int) (h b rest spare : Bytes) (hp : payload h b < 2^32) :
    ∃ t, firstBlockOfBytes ⟨Spec.frame id h b ++ rest, spare⟩ = .ok t ∧ t.live = Spec.frame id h b := by
  rw [firstBlockOfBytes_eq]
  have e : declaredLength (Spec.frame id h b ++ rest) = payload h b := frame_field0 _ _ _ _ hp
  have l := frame_length id h b
  simp only [Slice.len, List.length_append, e]
  rw [if_neg (by unfold payload at *; omega)]
  exact ⟨_, rfl, by simp [← l]⟩

example := C07_first_frame (-7) [123, 0] [1, 2] [9] [] (by decide)

/-- C07: frames are self-delimiting: a concatenation of frames determines the sequence of frames, including the
id, header and body of each. -/
theorem C07_self_delimiting (fs gs : List (Int32 × Bytes × Bytes))
    (hf : ∀ f ∈ fs, payload f.2.1 f.2.2 < 2^32) (hg : ∀ g ∈ gs, payload g.2.1 g.2.2 < 2^32)
    (h : (fs.map (fun f => Spec.frame f.1.toInt f.2.1 f.2.2)).flatten
       = (gs.map (fun g => Spec.frame g.1.toInt g.2.1 g.2.2)).flatten) : fs = gs := by
  induction fs generalizing gs with
  | nil =>
    cases gs with
    | nil => rfl
    | cons g gs =>
      have := congrArg List.length h
      simp [frame_length, payload] at this; omega
  | cons f fs ih =>
    cases gs with
    | nil =>
      have := congrArg List.length h
      simp [frame_length, payload] at this
    | cons g gs =>
      simp only [List.map_cons, List.flatten_cons] at h
      obtain ⟨fi, fh, fb⟩ := f
      obtain ⟨gi, gh, gb⟩ := g
      have pf := hf _ List.mem_cons_self
      have pg := hg _ List.mem_cons_self
      simp only at pf pg h
      have e4 := congrArg (fun l => fieldAt l 4) h
      simp only [frame_field4] at e4
      have eh := congrArg declaredHeader h
      rw [frame_header _ _ _ _ pf, frame_header _ _ _ _ pg] at eh
      have eb := congrArg declaredBody h
      rw [frame_body _ _ _ _ pf, frame_body _ _ _ _ pg] at eb
      have ei : fi = gi := by rw [← id_of_pattern fi, ← id_of_pattern gi, e4]
      subst eh eb ei
      have hr := List.append_cancel_left h
      rw [ih gs (fun f hf' => hf f (List.mem_cons_of_mem _ hf')) (fun g hg' => hg g (List.mem_cons_of_mem _ hg')) hr]

example : ∀ f ∈ [((5 : Int32), [1], [2, 3]), (-1, [], [])], payload f.2.1 f.2.2 < 2^32 := by decide

/-! ## C11 -/

/-- C11 (partial): with declared lengths below 2^31 (no 32-bit overflow) every accessor returns an error or exactly
the declared field / region; none panics or blocks, for arbitrary byte strings.  Missing: larger declared lengths,
where the claim is false (`C11_header_panic_violated`). -/
theorem C11_accessors_total_partial (s : Slice)
    (hn : declaredHeaderLen s.live + declaredBodyLen s.live < 2^31 - 16) :
    (lengthOf s = .err .short ∨ ∃ v, lengthOf s = .ok v ∧ v.toInt = signed32 (declaredLength s.live)) ∧
    (messageIDOf s = .err .short ∨ ∃ v, messageIDOf s = .ok v ∧ v.toInt = declaredId s.live) ∧
    (headerLengthOf s = .err .short ∨ ∃ v, headerLengthOf s = .ok v ∧ v.toInt = declaredHeaderLen s.live) ∧
    (bodyLengthOf s = .err .short ∨ ∃ v, bodyLengthOf s = .ok v ∧ v.toInt = declaredBodyLen s.live) ∧
    (headerBytesOf s = .err .short ∧ s.len < 16 + declaredHeaderLen s.live ∨
      ∃ t, headerBytesOf s = .ok t ∧ t.live = declaredHeader s.live ∧ t.len = declaredHeaderLen s.live) ∧
    (bodyBytesOf s = .err .short ∧ s.len < 16 + declaredHeaderLen s.live + declaredBodyLen s.live ∨
      ∃ t, bodyBytesOf s = .ok t ∧ t.live = declaredBody s.live ∧ t.len = declaredBodyLen s.live) := by
  refine ⟨?_, ?_, ?_, ?_, ?_, ?_⟩
  · rw [lengthOf_eq]; split
    · exact Or.inl rfl
    · exact Or.inr ⟨_, rfl, toInt32_toInt _ (fieldAt_lt _ _)⟩
  · rw [messageIDOf_eq]; split
    · exact Or.inl rfl
    · exact Or.inr ⟨_, rfl, toInt32_toInt _ (fieldAt_lt _ _)⟩
  · rw [headerLengthOf_eq]; split
    · exact Or.inl rfl
    · exact Or.inr ⟨_, rfl, declared_toInt _ _ _ rfl (show declaredHeaderLen s.live < 2^31 by omega)⟩
  · rw [bodyLengthOf_eq]; split
    · exact Or.inl rfl
    · exact Or.inr ⟨_, rfl, declared_toInt _ _ _ rfl (show declaredBodyLen s.live < 2^31 by omega)⟩
  · rw [headerBytesOf_small s (by omega)]; split
    · rename_i h; exact Or.inl ⟨rfl, h⟩
    · rename_i h
      refine Or.inr ⟨_, rfl, rfl, ?_⟩
      unfold Slice.len at *; unfold declaredHeader Spec.range
      simp only [List.length_take, List.length_drop]; omega
  · rw [bodyBytesOf_small s hn]; split
    · rename_i h; exact Or.inl ⟨rfl, h⟩
    · rename_i h
      refine Or.inr ⟨_, rfl, rfl, ?_⟩
      unfold Slice.len at *; unfold declaredBody Spec.range
      simp only [List.length_take, List.length_drop]; omega

example := C11_accessors_total_partial ⟨Spec.frame 3 [1, 2] [3, 4, 5] ++ [9], []⟩ (by decide)

/-- C11: the four fixed-field accessors never panic, on any input. -/
theorem C11_fixed_fields_total (s : Slice) :
    lengthOf s ≠ .panic ∧ messageIDOf s ≠ .panic ∧ headerLengthOf s ≠ .panic ∧ bodyLengthOf s ≠ .panic := by
  rw [lengthOf_eq, messageIDOf_eq, headerLengthOf_eq, bodyLengthOf_eq]
  refine ⟨?_, ?_, ?_, ?_⟩ <;> split <;> simp

/-- C11 is false: a 16-byte block announcing header length 0xFFFFFFFF makes `HeaderBytesOf` (hence `HeaderOf`,
`RouteTypeOf`, `URLPatternOf`, for every json library) panic. -/
theorem C11_header_panic_violated :
    let s : Slice := { live := [0,0,0,12, 0,0,0,1, 255,255,255,255, 0,0,0,0] }
    headerBytesOf s = .panic ∧ ∀ json, headerOf json s = .panic ∧ routeTypeOf json s = .panic ∧ urlPatternOf json s = .panic := by
  have h : headerBytesOf { live := [0,0,0,12, 0,0,0,1, 255,255,255,255, 0,0,0,0] } = .panic := by decide
  refine ⟨h, fun json => ?_⟩
  have h2 : headerOf json { live := [0,0,0,12, 0,0,0,1, 255,255,255,255, 0,0,0,0] } = .panic := by
    simp [headerOf, h]
  simp [h2, routeTypeOf, urlPatternOf]

/-- C11: exactly which inputs crash `HeaderBytesOf`: those long enough for a declared length of at least 2^31 - 16
(read as signed). -/
theorem C11_header_panic_iff (s : Slice) :
    headerBytesOf s = .panic ↔
      12 ≤ s.len ∧ 16 + signed32 (declaredHeaderLen s.live) ≤ s.len ∧ 2^31 - 16 ≤ declaredHeaderLen s.live := by
  by_cases hn : declaredHeaderLen s.live < 2^31 - 16
  · rw [headerBytesOf_small s hn]
    split <;> simp <;> intros <;> omega
  · have hle : 2^31 - 16 ≤ declaredHeaderLen s.live := by omega
    have h16i : (16 : Int32).toInt = 16 := by decide
    have hlt := fieldAt_lt s.live 8
    have hle' : 2^31 - 16 ≤ fieldAt s.live 8 := hle
    unfold headerBytesOf
    rw [headerLengthOf_eq]
    by_cases h12 : s.len < 12
    · rw [if_pos h12]; simp; omega
    · rw [if_neg h12, Res.bind_ok]
      simp only [toInt32_toInt _ (fieldAt_lt s.live 8)]
      have hw : (16 + (UInt32.ofNat (fieldAt s.live 8)).toInt32 : Int32).toInt < 16 := by
        rw [Int32.toInt_add, h16i, toInt32_toInt _ hlt]
        unfold signed32
        generalize fieldAt s.live 8 = n at *
        split
        · rw [Int.bmod_def]; split <;> omega
        · rw [Int.bmod_def]; split <;> omega
      show (if (s.len : Int) < 16 + signed32 (fieldAt s.live 8) then _ else _) = _ ↔ 12 ≤ s.len ∧
        16 + signed32 (fieldAt s.live 8) ≤ s.len ∧ 2^31 - 16 ≤ fieldAt s.live 8
      by_cases hc : (s.len : Int) < 16 + signed32 (fieldAt s.live 8)
      · rw [if_pos hc]; simp; omega
      · rw [if_neg hc, sub_bad (by omega)]
        simp only [true_iff]
        omega

example : headerBytesOf ⟨List.replicate 16 255, []⟩ = .panic :=
  (C11_header_panic_iff _).mpr (by decide)

/-- C11: besides crashing, `BodyBytesOf` can return bytes that are not the body at all: declared header length -16,
body length 16 returns the 16 fixed bytes. -/
theorem C11_body_misread_violated :
    ∃ s t, bodyBytesOf s = .ok t ∧ t.live = s.live.take 16 ∧ declaredBody s.live = [] := by
  refine ⟨{ live := [0,0,0,12, 0,0,0,1, 255,255,255,240, 0,0,0,16] }, { live := [0,0,0,12, 0,0,0,1, 255,255,255,240, 0,0,0,16] }, ?_, ?_, ?_⟩
  · decide
  · decide
  · decide

example : declaredHeaderLen (Spec.frame 3 [1,2] [3,4,5]) + declaredBodyLen (Spec.frame 3 [1,2] [3,4,5]) < 2^31 - 16 := by decide

/-! ## C13 -/

/-- C13: for arbitrary bytes and every marshaller, if unpacking returns a message then its id is the declared id, its
header and body were decoded from exactly the declared regions, and both regions lie inside the buffer (its capacity:
Go slice expressions may reach beyond the length). -/
theorem C13_unpack_sound (env : Env V) (s : Slice) (dest : V) (m : Option (Marshaller V)) (r : Message V)
    (h : unpackWithMarshaller env s dest m = .ok r) :
    let d := s.live ++ s.spare
    16 ≤ d.length ∧ r.id.toInt = declaredId d ∧
    (declaredHeaderLen d = 0 ∧ r.header = none ∨
      declaredHeaderLen d ≠ 0 ∧ 16 + declaredHeaderLen d ≤ d.length ∧
        env.json.unmarshal (declaredHeader d) = some r.header) ∧
    (declaredBodyLen d = 0 ∧ r.body = some dest ∨
      declaredBodyLen d ≠ 0 ∧ 16 + declaredHeaderLen d + declaredBodyLen d ≤ d.length ∧
        ∃ v, r.body = some v ∧ (m.getD (env.builtin .json)).unmarshal (declaredBody d) dest = some v) := by
  have hd : s.live ++ s.spare = s.full := rfl
  simp only [hd]
  rw [unpack_eq] at h
  have h8 := fieldAt_lt s.full 8
  have h12 := fieldAt_lt s.full 12
  unfold declaredHeader declaredBody declaredHeaderLen declaredBodyLen declaredId
  simp only [full_length]
  have hid : (UInt32.ofNat (fieldAt s.full 4)).toInt32.toInt = signed32 (fieldAt s.full 4) :=
    toInt32_toInt _ (fieldAt_lt _ _)
  simp only [] at h
  generalize fieldAt s.full 8 = hl at *
  generalize fieldAt s.full 12 = bl at *
  split at h
  · cases h
  rename_i hcap
  have z : ∀ n : Nat, n < 2^32 → (UInt32.ofNat n = 0 ↔ n = 0) := by
    intro n hn
    rw [← UInt32.toNat_inj]
    simp only [UInt32.toNat_ofNat', UInt32.reduceToNat, Nat.mod_eq_of_lt hn]
  have n1 : (16 + UInt32.ofNat hl).toNat = (16 + hl) % 2^32 := by
    rw [UInt32.toNat_add]; simp only [UInt32.toNat_ofNat', UInt32.reduceToNat]; omega
  have n2 : (16 + UInt32.ofNat hl + UInt32.ofNat bl).toNat = (16 + hl + bl) % 2^32 := by
    rw [UInt32.toNat_add, n1]; simp only [UInt32.toNat_ofNat']; omega
  rw [n1, n2] at h
  simp only [z hl h8, z bl h12] at h
  -- header
  have hh : ∃ hdr, (if hl = 0 then Res.ok none
        else if (16 + hl) % 2^32 < 16 ∨ s.cap < (16 + hl) % 2^32 then .panic
        else orErr (env.json.unmarshal (Spec.range s.full 16 ((16 + hl) % 2^32))) .json) = Res.ok hdr := by
    revert h
    generalize (if hl = 0 then Res.ok none
        else if (16 + hl) % 2^32 < 16 ∨ s.cap < (16 + hl) % 2^32 then .panic
        else orErr (env.json.unmarshal (Spec.range s.full 16 ((16 + hl) % 2^32))) .json) = x
    intro h
    cases x with
    | ok a => exact ⟨a, rfl⟩
    | err e => simp at h
    | panic => simp at h
    | block => simp at h
  obtain ⟨hdr, hh⟩ := hh
  rw [hh, Res.bind_ok] at h
  have key1 : hl = 0 ∧ hdr = none ∨ hl ≠ 0 ∧ 16 + hl ≤ s.cap ∧ 16 + hl < 2^32 ∧
      env.json.unmarshal (Spec.range s.full 16 (16 + hl)) = some hdr := by
    split at hh
    · rename_i h0; left; injection hh with hh; exact ⟨h0, hh.symm⟩
    · rename_i h0
      split at hh
      · cases hh
      · rename_i hc
        have hlt : 16 + hl < 2^32 := by omega
        rw [Nat.mod_eq_of_lt hlt] at hh hc
        right
        refine ⟨h0, by omega, hlt, ?_⟩
        unfold orErr at hh
        split at hh
        · rename_i a ha; injection hh with hh; rw [ha, hh]
        · cases hh
  have hb : ∃ v, (if bl = 0 then Res.ok dest
        else if (16 + hl + bl) % 2^32 < (16 + hl) % 2^32 ∨ s.cap < (16 + hl + bl) % 2^32 then .panic
        else orErr ((m.getD (env.builtin .json)).unmarshal
              (Spec.range s.full ((16 + hl) % 2^32) ((16 + hl + bl) % 2^32)) dest) .marshal) = Res.ok v := by
    revert h
    generalize (if bl = 0 then Res.ok dest
        else if (16 + hl + bl) % 2^32 < (16 + hl) % 2^32 ∨ s.cap < (16 + hl + bl) % 2^32 then .panic
        else orErr ((m.getD (env.builtin .json)).unmarshal
              (Spec.range s.full ((16 + hl) % 2^32) ((16 + hl + bl) % 2^32)) dest) .marshal) = x
    intro h
    cases x with
    | ok a => exact ⟨a, rfl⟩
    | err e => simp at h
    | panic => simp at h
    | block => simp at h
  obtain ⟨v, hb⟩ := hb
  rw [hb, Res.bind_ok] at h
  injection h with h
  subst h
  have hl16 : 16 + hl < 2^32 := by rcases key1 with ⟨h, _⟩ | ⟨_, _, h, _⟩ <;> omega
  refine ⟨by omega, hid, ?_, ?_⟩
  · rcases key1 with h | ⟨h0, h1, _, h3⟩
    · exact Or.inl h
    · exact Or.inr ⟨h0, h1, h3⟩
  · split at hb
    · rename_i h0; left; injection hb with hb; exact ⟨h0, by rw [hb]⟩
    · rename_i h0
      split at hb
      · cases hb
      · rename_i hc
        rw [Nat.mod_eq_of_lt hl16] at hb hc
        have hlt : 16 + hl + bl < 2^32 := by omega
        rw [Nat.mod_eq_of_lt hlt] at hb hc
        right
        refine ⟨h0, by omega, v, rfl, ?_⟩
        unfold orErr at hb
        split at hb
        · rename_i a ha; injection hb with hb; rw [ha, hb]
        · cases hb

example : ∃ r, unpackWithMarshaller Demo.env ⟨Spec.frame (-7) [110] [1, 2], []⟩ [] none = .ok r := ⟨_, rfl⟩

/-- C13, limit of the claim: "inside the buffer" cannot be strengthened to "inside the frame".  A frame announcing
length 12 with body length 2 is decoded from the bytes following the frame. -/
theorem C13_reads_past_frame_limit :
    ∃ (s : Slice) (r : Message Bytes), unpackWithMarshaller Demo.env s [] none = .ok r ∧
      4 + declaredLength s.live = 16 ∧ r.body = some [77, 88] ∧ s.live.drop 16 = [77, 88] := by
  refine ⟨{ live := [0,0,0,12, 0,0,0,1, 0,0,0,0, 0,0,0,2, 77, 88] }, _, rfl, ?_, ?_, ?_⟩ <;> decide

/-! ## C14 -/

/-- C14: `FirstBlockOfBytes` returns exactly the first announced frame, or an error if the input is shorter than 16
bytes or than announced; it never panics or blocks. -/
theorem C14_firstBlockOfBytes (s : Slice) :
    (s.len < 16 ∨ s.len < 4 + declaredLength s.live) ∧ firstBlockOfBytes s = .err .short ∨
    (16 ≤ s.len ∧ 4 + declaredLength s.live ≤ s.len) ∧
      ∃ t, firstBlockOfBytes s = .ok t ∧ t.live = s.live.take (4 + declaredLength s.live) ∧
        t.len = 4 + declaredLength s.live ∧ t.live ++ t.spare = s.live ++ s.spare := by
  rw [firstBlockOfBytes_eq]
  by_cases h : s.len < 16 ∨ s.len < 4 + declaredLength s.live
  · left; rw [if_pos h]; exact ⟨h, rfl⟩
  · right; rw [if_neg h]
    refine ⟨by omega, _, rfl, rfl, ?_, ?_⟩
    · unfold Slice.len at *; simp only [List.length_take]; omega
    · simp only []; rw [← List.append_assoc, List.take_append_drop]

example : firstBlockOfBytes ⟨Spec.frame 3 [1,2] [3,4,5] ++ [9, 9], []⟩ = .ok ⟨Spec.frame 3 [1,2] [3,4,5], [9, 9]⟩ := by
  decide

/-! ## C15 -/

/-- C15: a marshaller name selects one codec in all three places (look-up, packing by name, unpacking by name) exactly
if it is a documented name; any other name is refused in all three. -/
theorem C15_marshaller_names (env : Env V) (name : String) :
    (∃ b, (name, b) ∈ marshallerNames ∧
      getMarshallerByMarshalName env name = .ok (env.builtin b) ∧
      (∀ msg, packWithMarshallerName env msg name = packWithMarshaller env msg (some (env.builtin b))) ∧
      (∀ s dest, unpackWithMarshallerName env s dest name = unpackWithMarshaller env s dest (some (env.builtin b)))) ∨
    ((∀ b, (name, b) ∉ marshallerNames) ∧
      getMarshallerByMarshalName env name = .err .badName ∧
      (∀ msg, packWithMarshallerName env msg name = .err .badName) ∧
      (∀ s dest, unpackWithMarshallerName env s dest name = .err .badName)) := by
  by_cases h1 : name = "json"
  · subst h1; exact Or.inl ⟨.json, by decide, rfl, fun _ => rfl, fun _ _ => rfl⟩
  by_cases h2 : name = "xml"
  · subst h2; exact Or.inl ⟨.xml, by decide, rfl, fun _ => rfl, fun _ _ => rfl⟩
  by_cases h3 : name = "toml"
  · subst h3; exact Or.inl ⟨.toml, by decide, rfl, fun _ => rfl, fun _ _ => rfl⟩
  by_cases h4 : name = "tml"
  · subst h4; exact Or.inl ⟨.toml, by decide, rfl, fun _ => rfl, fun _ _ => rfl⟩
  by_cases h5 : name = "yaml"
  · subst h5; exact Or.inl ⟨.yaml, by decide, rfl, fun _ => rfl, fun _ _ => rfl⟩
  by_cases h6 : name = "yml"
  · subst h6; exact Or.inl ⟨.yaml, by decide, rfl, fun _ => rfl, fun _ _ => rfl⟩
  by_cases h7 : name = "protobuf"
  · subst h7; exact Or.inl ⟨.protobuf, by decide, rfl, fun _ => rfl, fun _ _ => rfl⟩
  by_cases h8 : name = "proto"
  · subst h8; exact Or.inl ⟨.protobuf, by decide, rfl, fun _ => rfl, fun _ _ => rfl⟩
  right
  refine ⟨?_, ?_, ?_, ?_⟩
  · intro b hb; simp [marshallerNames, h1, h2, h3, h4, h5, h6, h7, h8] at hb
  · unfold getMarshallerByMarshalName; split <;> first | rfl | contradiction
  · intro msg; unfold packWithMarshallerName; split <;> first | rfl | contradiction
  · intro s d; unfold unpackWithMarshallerName; split <;> first | rfl | contradiction

/-- C15: every built-in marshaller is found under the name it reports, and no name selects two codecs. -/
theorem C15_names_unambiguous :
    (∀ b : Builtin, (b.marshalName, b) ∈ marshallerNames) ∧
    (∀ n b b', (n, b) ∈ marshallerNames → (n, b') ∈ marshallerNames → b = b') := by
  constructor
  · intro b; cases b <;> decide
  · intro n b b' h h'
    simp only [marshallerNames, List.mem_cons, Prod.mk.injEq, List.not_mem_nil, or_false] at h h'
    rcases h with ⟨rfl, rfl⟩ | ⟨rfl, rfl⟩ | ⟨rfl, rfl⟩ | ⟨rfl, rfl⟩ | ⟨rfl, rfl⟩ | ⟨rfl, rfl⟩ | ⟨rfl, rfl⟩ | ⟨rfl, rfl⟩ <;>
      revert h' <;> simp <;> exact Eq.symm

example : ("json", Builtin.json) ∈ marshallerNames ∧ ("JSON", Builtin.json) ∉ marshallerNames := by decide

end Tcpx
