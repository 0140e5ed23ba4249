import Verif.Model.PackDetail
import Verif.Props.Codec
import Verif.Props.Udp
import Verif.Lemmas.ConnLoop
/-!
# Properties of packing by hand (examples/modules/pack-detail)

C123, C124.
-/
namespace Tcpx
open Spec

/-! ## C123: the hand-written encoders and decoders -/

theorem uint32OfInt_toNat (i : Int) : (PackDetail.uint32OfInt i).toNat = pattern32 i := by
  unfold PackDetail.uint32OfInt pattern32
  have : (i % 4294967296).toNat < 4294967296 := by omega
  simp; omega

/-- C123: an example encoder makes the documented frame: of every id (as its 32-bit pattern), every header and every body of together
less than 4 GiB; so what it prints for an int32 id is what `PackWithMarshallerAndBody` makes of the same bytes. -/
theorem C123_encode (id : Int) (hb bb : Bytes) (hs : payload hb bb < 2^32) :
    PackDetail.encode id hb bb = Spec.frame id hb bb := by
  unfold payload at hs
  unfold PackDetail.encode Spec.frame
  simp only [putUint32_eq, uint32OfInt_toNat]
  have e1 : (lenU32 hb).toNat = hb.length := lenU32_toNat (by omega)
  have e2 : (lenU32 bb).toNat = bb.length := lenU32_toNat (by omega)
  rw [lenU32_toNat]
  · rw [e1, e2]
    simp only [List.length_append, be4_length, List.append_assoc]
    congr 2; omega
  · simp only [List.length_append, be4_length]; omega

/-- C123: what `Pack` makes of a message is what the encoder makes of its id and of the bytes its libraries return. -/
theorem C123_same_as_pack {V : Type} (env : Env V) (msg : Message V) (m : Option (Marshaller V)) (hb bb : Bytes)
    (h1 : env.json.marshal msg.header = some hb) (h2 : BodyEnc env m msg.body bb) (hs : payload hb bb < 2^32) :
    packWithMarshaller env msg m = .ok (PackDetail.encode msg.id.toInt hb bb) := by
  rw [C123_encode _ _ _ hs]
  exact C01_pack_succeeds env msg m hb bb h1 h2 hs

/-- The bytes printed by json/encode/main.go, as json/decode/main.go has them. -/
example : PackDetail.encode 1 [123,34,97,117,116,104,34,58,34,97,98,99,34,125]
      [123,34,117,115,101,114,110,97,109,101,34,58,34,116,99,112,120,34,125] =
    [0,0,0,45, 0,0,0,1, 0,0,0,14, 0,0,0,19, 123,34,97,117,116,104,34,58,34,97,98,99,34,125,
      123,34,117,115,101,114,110,97,109,101,34,58,34,116,99,112,120,34,125] := by decide

/-- C123: an example decoder takes every documented frame of less than 4 GiB apart, whatever follows it: it prints the length, the
pattern of the id, the two lengths, and gives its libraries exactly the header and exactly the body. -/
theorem C123_decode (id : Int) (hb bb rest spare : Bytes) (hs : payload hb bb + 4 < 2^32) :
    ∃ d, PackDetail.decode ⟨Spec.frame id hb bb ++ rest, spare⟩ = .ok d ∧
      d.length.toNat = payload hb bb ∧ d.messageID.toNat = pattern32 id ∧ d.headerLength.toNat = hb.length ∧
      d.bodyLength.toNat = bb.length ∧ d.header = hb ∧ d.body = bb := by
  have hs' : payload hb bb < 2^32 := by omega
  have fl := frame_length id hb bb
  generalize hsl : (⟨Spec.frame id hb bb ++ rest, spare⟩ : Slice) = s
  have hlive : s.live = Spec.frame id hb bb ++ rest := by rw [← hsl]
  have hlen : s.len = 4 + payload hb bb + rest.length := by
    unfold Slice.len; rw [hlive, List.length_append, fl]
  unfold payload at hlen hs
  have hcap : s.len ≤ s.cap := by unfold Slice.len Slice.cap; omega
  have f0 := frame_field0 id hb bb (rest ++ s.spare) hs'
  have f4 := frame_field4 id hb bb (rest ++ s.spare)
  have f8 := frame_field8 id hb bb (rest ++ s.spare) hs'
  have f12 := frame_field12 id hb bb (rest ++ s.spare) hs'
  have hh := frame_header id hb bb rest hs'
  have hbo := frame_body id hb bb rest hs'
  have hfull : s.full = Spec.frame id hb bb ++ (rest ++ s.spare) := by simp [Slice.full, hlive]
  have assoc : ∀ {α β γ : Type} (x : Res α) (f : α → Res β) (g : β → Res γ),
      ((x >>= f) >>= g) = (x >>= fun a => f a >>= g) := by
    intro α β γ x f g; cases x <;> rfl
  have fld : ∀ (k : Nat) {β : Type} (g : UInt32 → Res β), k + 4 ≤ s.cap →
      (s.sub k (k + 4 : Nat) >>= fun b => uint32Of b.live >>= g) = g (UInt32.ofNat (fieldAt s.full k)) := by
    intro k β g hk
    rw [← assoc, field_sub, if_pos hk]; rfl
  unfold PackDetail.decode
  rw [show s.sub 0 4 = s.sub ((0 : Nat) : Int) ((0 + 4 : Nat) : Int) from rfl, fld 0 _ (by omega)]
  rw [show s.sub 4 8 = s.sub ((4 : Nat) : Int) ((4 + 4 : Nat) : Int) from rfl, fld 4 _ (by omega)]
  rw [show s.sub 8 12 = s.sub ((8 : Nat) : Int) ((8 + 4 : Nat) : Int) from rfl, fld 8 _ (by omega)]
  rw [show s.sub 12 16 = s.sub ((12 : Nat) : Int) ((12 + 4 : Nat) : Int) from rfl, fld 12 _ (by omega)]
  rw [hfull, f0, f4, f8, f12]
  have t8 : (UInt32.ofNat hb.length).toNat = hb.length := by simp; omega
  have t12 : (UInt32.ofNat bb.length).toNat = bb.length := by simp; omega
  have a1 : (16 + UInt32.ofNat hb.length).toNat = 16 + hb.length := by
    rw [UInt32.toNat_add, t8]; simp; omega
  have a2 : (16 + UInt32.ofNat hb.length + UInt32.ofNat bb.length).toNat = 16 + hb.length + bb.length := by
    rw [UInt32.toNat_add, a1, t12]; simp; omega
  rw [a1, a2]
  rw [show s.sub 16 ((16 + hb.length : Nat) : Int) = _ from sub_in (s := s) (lo := 16) (hi := 16 + hb.length) (by omega) (by omega)]
  rw [sub_in (s := s) (lo := 16 + hb.length) (hi := 16 + hb.length + bb.length) (by omega) (by omega)]
  refine ⟨_, rfl, ?_, ?_, t8, t12, ?_, ?_⟩
  · simp [payload]; omega
  · have := pattern32_lt id; simp; omega
  · simp only [declaredHeader, declaredHeaderLen, frame_field8 id hb bb rest hs'] at hh
    simpa [hlive] using hh
  · simp only [declaredBody, declaredHeaderLen, declaredBodyLen, frame_field8 id hb bb rest hs',
      frame_field12 id hb bb rest hs'] at hbo
    simpa [hlive] using hbo

example : payload [123,125] [1,2,3] + 4 < 2^32 ∧ PackDetail.decode ⟨Spec.frame 258 [123,125] [1,2,3] ++ [9,9], [7]⟩ =
    .ok { length := 17, messageID := 258, headerLength := 2, bodyLength := 3, header := [123,125], body := [1,2,3] } := by decide

/-- C123: the id printed is the id packed if that is not negative.  (A negative one is printed as the number with the same pattern,
`PackDetail.decode` of a frame with id -7: 4294967289.) -/
theorem C123_ids (id : Int32) : ((pattern32 id.toInt : Int) = id.toInt) ↔ 0 ≤ id.toInt := by
  have h1 := Int32.toInt_lt id
  have h2 := Int32.le_toInt id
  unfold pattern32; omega

example : 0 ≤ (258 : Int32).toInt ∧ ¬ 0 ≤ (-7 : Int32).toInt ∧ pattern32 (-7 : Int32).toInt = 4294967289 := by decide

/-! ## C124: a message need not have a header or a body

examples/modules/pack-detail/README.md: "It's ok if headerLength and bodyLength are 0." -/

/-- C124 (partial): a frame without header is unpacked like any other, by `Unpack` with every marshaller, and if it has no body either
the destination is left as it was; its id and its (empty) body can be read.  Only `HeaderOf` refuses it.
Missing: the TCP server, `C124_tcp_violated`. -/
theorem C124_unpack_partial {V : Type} (env : Env V) (hj : env.json.unmarshal [] = none) (m : Option (Marshaller V)) (dest : V)
    (id : Int32) (bb rest spare : Bytes) (hs : payload [] bb < 2^31 - 4) :
    let s : Slice := ⟨Spec.frame id.toInt [] bb ++ rest, spare⟩
    unpackWithMarshaller env s dest m =
      (if bb = [] then .ok { id := id, header := none, body := some dest }
       else match (m.getD (env.builtin .json)).unmarshal bb dest with
        | some v => .ok { id := id, header := none, body := some v }
        | none => .err .marshal) ∧
    messageIDOf s = .ok id ∧ (∃ t, bodyBytesOf s = .ok t ∧ t.live = bb) ∧ headerOf env.json s = .err (wrapErr .json) := by
  intro s
  obtain ⟨_, a2, _, _, ⟨t, h1, h2⟩, a6⟩ := C02_accessors s id [] bb rest rfl hs
  refine ⟨?_, a2, a6, ?_⟩
  · rw [unpack_frame env s dest m id.toInt [] bb rest rfl (by omega), id_of_pattern]
    simp only [if_pos]
    by_cases hb : bb = []
    · simp [hb]
    · simp only [if_neg hb, Res.bind_ok]
      cases (m.getD (env.builtin .json)).unmarshal bb dest <;> rfl
  · unfold headerOf; rw [h1]; simp only [h2, hj]; rfl

example : Demo.env.json.unmarshal [] = none ∧ payload [] [1,2] < 2^31 - 4 := by decide

/-- C124 (partial): on a UDP server such a message is dispatched, by its id, like one with a header that says nothing about routing.
Missing: as for `C124_unpack_partial`. -/
theorem C124_udp_partial (srv : Srv) (json : JSONCodec) (hj : json.unmarshal [] = none) (hno : srv.onMessage = none)
    (sizes : List Int) (size : Nat) (hs : BufferSize sizes size) (id : Int32) (bb junk : Bytes)
    (hfit : 16 + bb.length ≤ size) (hp : payload [] bb < 2^31 - 4) :
    ∃ t, (udpLoop sizes [.datagram (Spec.frame id.toInt [] bb ++ junk)]).1 = [.watch, .handle t] ∧
      handleMiddleware srv json (fun _ => none) (some t.live) = srv.dispatchId id := by
  obtain ⟨t, h1, h2⟩ := C75_packed sizes size hs id.toInt [] bb junk (by simpa using hfit) (by omega)
  obtain ⟨_, a2, _, _, ⟨u, h3, h4⟩, _⟩ := C02_accessors ⟨t.live, []⟩ id [] bb [] (by simp [h2]) hp
  refine ⟨t, h1, ?_⟩
  have hrt : routerTypeWith json none t.live = .ok MESSAGEID := by
    have : headerOf json { live := t.live } = .err (wrapErr .json) := by
      unfold headerOf; rw [h3]; simp only [h4, hj]; rfl
    unfold routerTypeWith
    simp only [Option.bind_none, this]
    split <;> rfl
  simp only [handleMiddleware, hno, hrt, if_pos]
  unfold handleMessageID
  rw [a2]

example : Demo.env.json.unmarshal [] = none ∧ BufferSize [64] 64 ∧ 16 + ([1,2] : Bytes).length ≤ 64 ∧
    (Srv.new : Srv).onMessage = none := by decide

/-- C124 is false: a TCP server that reads a frame without header ends the connection without dispatching it, nor anything that
follows it (`isPipe` insists on a header that is JSON, tcpx.go:576-580, 1231-1234). -/
theorem C124_tcp_violated (json : JSONCodec) (hj : json.unmarshal [] = none) (max : Int32) (id : Int32) (bb rest : Bytes)
    (hp : payload [] bb < 2^31 - 4) (hm : 0 < max.toInt → (payload [] bb : Int) ≤ max.toInt)
    (e : Ending) (r : Reader) (hr : stream r = (Spec.frame id.toInt [] bb ++ rest, e)) :
    connLoop json max r = ([], .ended) := by
  have hl := frame_field0 id.toInt [] bb [] (by omega)
  rw [List.append_nil] at hl
  have ha : Acceptable max.toInt (Spec.frame id.toInt [] bb) := by
    have := frame_length id.toInt [] bb
    unfold Acceptable declaredLength
    rw [hl]
    exact ⟨by omega, by omega, by omega, hm⟩
  obtain ⟨r', h1, _⟩ := frame_step r max _ rest e hr ha
  rw [connLoop_ok h1]
  obtain ⟨_, _, _, _, ⟨u, h3, h4⟩, _⟩ := C02_accessors ⟨Spec.frame id.toInt [] bb, []⟩ id [] bb [] (by simp) hp
  have : headerOf json { live := Spec.frame id.toInt [] bb } = .err (wrapErr .json) := by
    unfold headerOf; rw [h3]; simp only [h4, hj]; rfl
  unfold isPipe
  rw [this]

example : Demo.env.json.unmarshal [] = none ∧ payload [] [1,2] < 2^31 - 4 ∧
    stream [.chunk (Spec.frame (1 : Int32).toInt [] [1,2]), .chunk (Spec.frame 2 [123,125] [])] =
      (Spec.frame (1 : Int32).toInt [] [1,2] ++ Spec.frame 2 [123,125] [], .stillOpen) := by decide

end Tcpx
