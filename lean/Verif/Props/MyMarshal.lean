import Verif.Model.MyMarshal
import Verif.Props.Codec
import Verif.Spec.Programs
/-!
# Properties of the example with a marshaller of its own (examples/modules/my-marshal)

C125.
-/
namespace Tcpx
open Spec

namespace MyMarshal

/-- Which handlers the example's comments and ids promise for a message. -/
def Spec.route (id : Int32) : Dispatch :=
  if id = 22 then .chain [h22] else if id = 23 then .chain [h23] else if id = 24 then .chain [h24] else .nothing

end MyMarshal

open MyMarshal in
/-- C125: the messages 22, 23 and 24 are given to their handlers, which are different functions, and no other message to any; no call of
the registration panics. -/
theorem C125_routes (r : Srv.Routed) :
    (runOps .new ops).handle r = (match r with | .byId id => Spec.route id | _ => .nothing) ∧
      Spec.Registers .new ops = true ∧ [h22, h23, h24].Nodup := by
  refine ⟨?_, by decide, by decide⟩
  have h1 : (runOps .new ops).onMessage = none := by decide
  have h2 : (runOps .new ops).mux.urlMux = [] := by decide
  have h3 : (runOps .new ops).mux.handlers = [(24, h24), (23, h23), (22, h22)] := by decide
  cases r with
  | byId id =>
    simp only [Srv.handle, h1]
    unfold Spec.route
    split
    · next h => subst h; decide
    split
    · next h => subst h; decide
    split
    · next h => subst h; decide
    have : (runOps .new ops).mux.handlers.get? id = none := by
      rw [h3]; simp [GoMap.get?]; grind
    simp [Srv.dispatchId, this]
  | byUrl p => simp [Srv.handle, h1, Srv.dispatchUrl, h2]
  | unreadable => simp [Srv.handle, h1]
  | unknownType => simp [Srv.handle, h1]

namespace MyMarshal

theorem range_none (l : Bytes) (a b : Nat) (h : b ≤ a) : Spec.range l a b = [] := by
  unfold Spec.range; rw [Nat.sub_eq_zero_of_le h]; rfl

/-- What `Unpack` does with a complete message whose header is readable and whose body lies inside it. -/
theorem unpack_fitting (env : Env Bytes) (s : Slice) (hd : Header) (hh : headerOf env.json s = .ok hd)
    (hlen : s.len = 4 + declaredLength s.live) (hsz : s.len < 2^31)
    (hfit : 16 + declaredHeaderLen s.live + declaredBodyLen s.live ≤ s.len) :
    ∃ h', unpackWithMarshaller env s [] (some byteMarshaller) =
      .ok { id := (UInt32.ofNat (fieldAt s.live 4)).toInt32, header := h', body := some (declaredBody s.live) } := by
  have hll : s.live.length = s.len := rfl
  have hcap : s.len ≤ s.cap := by unfold Slice.len Slice.cap; omega
  have g : ∀ k, k + 4 ≤ 16 → fieldAt s.full k = fieldAt s.live k := fun k hk => fieldAt_append_left (by omega)
  have hu : ∃ h0, env.json.unmarshal (declaredHeader s.live) = some h0 := by
    unfold headerOf at hh
    rcases (C11_accessors_total_partial s (by omega)).2.2.2.2.1 with ⟨h1, h2⟩ | ⟨t, h1, h2, _⟩
    · omega
    · rw [h1] at hh; simp only [h2] at hh
      cases hv : env.json.unmarshal (declaredHeader s.live) with
      | none => rw [hv] at hh; simp [orErr] at hh
      | some v => exact ⟨v, rfl⟩
  obtain ⟨h0, hu⟩ := hu
  have e0 := hlen
  unfold declaredLength at e0
  have e8 : declaredHeaderLen s.live = fieldAt s.live 8 := rfl
  have e12 : declaredBodyLen s.live = fieldAt s.live 12 := rfl
  have t0 : (UInt32.ofNat (fieldAt s.live 0) + 4).toNat = fieldAt s.live 0 + 4 := by
    rw [UInt32.toNat_add]; simp; omega
  have t8 : (UInt32.ofNat (fieldAt s.live 8)).toNat = fieldAt s.live 8 := by simp; omega
  have t12 : (UInt32.ofNat (fieldAt s.live 12)).toNat = fieldAt s.live 12 := by simp; omega
  have a1 : (16 + UInt32.ofNat (fieldAt s.live 8)).toNat = 16 + fieldAt s.live 8 := by
    rw [UInt32.toNat_add, t8]; simp; omega
  have a2 : (16 + UInt32.ofNat (fieldAt s.live 8) + UInt32.ofNat (fieldAt s.live 12)).toNat =
      16 + fieldAt s.live 8 + fieldAt s.live 12 := by
    rw [UInt32.toNat_add, a1, t12]; simp; omega
  have z : ∀ n : Nat, n < 2^32 → (UInt32.ofNat n = 0 ↔ n = 0) := by
    intro n hn
    rw [← UInt32.toNat_inj]; simp; omega
  rw [unpack_eq]
  simp only [g 0 (by omega), g 4 (by omega), g 8 (by omega), g 12 (by omega), t0, a1, a2]
  rw [if_neg (by omega), if_neg (show ¬ (16 + fieldAt s.live 8 < 16 ∨ s.cap < 16 + fieldAt s.live 8) by omega),
    if_neg (show ¬ (16 + fieldAt s.live 8 + fieldAt s.live 12 < 16 + fieldAt s.live 8 ∨
      s.cap < 16 + fieldAt s.live 8 + fieldAt s.live 12) by omega)]
  have r1 : Spec.range s.full 16 (16 + fieldAt s.live 8) = declaredHeader s.live := range_append_left (by omega)
  have r2 : Spec.range s.full (16 + fieldAt s.live 8) (16 + fieldAt s.live 8 + fieldAt s.live 12) = declaredBody s.live :=
    range_append_left (by omega)
  rw [r1, r2, hu]
  have hb0 : fieldAt s.live 12 = 0 → declaredBody s.live = [] := by
    intro h; exact range_none _ (16 + declaredHeaderLen s.live) _ (by omega)
  generalize hH : declaredHeader s.live = H0 at *
  generalize hB : declaredBody s.live = B0 at *
  generalize hU : (UInt32.ofNat (fieldAt s.live 4)).toInt32 = U0 at *
  have z8 := z (fieldAt s.live 8) (by omega)
  have z12 := z (fieldAt s.live 12) (by omega)
  generalize hx : UInt32.ofNat (fieldAt s.live 8) = X8 at *
  generalize hy : UInt32.ofNat (fieldAt s.live 12) = X12 at *
  by_cases h12 : X12 = 0
  · rw [if_pos h12, hb0 (z12.1 h12)]
    by_cases h8 : X8 = 0
    · rw [if_pos h8]; exact ⟨none, rfl⟩
    · rw [if_neg h8]; exact ⟨h0, rfl⟩
  · rw [if_neg h12]
    by_cases h8 : X8 = 0
    · rw [if_pos h8]; exact ⟨none, rfl⟩
    · rw [if_neg h8]; exact ⟨h0, rfl⟩

end MyMarshal

open MyMarshal in
/-- C125 (partial): on every complete message with a header that can be read and a body inside the message — whatever its id, its header
and its body are — the three handlers print the same: the declared id and the declared body.
Missing: messages announcing a longer body than they have (`C125_overlong_violated`). -/
theorem C125_same_partial (env : Env Bytes) (s : Slice) (hd : Header) (hh : headerOf env.json s = .ok hd)
    (hlen : s.len = 4 + declaredLength s.live) (hsz : s.len < 2^31)
    (hfit : 16 + declaredHeaderLen s.live + declaredBodyLen s.live ≤ s.len) (h : H) (hmem : h ∈ [h22, h23, h24]) :
    ∃ id : Int32, id.toInt = declaredId s.live ∧ handler env h s = some (.ok (.line id (declaredBody s.live))) := by
  obtain ⟨h', hu⟩ := unpack_fitting env s hd hh hlen hsz hfit
  refine ⟨_, toInt32_toInt _ (fieldAt_lt s.live 4), ?_⟩
  have p22 : handler22 env s = .ok (.line (UInt32.ofNat (fieldAt s.live 4)).toInt32 (declaredBody s.live)) := by
    unfold handler22 ctxBind packxUnpack; rw [hu]; rfl
  have p23 : handler23 env s = .ok (.line (UInt32.ofNat (fieldAt s.live 4)).toInt32 (declaredBody s.live)) := by
    unfold handler23; rw [hu]; rfl
  have p24 : handler24 s = .ok (.line (UInt32.ofNat (fieldAt s.live 4)).toInt32 (declaredBody s.live)) := by
    unfold handler24
    rw [messageIDOf_eq, if_neg (by omega)]
    rcases (C11_accessors_total_partial s (by omega)).2.2.2.2.2 with ⟨h1, h2⟩ | ⟨t, h1, h2, _⟩
    · omega
    · rw [h1]; simp [byteMarshaller, h2]
  simp only [List.mem_cons, List.not_mem_nil, or_false] at hmem
  rcases hmem with rfl | rfl | rfl
  · simp only [handler, if_pos, p22]
  · simp only [handler, if_neg (show ¬ h23 = h22 by decide), if_pos, p23]
  · simp only [handler, if_neg (show ¬ h24 = h22 by decide), if_neg (show ¬ h24 = h23 by decide), if_pos, p24]

namespace MyMarshal

/-- A message whose body ends before the message does. -/
example : let s : Slice := ⟨[0,0,0,20, 0,0,0,24, 0,0,0,4, 0,0,0,3, 110,117,108,108, 1,2,3,4], [5,5]⟩
    headerOf Demo.json s = .ok none ∧ s.len = 4 + declaredLength s.live ∧ s.len < 2^31 ∧
    16 + declaredHeaderLen s.live + declaredBodyLen s.live ≤ s.len ∧ declaredBody s.live = [1,2,3] := by decide

end MyMarshal

open MyMarshal in
/-- C125: whatever the client packs with its marshaller is printed, with its id, by whichever handler it is addressed to. -/
theorem C125_printed (env : Env Bytes) (hj : env.json.Lawful) (id : Int32) (payload : Bytes) (bs spare : Bytes)
    (hp : packed env id payload = .ok bs) (hl : bs.length < 2^31) (h : H) (hmem : h ∈ [h22, h23, h24]) :
    handler env h ⟨bs, spare⟩ = some (.ok (.line id payload)) := by
  obtain ⟨hb, bb, h1, h2, h3⟩ := pack_ok hp
  have hbb : payload = bb := by simpa [byteMarshaller] using h2
  subst hbb
  have hlen : (Tcpx.frame id hb payload).length = 4 + Spec.payload hb payload := by
    simp [Tcpx.frame, putUint32, Spec.payload]; omega
  have h3 : bs = Tcpx.frame id hb payload := h3
  have hpl : Spec.payload hb payload < 2^31 - 4 := by rw [h3, hlen] at hl; omega
  rw [frame_eq_spec _ _ _ (by omega)] at h3
  subst h3
  obtain ⟨_, h', h4, _, _⟩ := hj.roundtrip _ _ h1
  obtain ⟨_, _, _, _, ⟨t, a1, a2⟩, _⟩ := C02_accessors ⟨Spec.frame id.toInt hb payload, spare⟩ id hb payload [] (by simp) hpl
  have hh : headerOf env.json ⟨Spec.frame id.toInt hb payload, spare⟩ = .ok h' := by
    unfold headerOf; rw [a1]; simp only [a2, h4]; rfl
  have f0 := frame_field0 id.toInt hb payload [] (by omega)
  have f4 := frame_field4 id.toInt hb payload []
  have f8 := frame_field8 id.toInt hb payload [] (by omega)
  have f12 := frame_field12 id.toInt hb payload [] (by omega)
  have fb := frame_body id.toInt hb payload [] (by omega)
  rw [List.append_nil] at f0 f4 f8 f12 fb
  have fl := frame_length id.toInt hb payload
  obtain ⟨i, hi, he⟩ := C125_same_partial env _ h' hh (by simp only [Slice.len, declaredLength, f0, fl]) (by simpa [Slice.len] using hl)
    (by simp only [Slice.len, declaredHeaderLen, declaredBodyLen, f8, f12, fl, Spec.payload]; omega) h hmem
  rw [he]
  have : i = id := by
    apply int32_ext
    rw [hi]; simp only [declaredId, f4, signed32_pattern32]
  simp only [this, fb]

namespace MyMarshal

example : Demo.env.json.Lawful ∧ (∃ bs, packed Demo.env 22 [104,105] = .ok bs ∧ bs.length < 2^31) ∧ h22 ∈ [h22, h23, h24] :=
  ⟨Demo.json_lawful, ⟨_, rfl, by decide⟩, by decide⟩

end MyMarshal

open MyMarshal in
/-- C125 is false: on a complete message that announces one byte of body more than there is, after a readable header, the third
handler reports an error while the first two panic — and so end the server's process, for the goroutine of a request does not recover. -/
theorem C125_overlong_violated (env : Env Bytes) (hj : env.json.unmarshal [110,117,108,108] = some none) :
    ∃ s : Slice, s.spare = [] ∧ s.len = 4 + declaredLength s.live ∧ headerOf env.json s = .ok none ∧
      handler env h22 s = some .panic ∧ handler env h23 s = some .panic ∧ handler env h24 s = some (.ok .error) := by
  refine ⟨⟨[0,0,0,17, 0,0,0,22, 0,0,0,4, 0,0,0,2, 110,117,108,108, 1], []⟩, rfl, by decide, ?_, ?_, ?_, by rfl⟩
  · unfold headerOf
    rw [show headerBytesOf ⟨[0,0,0,17, 0,0,0,22, 0,0,0,4, 0,0,0,2, 110,117,108,108, 1], []⟩ = .ok ⟨[110,117,108,108], [1]⟩ by rfl]
    simp only [hj]; rfl
  all_goals
    have hu : unpackWithMarshaller env ⟨[0,0,0,17, 0,0,0,22, 0,0,0,4, 0,0,0,2, 110,117,108,108, 1], []⟩ [] (some byteMarshaller) =
        .panic := by
      rw [unpack_eq]
      have e8 : UInt32.ofNat (fieldAt (Slice.full ⟨[0,0,0,17, 0,0,0,22, 0,0,0,4, 0,0,0,2, 110,117,108,108, 1], []⟩) 8) = 4 := by decide
      have e12 : UInt32.ofNat (fieldAt (Slice.full ⟨[0,0,0,17, 0,0,0,22, 0,0,0,4, 0,0,0,2, 110,117,108,108, 1], []⟩) 12) = 2 := by decide
      simp only [e8, e12]
      rw [if_neg (by decide), if_neg (by decide), if_neg (by decide), if_neg (by decide), if_pos (by decide)]
      rw [show Spec.range (Slice.full ⟨[0,0,0,17, 0,0,0,22, 0,0,0,4, 0,0,0,2, 110,117,108,108, 1], []⟩) 16 (16 + 4 : UInt32).toNat =
        [110,117,108,108] by decide, hj]
      rfl
  · simp only [handler, if_pos, handler22, ctxBind, packxUnpack, hu]; rfl
  · simp only [handler, if_neg (show ¬ h23 = h22 by decide), if_pos, handler23, hu]; rfl

namespace MyMarshal

example : Demo.env.json.unmarshal [110,117,108,108] = some none := by decide

end MyMarshal
end Tcpx
