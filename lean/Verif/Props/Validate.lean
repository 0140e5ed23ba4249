import Verif.Model.Validate
import Verif.Props.Codec
/-!
# Properties of the program that validates the streams of clients (all-language-clients/main.go)

C133.
-/
namespace Tcpx
open Spec

namespace Validate
variable {V : Type}

theorem names_user (fresh : Builtin → V) (name : String) (b : Builtin) (h : (name, b) ∈ marshallerNames) :
    user fresh name = some (fresh b) := by
  simp only [marshallerNames, List.mem_cons, Prod.mk.injEq, List.not_mem_nil, or_false] at h
  rcases h with ⟨rfl, rfl⟩ | ⟨rfl, rfl⟩ | ⟨rfl, rfl⟩ | ⟨rfl, rfl⟩ | ⟨rfl, rfl⟩ | ⟨rfl, rfl⟩ | ⟨rfl, rfl⟩ | ⟨rfl, rfl⟩ <;> rfl

theorem names_unpack (env : Env V) (s : Slice) (dest : V) (name : String) (b : Builtin) (h : (name, b) ∈ marshallerNames) :
    unpackWithMarshallerName env s dest name = unpackWithMarshaller env s dest (some (env.builtin b)) := by
  simp only [marshallerNames, List.mem_cons, Prod.mk.injEq, List.not_mem_nil, or_false] at h
  rcases h with ⟨rfl, rfl⟩ | ⟨rfl, rfl⟩ | ⟨rfl, rfl⟩ | ⟨rfl, rfl⟩ | ⟨rfl, rfl⟩ | ⟨rfl, rfl⟩ | ⟨rfl, rfl⟩ | ⟨rfl, rfl⟩ <;> rfl

/-- What the program does with a stream and a name it knows. -/
theorem answer_known (env : Env V) (fresh : Builtin → V) (s : Slice) (name : String) (b : Builtin) (h : (name, b) ∈ marshallerNames) :
    answer env fresh (some (s, name)) =
      match unpackWithMarshaller env s (fresh b) (some (env.builtin b)) with
      | .ok message => .ok message
      | .err _ => .bad true
      | .panic => .aborted
      | .block => .aborted := by
  simp only [answer, names_user fresh name b h, names_unpack env s _ name b h]
  cases unpackWithMarshaller env s (fresh b) (some (env.builtin b)) <;> rfl

end Validate
open Validate
variable {V : Type}

/-- C133 (partial): a stream that is one frame of the protocol, whatever its id, header and body, is accepted exactly if its header (if it
has one) decodes as json and its body (if it has one) by the marshaller named, and the message shown is the one decoded; otherwise the
answer is 400.
Missing: streams that are not frames (`C133_aborted_violated`, `C133_accepted_violated`). -/
theorem C133_frames_partial (env : Env V) (fresh : Builtin → V) (id : Int32) (hb bb spare : Bytes) (name : String) (b : Builtin)
    (hn : (name, b) ∈ marshallerNames) (hp : payload hb bb + 4 < 2^32) :
    answer env fresh (some (⟨Spec.frame id.toInt hb bb, spare⟩, name)) =
      match (if hb = [] then some none else env.json.unmarshal hb), (if bb = [] then some (fresh b) else env.dec b bb (fresh b)) with
      | some header, some v => .ok { id := id, header := header, body := some v }
      | _, _ => .bad true := by
  rw [answer_known env fresh _ name b hn, unpack_frame env _ _ _ id.toInt hb bb [] (by simp) hp, id_of_pattern]
  have hd : (Option.getD (some (env.builtin b)) (env.builtin .json)).unmarshal = env.dec b := rfl
  rw [hd]
  by_cases h1 : hb = [] <;> by_cases h2 : bb = [] <;> simp only [h1, h2, if_true, if_false]
  · rfl
  · cases env.dec b bb (fresh b) <;> rfl
  · cases env.json.unmarshal hb <;> rfl
  · cases env.json.unmarshal hb <;> cases env.dec b bb (fresh b) <;> rfl

-- an accepted frame, a refused body, a refused header
example : answer Demo.env (fun _ => []) (some (⟨Spec.frame 7 [110] [1, 2], [9]⟩, "tml")) = .ok { id := 7, header := none, body := some [1, 2] } ∧
    answer { Demo.env with dec := fun _ _ _ => none } (fun _ => []) (some (⟨Spec.frame 7 [110] [1, 2], [9]⟩, "tml")) = .bad true ∧
    answer { Demo.env with json := { Demo.json with unmarshal := fun _ => none } } (fun _ => []) (some (⟨Spec.frame 7 [110] [1, 2], []⟩, "xml")) =
      .bad true := ⟨rfl, rfl, rfl⟩

/-- C133 (partial): requests that cannot be read, and names that are not documented, are answered 400.
Missing: as for `C133_frames_partial`. -/
theorem C133_requests_partial (env : Env V) (fresh : Builtin → V) (s : Slice) (name : String) :
    answer env fresh none = .bad false ∧
      ((∀ b, (name, b) ∉ marshallerNames) → answer env fresh (some (s, name)) = .bad false) := by
  refine ⟨rfl, fun h => ?_⟩
  have : user fresh name = none := by
    unfold user
    split
    · exact absurd (show ("json", Builtin.json) ∈ marshallerNames by decide) (h .json)
    · exact absurd (show ("xml", Builtin.xml) ∈ marshallerNames by decide) (h .xml)
    · exact absurd (show ("toml", Builtin.toml) ∈ marshallerNames by decide) (h .toml)
    · exact absurd (show ("tml", Builtin.toml) ∈ marshallerNames by decide) (h .toml)
    · exact absurd (show ("yaml", Builtin.yaml) ∈ marshallerNames by decide) (h .yaml)
    · exact absurd (show ("yml", Builtin.yaml) ∈ marshallerNames by decide) (h .yaml)
    · exact absurd (show ("protobuf", Builtin.protobuf) ∈ marshallerNames by decide) (h .protobuf)
    · exact absurd (show ("proto", Builtin.protobuf) ∈ marshallerNames by decide) (h .protobuf)
    · rfl
  simp only [answer, this]

example : answer Demo.env (fun _ => []) (some (⟨Spec.frame 7 [110] [1, 2], [9]⟩, "JSON")) = .bad false := rfl

/-- C133: what a Go client posts is accepted and shown as sent, for every format and every user that its codec decodes again. -/
theorem C133_clients (env : Env V) (fresh : Builtin → V) (b : Builtin) (u : V) (hb ub spare : Bytes) (h' : Header)
    (hh : env.json.marshal (some []) = some hb) (hne : hb ≠ []) (hdec : env.json.unmarshal hb = some h')
    (hu : env.enc b u = some ub) (hru : ub ≠ [] → env.dec b ub (fresh b) = some u) (hr0 : ub = [] → fresh b = u)
    (hp : payload hb ub + 4 < 2^32) :
    ∃ req, posted env b u spare = some req ∧ req.1.live = Spec.frame 1 hb ub ∧
      answer env fresh (some req) = .ok { id := 1, header := h', body := some u } := by
  have hpk : packxPack env (env.builtin b) 1 (some u) [] = .ok (Spec.frame 1 hb ub) := by
    have := C01_pack_succeeds env { id := 1, header := some [], body := some u } (some (env.builtin b)) hb ub hh
      (Or.inr ⟨u, rfl, Or.inr ⟨_, rfl, hu⟩⟩) (by omega)
    simpa [packxPack] using this
  have hn : (formatName b, b) ∈ marshallerNames := by cases b <;> decide
  refine ⟨_, by simp only [posted, hpk]; rfl, rfl, ?_⟩
  have := C133_frames_partial env fresh 1 hb ub spare _ b hn hp
  rw [show ((1 : Int32).toInt) = 1 from rfl] at this
  rw [this, if_neg hne, hdec]
  by_cases h0 : ub = []
  · rw [if_pos h0, hr0 h0]
  · rw [if_neg h0, hru h0]

-- a client of the xml format
example := C133_clients Demo.env (fun _ => []) .xml [5, 6] _ [5, 6] [0, 0] _ rfl (by decide) rfl rfl (fun _ => rfl) (by decide) (by decide)

/-- C133: what is accepted has been decoded from the regions its fields declare, inside the stream (and its spare capacity). -/
theorem C133_sound (env : Env V) (fresh : Builtin → V) (s : Slice) (name : String) (r : Message V)
    (h : answer env fresh (some (s, name)) = .ok r) :
    ∃ b, (name, b) ∈ marshallerNames ∧
      let d := s.live ++ s.spare
      16 ≤ d.length ∧ r.id.toInt = declaredId d ∧
      (declaredHeaderLen d = 0 ∧ r.header = none ∨
        declaredHeaderLen d ≠ 0 ∧ 16 + declaredHeaderLen d ≤ d.length ∧ env.json.unmarshal (declaredHeader d) = some r.header) ∧
      (declaredBodyLen d = 0 ∧ r.body = some (fresh b) ∨
        declaredBodyLen d ≠ 0 ∧ 16 + declaredHeaderLen d + declaredBodyLen d ≤ d.length ∧
          ∃ v, r.body = some v ∧ env.dec b (declaredBody d) (fresh b) = some v) := by
  by_cases hk : ∃ b, (name, b) ∈ marshallerNames
  · obtain ⟨b, hb⟩ := hk
    refine ⟨b, hb, ?_⟩
    rw [answer_known env fresh s name b hb] at h
    cases hu : unpackWithMarshaller env s (fresh b) (some (env.builtin b)) with
    | ok m =>
      rw [hu] at h
      injection h with h
      subst h
      exact C13_unpack_sound env s (fresh b) (some (env.builtin b)) m hu
    | _ => rw [hu] at h; cases h
  · rw [(C133_requests_partial env fresh s name).2 (fun b hb => hk ⟨b, hb⟩)] at h
    cases h

-- an accepted stream of 17 bytes, with spare capacity
example := C133_sound Demo.env (fun _ => []) ⟨Spec.frame 7 [] [9], [1]⟩ "proto" { id := 7, header := none, body := some [9] } rfl

/-- C133 is violated: a stream shorter than its length field announces, or than the four fields, gets no answer (the handler panics),
whatever its other bytes, if its spare capacity is no larger. -/
theorem C133_aborted_violated (env : Env V) (fresh : Builtin → V) (s : Slice) (name : String) (b : Builtin)
    (hn : (name, b) ∈ marshallerNames)
    (hshort : s.cap < 16 ∨ 4 ≤ s.len ∧ s.cap < 4 + declaredLength s.live ∧ declaredLength s.live < 2^32 - 4) :
    answer env fresh (some (s, name)) = .aborted := by
  rw [answer_known env fresh s name b hn, unpack_eq]
  simp only []
  rw [if_pos]
  rcases hshort with h | ⟨h4, h, hlt⟩
  · exact .inl h
  · right
    have : fieldAt s.full 0 = declaredLength s.live := by
      have : s.live.length = s.len := rfl
      exact fieldAt_append_left (by omega)
    rw [this, UInt32.toNat_add]
    simp only [UInt32.toNat_ofNat', UInt32.reduceToNat]
    omega

-- nothing; four bytes; a frame without its last byte
example : answer Demo.env (fun _ => []) (some (⟨[], []⟩, "json")) = .aborted ∧
    answer Demo.env (fun _ => []) (some (⟨[0, 0, 0, 1], []⟩, "json")) = .aborted ∧
    answer Demo.env (fun _ => []) (some (⟨(Spec.frame 7 [110] [1, 2]).dropLast, []⟩, "json")) = .aborted := ⟨rfl, rfl, rfl⟩

/-- C133 is violated: streams are accepted that are no frame: from one the server would take a message without a body, and wait for the
rest of a next message. -/
theorem C133_accepted_violated :
    ∃ (s : Slice) (r : Message Bytes), answer Demo.env (fun _ => []) (some (s, "json")) = .ok r ∧ r.body = some [77, 88] ∧
      (∀ id hb bb, payload hb bb < 2^32 → s.live ≠ Spec.frame id hb bb) ∧
      ∃ t, firstBlockOfBytes s = .ok t ∧ t.live ≠ s.live := by
  refine ⟨{ live := [0,0,0,12, 0,0,0,1, 0,0,0,0, 0,0,0,2, 77, 88] }, _, rfl, by decide, ?_, _, rfl, by decide⟩
  intro id hb bb hp h
  have h0 := frame_field0 id hb bb [] hp
  rw [List.append_nil, ← h] at h0
  have h1 := congrArg List.length h
  rw [frame_length] at h1
  have h2 : fieldAt [0,0,0,12, 0,0,0,1, 0,0,0,0, 0,0,0,2, 77, 88] 0 = 12 := by decide
  have h3 : [0,0,0,12, 0,0,0,1, 0,0,0,0, 0,0,0,2, 77, (88 : UInt8)].length = 18 := by decide
  rw [h2] at h0
  simp only at h1
  omega

end Tcpx
