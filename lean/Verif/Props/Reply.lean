import Verif.Lemmas.Client
import Verif.Lemmas.DemoCodec
import Verif.Props.Codec
/-!
# C154: `Reply` and `ReplyWithMarshaller`; C01 for the function `Pack`
-/
namespace Tcpx
open Spec
variable {V : Type}

/-- What a reply in the format of `m` should do on a connection: if header and source can be encoded, hand exactly one buffer to the
connection, the frame with the requested id, and return the connection's error; otherwise write nothing and return an error.  The
header sent is the merge of the header arguments, later ones win.  No counterpart in the code. -/
def Spec.RepliedBy (env : Env V) (m : Marshaller V) (ev : WEv) (id : Int32) (src : Option V) (headers : List Header) (out : SendOut) :
    Prop :=
  ∃ merged : HMap, (∀ k, Header.get? (some merged) k = lastWins headers k) ∧
    (∀ hb bb, env.json.marshal (some merged) = some hb →
      ((src = none ∧ bb = []) ∨ ∃ v, src = some v ∧ m.marshal v = some bb) → payload hb bb < 2^32 →
      ∃ n, out.calls = [⟨Spec.frame id.toInt hb bb, n⟩] ∧
        (∀ k, ev = .accept k → n = min k (Spec.frame id.toInt hb bb).length ∧ out.res = .ok ()) ∧
        (∀ k, ev = .fail k → n = min k (Spec.frame id.toInt hb bb).length ∧ ∃ e, out.res = .err e)) ∧
    ((env.json.marshal (some merged) = none ∨ ∃ v, src = some v ∧ m.marshal v = none) → out.calls = [] ∧ ∃ e, out.res = .err e)

theorem replies_pack (env : Env V) (m : Marshaller V) (link : Link) (hl : link ≠ .none) (ev : WEv) (id : Int32) (src : Option V)
    (headers : List Header) (hp : ∀ h ∈ headers, ProperMap h) :
    RepliedBy env m ev id src headers (sendPacked (packxPack env m id src headers) (replyBuf link ev)) := by
  have hpk : packxPack env m id src headers =
      packWithMarshaller env { id := id, header := some (mergeHeaders headers), body := src } (some m) := by
    unfold packxPack
    split
    · rename_i h; subst h; rfl
    · rfl
  refine ⟨mergeHeaders headers, ?_, ?_, ?_⟩
  · intro k
    have := get?_mergeHeaders headers hp [] k
    simpa [Header.get?, mergeHeaders] using this
  · intro hb bb h1 h2 hs
    have hrep : ∀ buf, replyBuf link ev buf = writeOnce ev buf := by
      intro buf; cases link
      · rfl
      · rfl
      · exact absurd rfl hl
    rw [hpk, pack_spec env id _ src m hb bb h1 h2 hs]
    simp only [sendPacked, hrep]
    cases ev with
    | accept k => exact ⟨_, rfl, fun j hj => (by cases hj; exact ⟨rfl, rfl⟩), fun j hj => (by cases hj)⟩
    | fail k => exact ⟨_, rfl, fun j hj => (by cases hj), fun j hj => (by cases hj; exact ⟨rfl, _, rfl⟩)⟩
  · intro hbad
    rw [hpk]
    rcases pack_cases env id (some (mergeHeaders headers)) src m with ⟨hb, bb, h1, h2, _⟩ | ⟨_, e, he⟩
    · rcases hbad with h | ⟨v, hv, h⟩
      · rw [h1] at h; cases h
      · rcases h2 with ⟨h2, _⟩ | ⟨w, hw, h2⟩
        · rw [h2] at hv; cases hv
        · rw [hw] at hv; cases hv; rw [h2] at h; cases h
    · rw [he]; exact ⟨rfl, _, rfl⟩

/-- C154: `ctx.Reply` answers in the format of the server's marshaller, whatever its name. -/
theorem C154_reply (env : Env V) (m : Marshaller V) (link : Link) (hl : link ≠ .none) (ev : WEv) (id : Int32) (src : Option V)
    (headers : List Header) (hp : ∀ h ∈ headers, ProperMap h) :
    RepliedBy env m ev id src headers (ctxReply env m link ev id src headers) :=
  replies_pack env m link hl ev id src headers hp

/-- C154: `ctx.ReplyWithMarshaller` answers in the format of the marshaller it is given. -/
theorem C154_given (env : Env V) (m : Marshaller V) (link : Link) (hl : link ≠ .none) (ev : WEv) (id : Int32) (src : Option V)
    (headers : List Header) (hp : ∀ h ∈ headers, ProperMap h) :
    RepliedBy env m ev id src headers (ctxReplyWithMarshaller env (some m) link ev id src headers) :=
  replies_pack env m link hl ev id src headers hp

/-- C154: given no marshaller, `ctx.ReplyWithMarshaller` answers in JSON. -/
theorem C154_nil (env : Env V) (link : Link) (hl : link ≠ .none) (ev : WEv) (id : Int32) (src : Option V)
    (headers : List Header) (hp : ∀ h ∈ headers, ProperMap h) :
    RepliedBy env (env.builtin .json) ev id src headers (ctxReplyWithMarshaller env none link ev id src headers) :=
  replies_pack env (env.builtin .json) link hl ev id src headers hp

/-- C154, a caveat: on a Context that is connected to nothing either of them panics once the message is packed. -/
theorem C154_unconnected_limit (env : Env V) (m : Marshaller V) (ev : WEv) (id : Int32) (src : Option V) (headers : List Header)
    (bs : Bytes) (h : packxPack env m id src headers = .ok bs) :
    ctxReply env m .none ev id src headers = ⟨[], .panic⟩ ∧
      ctxReplyWithMarshaller env (some m) .none ev id src headers = ⟨[], .panic⟩ := by
  simp [ctxReply, ctxReplyWithMarshaller, h, sendPacked, replyBuf]

/-- C01: the function `Pack` produces the frame of its id, header and source, encoded by the marshaller it is given. -/
theorem C01_pack_function (env : Env V) (id : Int32) (header : Header) (src : Option V) (m : Option (Marshaller V)) (hb bb : Bytes)
    (h1 : env.json.marshal header = some hb) (h2 : BodyEnc env m src bb) (hs : payload hb bb < 2^32) :
    packDetail env id header src m = .ok (Spec.frame id.toInt hb bb) :=
  C01_pack_succeeds env { id := id, header := header, body := src } m hb bb h1 h2 hs

example := C01_pack_function Demo.env (-7) none (some [1, 2]) none [110] [1, 2] rfl (Or.inr ⟨_, rfl, Or.inl ⟨rfl, rfl⟩⟩) (by decide)

-- a server whose own marshaller reverses the bytes: `Reply` uses it, `ReplyWithMarshaller` the one it is given, or JSON
example : ((ctxReply Demo.env ⟨"own", fun v => some v.reverse, fun _ _ => none⟩ .conn (.accept 1000) 7 (some [1,2]) []).calls.map
    fun c => c.buf.drop (c.buf.length - 2)) = [[2,1]] := by decide
example : ((ctxReplyWithMarshaller Demo.env (some ⟨"own", fun v => some v.reverse, fun _ _ => none⟩) .packet (.accept 1000) 7
    (some [1,2]) []).calls.map fun c => c.buf.drop (c.buf.length - 2)) = [[2,1]] := by decide
example : ((ctxReplyWithMarshaller Demo.env none .packet (.fail 3) 7 (some [1,2]) []).calls.map
    fun c => (c.buf.drop (c.buf.length - 2), c.n)) = [([1,2], 3)] := by decide
example : ∃ bs, packxPack Demo.env ⟨"own", fun v => some v.reverse, fun _ _ => none⟩ 7 (some [1,2]) [] = .ok bs := ⟨_, rfl⟩

end Tcpx
