import Verif.Model.MyMarshalClient
import Verif.Props.MyMarshal
import Verif.Props.EndToEnd
import Verif.Lemmas.Answer
/-!
# Property C159: the client and the server of examples/modules/my-marshal together
-/
namespace Tcpx
open Spec
variable {V : Type}

theorem fieldAt_zero_take (l : Bytes) (n : Nat) (h : 4 ≤ n) : declaredLength (l.take n) = declaredLength l := by
  have : ∀ k < 4, (l.take n).getD k 0 = l.getD k 0 := by
    intro k hk
    simp only [List.getD_eq_getElem?_getD]
    rw [List.getElem?_take_of_lt (by omega)]
  simp only [declaredLength, fieldAt, this 0 (by omega), this 1 (by omega), this 2 (by omega), this 3 (by omega), Nat.zero_add]

/-- Whatever part of the bytes of some messages has arrived, it is some of the messages, whole, and an incomplete one. -/
theorem sent_prefix {env : Env V} {max : Int} (xs : List (Sent V)) (hx : ∀ x ∈ xs, x.Ok env max) (p : Bytes)
    (hp : p <+: (xs.map Sent.bytes).flatten) :
    ∃ k ≤ xs.length, ∃ tail, p = ((xs.take k).map Sent.bytes).flatten ++ tail ∧ Incomplete max tail ∧
      ∀ i < xs.length, (i < k ↔ ((xs.take (i + 1)).map Sent.bytes).flatten.length ≤ p.length) := by
  induction xs generalizing p with
  | nil =>
    refine ⟨0, Nat.le_refl _, [], ?_, .inl (by decide), by simp⟩
    simpa using hp
  | cons x xs ih =>
    simp only [List.map_cons, List.flatten_cons] at hp
    by_cases hl : x.bytes.length ≤ p.length
    · obtain ⟨p', rfl⟩ : ∃ p', p = x.bytes ++ p' := by
        have := List.prefix_of_prefix_length_le (List.prefix_append x.bytes _) hp hl
        obtain ⟨t, ht⟩ := this
        exact ⟨t, ht.symm⟩
      have hp' := (List.prefix_append_right_inj x.bytes).1 hp
      obtain ⟨k, hk, tail, h1, h2, h3⟩ := ih (fun y hy => hx y (List.mem_cons_of_mem _ hy)) p' hp'
      refine ⟨k + 1, by simpa using hk, tail, by simp [h1], h2, fun i hi => ?_⟩
      cases i with
      | zero => simp
      | succ i =>
        have := h3 i (by simpa using hi)
        simp only [List.take_succ_cons, List.map_cons, List.flatten_cons, List.length_append]
        omega
    · refine ⟨0, by omega, p, by simp, ?_, fun i hi => ?_⟩
      · obtain ⟨a1, a2, a3, a4⟩ := sent_acceptable (hx x List.mem_cons_self)
        by_cases h4 : p.length < 4
        · exact .inl h4
        · have hpt : p = x.bytes.take p.length := by
            have := List.prefix_of_prefix_length_le hp (List.prefix_append x.bytes _) (by omega)
            exact List.prefix_iff_eq_take.1 this
          have hd : declaredLength p = declaredLength x.bytes := by
            rw [hpt]; exact fieldAt_zero_take _ _ (by omega)
          exact .inr ⟨by omega, fun h => by rw [hd]; exact a4 h, by omega⟩
      · simp only [List.take_succ_cons, List.map_cons, List.flatten_cons, List.length_append]
        omega

/-- C81: a peer sends any list of packed messages, of whose bytes any part arrives, in whatever pieces, before the connection stands still, is
closed or fails.  A goroutine is started for each message that has arrived whole, in order and with its bytes, and for nothing else. -/
theorem C81_any_part (env : Env V) (hj : env.json.Lawful) (max : Int32) (xs : List (Sent V))
    (hx : ∀ x ∈ xs, x.Ok env max.toInt) (p : Bytes) (hp : p <+: (xs.map Sent.bytes).flatten) (e : Ending) (he : e.plain) (r : Reader)
    (hr : stream r = (p, e)) :
    ∃ k ≤ xs.length, (∀ i < xs.length, (i < k ↔ ((xs.take (i + 1)).map Sent.bytes).flatten.length ≤ p.length)) ∧
      connLoop env.json max r = ((xs.take k).map (fun x => .single x.bytes), if e = .stillOpen then .blocked else .ended) := by
  obtain ⟨k, hk, tail, h1, h2, h3⟩ := sent_prefix xs hx p hp
  exact ⟨k, hk, h3, C81_one_task_each env hj max _ (fun x h => hx x (List.mem_of_mem_take h)) tail h2 e he r (by rw [hr, h1])⟩

/-- One message whole and four bytes of another. -/
example : let x : Sent Bytes := ⟨⟨5, none, some [1]⟩, none, Tcpx.frame 5 [110] [1]⟩
    (∀ y ∈ [x, x], y.Ok Demo.env (0 : Int32).toInt) ∧ (x.bytes ++ x.bytes.take 4) <+: ([x, x].map Sent.bytes).flatten ∧
    stream [.chunk x.bytes, .chunk (x.bytes.take 4), .eof] = (x.bytes ++ x.bytes.take 4, .closed) := by
  refine ⟨?_, by decide, by decide⟩
  intro y hy
  simp only [List.mem_cons, List.not_mem_nil, or_false, or_self] at hy
  subst hy
  exact ⟨rfl, by decide, fun h => absurd h (by decide), rfl⟩

namespace MyMarshal

/-- Which handler the example's client addresses with its messages, and with which id. -/
def Spec.addressed : List (H × Int32) := [(h22, 22), (h23, 23), (h24, 24)]

theorem packed_eq (env : Env Bytes) (payload hb : Bytes) (hm : env.json.marshal none = some hb) (id : Int32) :
    packed env id payload = .ok (Tcpx.frame id hb payload) := by
  simp [packed, packWithMarshaller, hm, byteMarshaller, orErr]

end MyMarshal

open MyMarshal

/-- A message with a nil header asks to be routed by its id, and has the router type of those. -/
theorem nil_header_route (env : Env V) (hj : env.json.Lawful) (id : Int32) (body : Option V) (m : Option (Marshaller V)) (bs : Bytes)
    (hp : (Message.mk id none body).pack env m = .ok bs) (hl : bs.length < 2^31) :
    RoutedOf env.json bs (.byId id) ∧ headerType env.json bs = MESSAGEID := by
  obtain ⟨h8, hid, _, h', hf, hk⟩ := packed_frame env hj _ m bs hp hl
  have hn : h'.get? "Router-Type" = none := by
    have := hk "Router-Type"
    cases hg : Header.get? h' "Router-Type" with
    | none => rfl
    | some v => rw [hg] at this; cases this
  constructor
  · have : Int32.ofInt (declaredId bs) = id := by rw [hid]; simp
    rw [← this]
    exact .plain h' hf (fun s hs => by rw [hn] at hs; cases hs) h8
  · rw [headerType_eq hf, typeIn, hn]; rfl

/-- C159: the client writes three messages.  Whatever part of their bytes arrives, in whatever pieces, and however the connection ends:
a goroutine is started for each message that has arrived whole, and for nothing else.  Along every schedule, beside any other
connections, each of them is given at most once to the handler of its id and to nothing else, and has been given to it
when it is finished; it does not panic; and what the handler prints is the id and the text the client sent. -/
theorem C159_printed (env : Env Bytes) (hj : env.json.Lawful) (max : Int32) (payload hb : Bytes)
    (hm : env.json.marshal none = some hb) (hs : 16 + hb.length + payload.length < 2^31)
    (hfit : 0 < max.toInt → (12 + hb.length + payload.length : Int) ≤ max.toInt) :
    ∃ bufs, clientWrites env payload = .ok bufs ∧ bufs.length = 3 ∧
      ∀ (p : Bytes) (e : Ending) (r : Reader), p <+: bufs.flatten → e.plain → stream r = (p, e) →
      ∀ (c : Nat) (arr : Nat → Arrival), ReceivedOn c (connLoop env.json max r).1 arr →
        (∀ i, (arr i).tcp = some c → ∀ d, (arr i).code d = code env (arr i).stream d) →
      ∃ k ≤ 3, (∀ i < 3, i < k ↔ (bufs.take (i + 1)).flatten.length ≤ p.length) ∧
        connLoop env.json max r = ((bufs.take k).map .single, if e = .stillOpen then .blocked else .ended) ∧
        ∀ i < k, ∀ h id, Spec.addressed[i]? = some (h, id) →
          HandledAsAddressed (runOps .new ops) env.json arr i (.chain [h]) ∧
          prints env (arr i).stream (.chain [h]) = [.line id payload] ∧
          ∀ sched, (((Sys.start (runOps .new ops) env.json arr).run sched).threads i).prog ≠ .panic := by
  let fr : Int32 → Bytes := fun id => Tcpx.frame id hb payload
  have hlen : ∀ id, (fr id).length = 16 + hb.length + payload.length := by
    intro id; simp [fr, Tcpx.frame, putUint32]; omega
  let snt : Int32 → Sent Bytes := fun id => ⟨⟨id, none, some payload⟩, some byteMarshaller, fr id⟩
  have hok : ∀ id, (snt id).Ok env max.toInt := by
    intro id
    refine ⟨packed_eq env payload hb hm id, ?_, fun h => ?_, rfl⟩
    · show (fr id).length < 2^31
      rw [hlen]; exact hs
    · show ((fr id).length : Int) ≤ _
      rw [hlen]; have := hfit h; push_cast; omega
  have hpk : ∀ id, (Message.mk id none (some payload)).pack env (some byteMarshaller) = .ok (fr id) := packed_eq env payload hb hm
  have hsm : ∀ id, (fr id).length < 2^31 := fun id => by rw [hlen]; exact hs
  refine ⟨[fr 22, fr 23, fr 24], by simp [clientWrites, buffer, packed_eq env payload hb hm, fr], rfl, ?_⟩
  intro p e r hp he hr c arr hrec hcode
  let xs := [snt 22, snt 23, snt 24]
  have hmap : xs.map Sent.bytes = [fr 22, fr 23, fr 24] := rfl
  have hx : ∀ x ∈ xs, x.Ok env max.toInt := by
    intro x hx
    simp only [xs, List.mem_cons, List.not_mem_nil, or_false] at hx
    rcases hx with rfl | rfl | rfl <;> exact hok _
  obtain ⟨k, hk, tail, h1, h2, h3⟩ := sent_prefix xs hx p (by rw [hmap]; exact hp)
  have hk3 : k ≤ 3 := hk
  have hl := C81_one_task_each env hj max (xs.take k) (fun x h => hx x (List.mem_of_mem_take h)) tail h2 e he r (by rw [hr, h1])
  have htk : ∀ n, (xs.take n).map Sent.bytes = [fr 22, fr 23, fr 24].take n := fun n => by rw [List.map_take, hmap]
  refine ⟨k, hk3, fun i hi => by rw [← htk]; exact h3 i hi, ?_, ?_⟩
  · rw [hl, ← htk, List.map_map]; rfl
  rw [hl] at hrec
  -- every request of the connection is that of one of the three messages
  have hmsg : ∀ j, (arr j).tcp = some c → ∃ id, (id = 22 ∨ id = 23 ∨ id = 24) ∧ xs[j]? = some (snt id) ∧ (arr j).stream = fr id := by
    intro j hjc
    obtain ⟨x, hxm, hxj, hst⟩ := received_getElem hrec hjc
    have hxj' : xs[j]? = some x := by
      rw [List.getElem?_take] at hxj
      split at hxj
      · exact hxj
      · cases hxj
    have hxm' := List.mem_of_mem_take hxm
    simp only [xs, List.mem_cons, List.not_mem_nil, or_false] at hxm'
    rcases hxm' with rfl | rfl | rfl
    · exact ⟨22, .inl rfl, hxj', hst⟩
    · exact ⟨23, .inr (.inl rfl), hxj', hst⟩
    · exact ⟨24, .inr (.inr rfl), hxj', hst⟩
  have hprint : ∀ id h, h ∈ [h22, h23, h24] → handler env h { live := fr id } = some (.ok (.line id payload)) := fun id h hh =>
    C125_printed env hj id payload (fr id) [] (packed_eq env payload hb hm id) (hsm id) h hh
  have hany : ∀ j, (arr j).tcp = some c → ∀ d bad, Avoids bad ((arr j).code d) := by
    intro j hjc d bad
    rw [hcode j hjc d]
    cases d with
    | chain hs =>
      show Avoids _ (List.foldr _ _ _)
      induction hs with
      | nil => exact .done
      | cons h hs ih => rw [List.foldr_cons]; split; exact .panic; exact ih
    | _ => exact .done
  have hsml : ∀ j, (arr j).tcp = some c → declaredHeaderLen (arr j).stream < 2^31 - 16 := by
    intro j hjc
    obtain ⟨id, _, _, hst⟩ := hmsg j hjc
    rw [hst]; exact (packed_frame env hj _ _ _ (hpk id) (hsm id)).2.2.1
  have htype : ∀ j, (arr j).tcp = some c → headerType env.json (arr j).stream = MESSAGEID := by
    intro j hjc
    obtain ⟨id, _, _, hst⟩ := hmsg j hjc
    rw [hst]; exact (nil_header_route env hj id _ _ _ (hpk id) (hsm id)).2
  intro i hik h id hid
  have hilt : i < (xs.take k).length := by simp [xs]; omega
  have hic : (arr i).tcp = some c := (hrec.1 i (xs.take k)[i].bytes (by rw [List.getElem?_map, List.getElem?_eq_getElem hilt]; rfl)).1
  obtain ⟨id', hid', hxi, hst⟩ := hmsg i hic
  have hi3 : i = 0 ∨ i = 1 ∨ i = 2 := by omega
  have hboth : id' = id ∧ h ∈ [h22, h23, h24] ∧ (runOps .new ops).handle (.byId id) = .chain [h] := by
    have hsn : ∀ a b, snt a = snt b → a = b := fun a b h => congrArg (fun x => x.msg.id) h
    rcases hi3 with rfl | rfl | rfl <;>
    · simp only [Spec.addressed, List.getElem?_cons_zero, List.getElem?_cons_succ, Option.some.injEq, Prod.mk.injEq] at hid
      obtain ⟨rfl, rfl⟩ := hid
      simp only [xs, List.getElem?_cons_zero, List.getElem?_cons_succ, Option.some.injEq] at hxi
      exact ⟨(hsn _ _ hxi).symm, by simp, by decide⟩
  obtain ⟨rfl, hh, hd⟩ := hboth
  have hroute : RoutedOf env.json (arr i).stream (.byId id') := by
    rw [hst]; exact (nil_header_route env hj id' _ _ _ (hpk id') (hsm id')).1
  refine ⟨?_, ?_, ?_⟩
  · intro sched
    have := C35_tcp_same_type_partial (runOps .new ops) env.json arr c i hic hsml
      (fun j hjc => by rw [htype j hjc, htype i hic]) (fun j hjc d => hany j hjc d _) _ hroute sched
    rwa [hd] at this
  · simp only [prints, hst, List.filterMap_cons, List.filterMap_nil, hprint id' h hh]
  · intro sched hpn
    have hpat : ∀ id, urlPatternOf env.json { live := fr id } = .ok "" := by
      intro id
      obtain ⟨h', h4, h5⟩ := (C81_handler_reads env hj max.toInt (snt id) (hok id) []).2.1
      have hn : Header.get? h' HEADER_ROUTER_VALUE = none := by
        have := h5.2 HEADER_ROUTER_VALUE
        cases hg : Header.get? h' HEADER_ROUTER_VALUE with
        | none => rfl
        | some v => rw [hg] at this; cases this
      have h4 : headerOf env.json { live := fr id } = .ok h' := h4
      simp [urlPatternOf, h4, headerGetString, hn]
    have hal : Alike env.json arr c MESSAGEID (.ok "") := by
      refine ⟨hsml, htype, fun j hjc => ?_, fun j hjc d => ?_⟩
      · obtain ⟨id, _, _, hst⟩ := hmsg j hjc
        rw [hst]; exact hpat id
      · exact hany j hjc d _
    obtain ⟨o, ho, -⟩ := sendState_run (pan := False) (runOps .new ops) env.json arr c hal i hic [] false
      (by
        refine Owes.request _ env.json _ _ _ hroute (hsml i hic) (htype i hic) (by rw [hd]; simp) (.inr (by rw [hd]; simp)) _ ?_
        rw [hd, hcode i hic, hst]
        simp only [code, List.foldr_cons, List.foldr_nil, hprint id' h hh]
        exact .ret _ _ rfl) sched
    rw [hpn] at ho
    cases ho with
    | panic _ h => exact h

/-! Example for C159: two of the messages arrive whole and the third in part, in two pieces; then the connection fails. -/

private def ownFrame (id : Int32) : Bytes := Tcpx.frame id [110] [104, 101, 108, 108, 111]

private def ownPart : Bytes := (ownFrame 22 ++ ownFrame 23 ++ ownFrame 24).take 50

private def ownArr (tasks : List Task) : Nat → Arrival := fun i =>
  match tasks[i]? with
  | some (.single b) => ⟨some 4, b, code Demo.env b⟩
  | _ => ⟨none, [], fun _ => .done⟩

set_option maxRecDepth 100000 in
example : Demo.env.json.Lawful ∧ Demo.env.json.marshal none = some [110] ∧ 16 + [(110 : UInt8)].length + 5 < 2^31 ∧
    clientWrites Demo.env [104, 101, 108, 108, 111] = .ok [ownFrame 22, ownFrame 23, ownFrame 24] ∧
    ownPart <+: [ownFrame 22, ownFrame 23, ownFrame 24].flatten ∧ ownPart.length = 50 ∧
    ∃ r : Reader, stream r = (ownPart, .failed) ∧
      ReceivedOn 4 (connLoop Demo.env.json 0 r).1 (ownArr (connLoop Demo.env.json 0 r).1) ∧
      ∀ i, (ownArr (connLoop Demo.env.json 0 r).1 i).tcp = some 4 → ∀ d,
        (ownArr (connLoop Demo.env.json 0 r).1 i).code d = code Demo.env (ownArr (connLoop Demo.env.json 0 r).1 i).stream d := by
  refine ⟨Demo.json_lawful, rfl, by decide, by decide, by decide, by decide,
    [.chunk (ownPart.take 7), .chunk (ownPart.drop 7), .fail], by decide, ⟨?_, ?_⟩, ?_⟩
  · intro i b h
    simp only [ownArr, h]
    exact ⟨trivial, trivial⟩
  · intro i h
    simp only [ownArr, List.getElem?_eq_none h]
    simp
  · intro i h d
    simp only [ownArr] at h ⊢
    split
    · rfl
    · rename_i h'
      split at h
      · rename_i b hb; exact absurd hb (h' b)
      · cases h

end Tcpx
