import Verif.Spec.UdpAnswer
import Verif.Props.Udp
import Verif.Props.Hello
/-!
# Property C152: a UDP server answers every message once, to the sender of its datagram
-/
namespace Tcpx
open Spec
variable {A V : Type}

/-- C152: with a valid buffer size, handling starts for exactly the datagrams that hold a message and arrive before the server ends, in
the order of arrival, each with its own message and the address of its sender. -/
theorem C152_contexts (sizes : List Int) (size : Nat) (hs : BufferSize sizes size) (ins : List (UdpRecv A)) :
    (udpServe sizes ins).map (fun c => (c.addr, c.stream.live)) = (messagesFrom size ins).map (fun m => (m.1, firstFrame m.2)) := by
  have hz := bufferSize_ok hs
  unfold messagesFrom
  induction ins with
  | nil => rfl
  | cons i rest ih =>
    cases i with
    | stopped => rfl
    | eof => unfold udpServe; rw [hz]; rfl
    | fail => unfold udpServe; rw [hz]; exact ih
    | datagram a d =>
      unfold udpServe
      rw [hz]
      rcases datagram_cut size d with ⟨hf, e⟩ | ⟨hf, t, e, et⟩
      · simp only [e, receivedFrom, List.filter_cons, hf, decide_false]
        exact ih
      · simp only [e, receivedFrom, List.filter_cons, hf, decide_true, if_true, List.map_cons, et, ih]

/-- The datagram without its sender. -/
def Spec.UdpRecv.anonymous : UdpRecv A → UdpIn
  | .stopped => .stopped
  | .datagram _ d => .datagram d
  | .eof => .eof
  | .fail => .fail

/-- C152: this is the loop of C75: leaving out the addresses, the same messages are handled. -/
theorem C152_loop (sizes : List Int) (ins : List (UdpRecv A)) :
    (udpServe sizes ins).map UdpCtx.stream =
      (udpLoop sizes (ins.map UdpRecv.anonymous)).1.filterMap (fun | .handle t => some t | .watch => none) := by
  induction ins with
  | nil => rfl
  | cons i rest ih =>
    cases i with
    | stopped => rfl
    | eof =>
      simp only [udpServe, List.map_cons, UdpRecv.anonymous, udpLoop]
      cases udpBufferSize sizes <;> rfl
    | fail =>
      simp only [udpServe, List.map_cons, UdpRecv.anonymous, udpLoop]
      cases udpBufferSize sizes with
      | ok size => exact ih
      | _ => rfl
    | datagram a d =>
      simp only [udpServe, List.map_cons, UdpRecv.anonymous, udpLoop]
      cases udpBufferSize sizes with
      | ok size =>
        simp only
        cases firstBlockOfBytes (udpBuffer size d) with
        | ok t => simp [ih]
        | err e => simp [ih]
        | _ => rfl
      | _ => rfl

/-- The contexts and the datagrams they were made for. -/
theorem contexts_getElem (sizes : List Int) (size : Nat) (hs : BufferSize sizes size) (ins : List (UdpRecv A)) :
    (udpServe sizes ins).length = (messagesFrom size ins).length ∧
    ∀ i : Nat, (udpServe sizes ins)[i]?.map (fun c : UdpCtx A => (c.addr, c.stream.live)) =
      (messagesFrom size ins)[i]?.map (fun m : A × Bytes => (m.1, firstFrame m.2)) := by
  have h := C152_contexts sizes size hs ins
  refine ⟨by simpa using congrArg List.length h, fun i => ?_⟩
  have := congrArg (fun l => l[i]?) h
  simpa using this

/-- The same requests, those of the datagrams as if of one connection. -/
private def marked (n : Nat) (arr : Nat → Arrival) (i : Nat) : Arrival :=
  { arr i with tcp := if i < n then some 0 else none }

private theorem marked_tcp (n : Nat) (arr : Nat → Arrival) (i : Nat) : (marked n arr i).tcp = some 0 ↔ i < n := by
  unfold marked
  by_cases h : i < n <;> simp [h]

theorem written_eq (ctxs : List (UdpCtx A)) (arr : Nat → Arrival) (tr : List Event) :
    udpWritten ctxs tr = ((sentWith (marked ctxs.length arr) 0 tr).filterMap fun x => ctxs[x.1]?.map fun c => (c.addr, x.2)).reverse := by
  unfold udpWritten sentWith
  congr 1
  rw [List.filterMap_filterMap]
  congr 1
  funext e
  by_cases h : e.tid < ctxs.length
  · rw [if_pos ((marked_tcp _ _ _).2 h)]
    cases e.action with
    | note n => cases n <;> rfl
    | _ => rfl
  · rw [if_neg (fun h' => h ((marked_tcp _ _ _).1 h')), List.getElem?_eq_none (by omega)]
    cases e.action with
    | note n => cases n <;> rfl
    | _ => rfl

theorem toSender_of_states (sizes : List Int) (size : Nat) (hs : BufferSize sizes size) (ins : List (UdpRecv A)) (arr : Nat → Arrival)
    (ans : Nat → Bytes) (owed : Nat → Bool) {pan : Prop} {rt : Nat → String} {q : Nat → Res String} (y : Sys)
    (h : ∀ i < (messagesFrom size ins).length, SendState pan (rt i) (q i) (ans i) (owed i) i y) :
    AnsweredToSender (messagesFrom size ins) (udpServe sizes ins) ans owed y := by
  obtain ⟨hl, hg⟩ := contexts_getElem sizes size hs ins
  obtain ⟨is, h1, h2, h3, h4⟩ := sentWith_of_states (rt := rt) (q := q) (marked (udpServe sizes ins).length arr) 0 ans owed y
    (fun i hi => h i (hl ▸ (marked_tcp _ _ _).1 hi))
  refine ⟨is, h1, fun i hi => ⟨hl ▸ (marked_tcp _ _ _).1 (h2 i hi).1, (h2 i hi).2⟩, ?_,
    fun i hi => h4 i ((marked_tcp _ _ _).2 (hl ▸ hi))⟩
  rw [written_eq _ arr, ← List.filterMap_reverse, h3, List.filterMap_map]
  congr 1
  funext i
  have := congrArg (Option.map (fun x : A × Bytes => (x.1, ans i))) (hg i)
  simpa [Option.map_map, Function.comp_def] using this

/-- C152: datagrams arrive from any senders, any of them more than once, cut off, or without a message; the server handles them along any
schedule, beside any other requests.  If the handlers of each message send one answer or none (on every path they can take, whatever the
calls they make return), then what goes out are the answers of distinct messages, whole, each to the sender of its message, and nothing
else; and every message that is owed an answer and whose handling has returned has been answered.  Messages need not be routed alike, as
they must be over TCP (C119). -/
theorem C152_answered (s : Srv) (json : JSONCodec) (sizes : List Int) (size : Nat) (hs : BufferSize sizes size) (ins : List (UdpRecv A))
    (arr : Nat → Arrival) (harr : FromUdp (udpServe sizes ins) arr) (ans : Nat → Bytes) (owed : Nat → Bool)
    (ha : ∀ i < (messagesFrom size ins).length, UdpAnswered s json arr ans owed i) (sched : List Nat) :
    AnsweredToSender (messagesFrom size ins) (udpServe sizes ins) ans owed ((Sys.start s json arr).run sched) := by
  refine toSender_of_states (pan := True) (rt := fun i => headerType json (arr i).stream)
    (q := fun i => urlPatternOf json { live := (arr i).stream }) sizes size hs ins arr ans owed _ (fun i hi => ?_)
  obtain ⟨hsm, hc, r, hr, hd, hrep⟩ := ha i hi
  have hlt : i < (udpServe sizes ins).length := by rw [(contexts_getElem sizes size hs ins).1]; exact hi
  obtain ⟨htcp, -⟩ := harr i _ (List.getElem?_eq_getElem hlt)
  exact sendState_own s json arr i htcp hsm hc (ans i) (owed i)
    (Owes.request s json _ _ r hr hsm rfl hd (.inl trivial) _ (Owes.code json _ rfl trivial hrep)) sched

/-! ## The sayHello server -/

/-- The datagrams that reach the sayHello server's UDP socket: each is a message packed by some client, for ids the server has handlers
for, to be routed by id, with any other header entries, any bodies and marshallers; and the requests made for them. -/
structure Spec.HelloDatagrams (env : Env V) (room : Nat) (v : SayHello.Vals V) (size : Nat) (xs : List (A × Sent V)) (ins : List (UdpRecv A))
    (ctxs : List (UdpCtx A)) (arr : Nat → Arrival) : Prop where
  ok : ∀ x ∈ xs, x.2.Ok env 0
  fits : ∀ x ∈ xs, x.2.bytes.length ≤ size
  ids : ∀ x ∈ xs, x.2.msg.id = 1 ∨ x.2.msg.id = 3 ∨ x.2.msg.id = 5 ∨ x.2.msg.id = 11 ∨ x.2.msg.id = 20
  byId : ∀ x ∈ xs, (∀ s, Header.get? x.2.msg.header "Router-Type" = some (.str s) → s = "MESSAGE_ID") ∧
    Header.get? x.2.msg.header "Router-Pattern-Value" = none
  arrive : receivedFrom ins = xs.map fun x => (x.1, x.2.bytes)
  requests : FromUdp ctxs arr
  code : ∀ i < ctxs.length, ∀ d, (arr i).code d = SayHello.code env room v (arr i).stream d

theorem sent_in_datagram {env : Env V} {max : Int} {x : Sent V} (hx : x.Ok env max) {size : Nat} (hs : x.bytes.length ≤ size) :
    FrameInDatagram size x.bytes ∧ firstFrame x.bytes = x.bytes := by
  obtain ⟨hb, bb, -, -, hp, he, -⟩ := sent_frame hx
  have e : declaredLength (Spec.frame x.msg.id.toInt hb bb ++ []) = payload hb bb := frame_field0 _ _ _ _ (by omega)
  rw [List.append_nil, ← he] at e
  have hl : x.bytes.length = 4 + payload hb bb := by rw [he, frame_length]
  have hpay : payload hb bb = 12 + hb.length + bb.length := by unfold payload; omega
  refine ⟨?_, ?_⟩
  · unfold FrameInDatagram
    rw [e, List.take_of_length_le hs, hl]
    omega
  · rw [firstFrame, e, ← hl, List.take_length]

/-- C152, for the sayHello server, which also listens on UDP (C117): whichever messages reach its socket, from any senders and in any
order, along every schedule what goes out are the answers of messages that ask for one, whole, each at most once and to the sender of its
message; when all are finished, each of them has been answered; and the handling of a message does not panic (which would end the
process, C74), unless the message is for a text and has none. -/
theorem C152_hello (env : Env V) (hj : env.json.Lawful) (room : Nat) (v : SayHello.Vals V) (ans : Int32 → Bytes)
    (ha : HelloAnswers env v ans) (hroom : ∀ i, i = 1 ∨ i = 3 ∨ i = 5 ∨ i = 11 → (ans i).length ≤ room)
    (sizes : List Int) (size : Nat) (hs : BufferSize sizes size) (xs : List (A × Sent V)) (ins : List (UdpRecv A)) (arr : Nat → Arrival)
    (hl : HelloDatagrams env room v size xs ins (udpServe sizes ins) arr) (sched : List Nat) :
    let y := (Sys.start (runOps .new SayHello.ops) env.json arr).run sched
    (∀ i x, xs[i]? = some x → (y.threads i).prog = .panic → (x.2.msg.id = 1 ∨ x.2.msg.id = 3 ∨ x.2.msg.id = 5) ∧ ¬ Asks env v x.2) ∧
    ∃ is : List Nat, is.Nodup ∧ (∀ i ∈ is, ∃ x, xs[i]? = some x ∧ Asks env v x.2) ∧
      udpWritten (udpServe sizes ins) y.trace = is.filterMap (fun i => xs[i]?.map fun x => (x.1, ans x.2.msg.id)) ∧
      ((∀ i < xs.length, ∀ a k, (y.threads i).prog ≠ .act a k) → ∀ i x, xs[i]? = some x → Asks env v x.2 → i ∈ is) := by
  classical
  intro y
  obtain ⟨hx, hfit, hids, hby, harv, harr, hcode⟩ := hl
  have hmsgs : messagesFrom size ins = xs.map fun x => (x.1, x.2.bytes) := by
    unfold messagesFrom
    rw [harv]
    refine List.filter_eq_self.2 (fun m hm => ?_)
    obtain ⟨x, hxm, rfl⟩ := List.mem_map.1 hm
    simpa using (sent_in_datagram (hx x hxm) (hfit x hxm)).1
  obtain ⟨hlen, hget⟩ := contexts_getElem sizes size hs ins
  rw [hmsgs, List.length_map] at hlen
  have hlt : ∀ i x, xs[i]? = some x → i < xs.length := by
    intro i x h
    by_cases h' : i < xs.length
    · exact h'
    · rw [List.getElem?_eq_none (by omega)] at h; cases h
  have hreq : ∀ i x, xs[i]? = some x → (arr i).tcp = none ∧ (arr i).stream = x.2.bytes ∧ x ∈ xs := by
    intro i x h
    have hxm := List.mem_of_getElem? h
    have h2 := hget i
    rw [hmsgs, List.getElem?_map, h] at h2
    cases hc : (udpServe sizes ins)[i]? with
    | none => rw [hc] at h2; cases h2
    | some c =>
      rw [hc] at h2
      have h2 : c.stream.live = firstFrame x.2.bytes := by simpa using congrArg (Option.map Prod.snd) h2
      obtain ⟨g1, g2⟩ := harr i c hc
      exact ⟨g1, by rw [g2, h2, (sent_in_datagram (hx x hxm) (hfit x hxm)).2], hxm⟩
  let owed : Nat → Bool := fun i => decide (∃ x, xs[i]? = some x ∧ Asks env v x.2)
  let out : Nat → Bytes := fun i => (xs[i]?.map fun x => ans x.2.msg.id).getD []
  let texts : Nat → Prop := fun i => ∃ x, xs[i]? = some x ∧ (x.2.msg.id = 1 ∨ x.2.msg.id = 3 ∨ x.2.msg.id = 5)
  have hstate : ∀ (pan : Prop) i, i < xs.length → (pan ∨ owed i = true ∨ ¬ texts i) →
      SendState pan "MESSAGE_ID" (.ok "") (out i) (owed i) i y := by
    intro pan i hi hpan
    have h1 := List.getElem?_eq_getElem hi
    generalize xs[i] = x at h1
    obtain ⟨htcp, h2, hm⟩ := hreq i x h1
    obtain ⟨hroute, hsm, hty, hpt⟩ := hello_routed env hj _ x.2 (hx x hm) (hby x hm)
    obtain ⟨⟨n1, n2⟩, g1, g2⟩ := hello_code env hj 0 room v ans ha hroom x.2 (hx x hm) (hids x hm)
    have ho : owed i = true ↔ Asks env v x.2 := by
      simp only [owed, decide_eq_true_eq]
      constructor
      · rintro ⟨x', h', ha'⟩
        rw [h1] at h'; injection h' with h'; subst h'; exact ha'
      · exact fun h => ⟨x, h1, h⟩
    have hout : out i = ans x.2.msg.id := by simp [out, h1]
    have hcd := hcode i (by rw [hlen]; exact hi)
    have hrun := sendState_own (pan := pan) (runOps .new SayHello.ops) env.json arr i htcp (by rw [h2]; exact hsm) (fun d => by
      rw [hcd d, h2]
      refine hello_avoids env room v _ _ ?_ d
      rintro b (h | h) <;> simp [StoresKey] at h) (out i) (owed i)
    rw [h2, hty, hpt] at hrun
    refine hrun (Owes.request _ env.json _ _ _ hroute hsm hty n1 (.inr n2) _ ?_) sched
    rw [hcd, h2, hout]
    by_cases hask : Asks env v x.2
    · rw [ho.2 hask, g1 hask]
      exact .send _ (fun _ => .ret _ _ rfl)
    · have hf : owed i = false := by
        cases h : owed i with
        | false => rfl
        | true => exact absurd (ho.1 h) hask
      rw [hf]
      rcases g2 hask with h | h
      · rw [h.1]; exact .ret _ _ rfl
      · rw [h.1]
        refine .panic _ (hpan.resolve_right ?_)
        rintro (ht | ht)
        · rw [hf] at ht; cases ht
        · exact ht ⟨x, h1, h.2⟩
  have hnp : ∀ i x, xs[i]? = some x → (y.threads i).prog = .panic → (x.2.msg.id = 1 ∨ x.2.msg.id = 3 ∨ x.2.msg.id = 5) ∧ ¬ Asks env v x.2 := by
    intro i x h1 h
    have hi := hlt i x h1
    have key : ¬ (owed i = true ∨ ¬ texts i) := by
      intro hc
      obtain ⟨o, ho, _⟩ := hstate False i hi (.inr hc)
      rw [h] at ho
      cases ho with
      | panic _ h => exact h
    constructor
    · obtain ⟨x', h', ht⟩ : texts i := Classical.byContradiction (fun hn => key (.inr hn))
      rw [h1] at h'; injection h' with h'; subst h'; exact ht
    · intro hask
      exact key (.inl (by simp only [owed, decide_eq_true_eq]; exact ⟨x, h1, hask⟩))
  refine ⟨hnp, ?_⟩
  obtain ⟨is, n1, n2, n3, n4⟩ := toSender_of_states (rt := fun _ => "MESSAGE_ID") (q := fun _ => .ok "") sizes size hs ins arr out owed y
    (fun i hi => hstate True i (by rw [hmsgs, List.length_map] at hi; exact hi) (.inl trivial))
  rw [hmsgs] at n2 n3 n4
  refine ⟨is, n1, fun i hi => ?_, ?_, fun hfin i x hix hask => ?_⟩
  · simpa only [owed, decide_eq_true_eq] using (n2 i hi).2
  · rw [n3]
    congr 1
    funext i
    rw [List.getElem?_map]
    cases h : xs[i]? <;> simp [out, h]
  · have hi := hlt i x hix
    refine n4 i (by simpa using hi) (by simp only [owed, decide_eq_true_eq]; exact ⟨x, hix, hask⟩) ?_
    cases hp : (y.threads i).prog with
    | ret a => rfl
    | panic => exact absurd hask (hnp i x hix hp).2
    | act a k => exact absurd hp (hfin i hi a k)

/-! Examples: datagrams of two senders, one of them cut off, handled by a server that answers what it gets; and the sayHello server. -/

private def udpIns : List (UdpRecv String) :=
  [.datagram "a" (Spec.frame 7 [] [110]), .fail, .datagram "b" [1, 2], .datagram "b" (Spec.frame 8 [] [] ++ [9]), .datagram "a" (Spec.frame 9 [] []),
    .eof, .datagram "c" (Spec.frame 7 [] [])]

private def udpArr (stream : Nat → Bytes) : Nat → Arrival := fun i =>
  ⟨none, stream i, fun _ => .call .urlPattern fun _ => .call (.send [UInt8.ofNat i]) fun _ => .done⟩

set_option maxRecDepth 100000 in
example : BufferSize [64] 64 ∧ (messagesFrom 64 udpIns).map Prod.fst = ["a", "b", "a"] ∧
    (udpServe [64] udpIns).map (fun c => (c.addr, c.stream.live)) =
      [("a", Spec.frame 7 [] [110]), ("b", Spec.frame 8 [] []), ("a", Spec.frame 9 [] [])] := by decide

set_option maxRecDepth 100000 in
example : ∃ arr, FromUdp (udpServe [64] udpIns) arr ∧ ∀ i < (messagesFrom 64 udpIns).length,
    UdpAnswered { onMessage := some 3 } Demo.json arr (fun i => [UInt8.ofNat i]) (fun _ => true) i := by
  refine ⟨udpArr (fun i => (((udpServe [64] udpIns)[i]?).map (·.stream.live)).getD []), ?_, ?_⟩
  · intro i c hc
    refine ⟨rfl, ?_⟩
    simp [udpArr, hc]
  · intro i hi
    have hi : i < 3 := hi
    have h : i = 0 ∨ i = 1 ∨ i = 2 := by omega
    refine ⟨?_, fun d => .call _ _ (by simp [StoresKey]) (fun r => .call _ _ (by simp [StoresKey]) (fun _ => .done)),
      .byId (Int32.ofInt (declaredId (((udpServe [64] udpIns)[i]?.map (·.stream.live)).getD []))), ?_, (by intro h; cases h),
      .other _ _ _ (by simp) (fun r _ => .send _ (fun _ => .done))⟩
    · rcases h with rfl | rfl | rfl <;> decide
    · rcases h with rfl | rfl | rfl <;> exact .noHeader (by decide) (by decide)

private def udpVals : SayHello.Vals Bytes := ⟨[], [], [1], [2], [3], [4]⟩

private def udpFrame (id : Int32) (body : Bytes) : Bytes := Tcpx.frame id (Demo.encHeader (some [])) body

private def udpAns (i : Int32) : Bytes := udpFrame (i + 1) (if i = 1 then [1] else if i = 3 then [2] else if i = 5 then [3] else [4])

private theorem udp_packed (b : Builtin) (id : Int32) (body : Bytes) :
    packWithMarshaller Demo.env ⟨id, some [], some body⟩ (some (Demo.env.builtin b)) = .ok (udpFrame id body) := by
  simp [packWithMarshaller, udpFrame, Demo.env, Demo.json, orErr, Env.builtin]

private def udpSent (id : Int32) (body : Bytes) : Sent Bytes :=
  ⟨⟨id, some [], some body⟩, some (Demo.env.builtin .json), udpFrame id body⟩

private theorem udpSent_length (id : Int32) (body : Bytes) : (udpSent id body).bytes.length = 16 + (Demo.encHeader (some [])).length + body.length := by
  simp [udpSent, udpFrame, Tcpx.frame, putUint32]; omega

private theorem udpSent_ok (id : Int32) (body : Bytes) (hb : body.length = 1) : (udpSent id body).Ok Demo.env 0 := by
  refine ⟨udp_packed .json id body, ?_, by omega, rfl⟩
  have := udpSent_length id body
  have hh : (Demo.encHeader (some [])).length < 2^20 := by decide
  omega

set_option maxRecDepth 100000 in
example : let xs := [("a", udpSent 1 [7]), ("b", udpSent 11 [8]), ("a", udpSent 1 [7]), ("b", udpSent 20 [5])]
    Demo.env.json.Lawful ∧ HelloAnswers Demo.env udpVals udpAns ∧ BufferSize [] 4096 ∧
    (∃ (ins : List (UdpRecv String)) (arr : Nat → Arrival),
      (∀ i, i = 1 ∨ i = 3 ∨ i = 5 ∨ i = 11 → (udpAns i).length ≤ 1000) ∧
      HelloDatagrams Demo.env 1000 udpVals 4096 xs ins (udpServe [] ins) arr) ∧
    Asks Demo.env udpVals (udpSent 1 [7]) ∧ Asks Demo.env udpVals (udpSent 11 [8]) ∧ ¬ Asks Demo.env udpVals (udpSent 20 [5]) := by
  intro xs
  refine ⟨Demo.json_lawful, ⟨udp_packed .json 2 _, udp_packed .json 4 _, udp_packed .json 6 _, udp_packed .protobuf 12 _⟩, .inl ⟨rfl, rfl⟩,
    ⟨(xs.map fun x => .datagram x.1 x.2.bytes) ++ [.stopped], fun i =>
      let b := ((udpServe [] ((xs.map fun x => UdpRecv.datagram x.1 x.2.bytes) ++ [.stopped]))[i]?.map (·.stream.live)).getD []
      ⟨none, b, fun d => SayHello.code Demo.env 1000 udpVals b d⟩, ?_, ?_, ?_, ?_, ?_, rfl, ?_, fun _ _ _ => rfl⟩, ?_, ?_, ?_⟩
  · rintro i (rfl | rfl | rfl | rfl) <;> decide
  · intro x hx
    simp only [xs, List.mem_cons, List.not_mem_nil, or_false] at hx
    rcases hx with rfl | rfl | rfl | rfl <;> exact udpSent_ok _ _ rfl
  · intro x hx
    simp only [xs, List.mem_cons, List.not_mem_nil, or_false] at hx
    have hh : (Demo.encHeader (some [])).length < 1000 := by decide
    rcases hx with rfl | rfl | rfl | rfl <;> (simp only [udpSent_length, List.length_cons, List.length_nil]; omega)
  · intro x hx
    simp only [xs, List.mem_cons, List.not_mem_nil, or_false] at hx
    rcases hx with rfl | rfl | rfl | rfl <;> simp [udpSent]
  · intro x hx
    simp only [xs, List.mem_cons, List.not_mem_nil, or_false] at hx
    rcases hx with rfl | rfl | rfl | rfl <;> exact ⟨(fun s hs => by cases hs), rfl⟩
  · intro i c hc
    exact ⟨rfl, by simp only [hc]; rfl⟩
  · exact .inl ⟨.inl rfl, [7], .inr ⟨_, rfl, .inr ⟨_, rfl, rfl⟩⟩, .inr ⟨[7], rfl⟩⟩
  · exact .inr ⟨rfl, [8], .inr ⟨_, rfl, .inr ⟨_, rfl, rfl⟩⟩, .inr ⟨[8], rfl⟩⟩
  · rintro (⟨h, -⟩ | ⟨h, -⟩)
    · exact absurd h (by decide)
    · exact absurd h (by decide)

end Tcpx
