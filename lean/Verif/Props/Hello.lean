import Verif.Model.Hello
import Verif.Props.Answer
import Verif.Props.ExampleClients
/-!
# Property C149: the sayHello server answers its clients, and the client prints the answers
-/
namespace Tcpx
open Spec
variable {V : Type}

/-- The body text of the message is empty, or decoder `b` takes it into `dest`. -/
def Spec.ReadableAs (env : Env V) (b : Builtin) (dest : V) (x : Sent V) : Prop :=
  ∃ t, BodyEnc env x.m x.msg.body t ∧ (t = [] ∨ ∃ u, env.dec b t dest = some u)

/-- The frames of the answers: `ans i` is what a message with id `i` is to be answered with. -/
structure Spec.HelloAnswers (env : Env V) (v : SayHello.Vals V) (ans : Int32 → Bytes) : Prop where
  hello : packWithMarshaller env ⟨2, some [], some v.hello⟩ (some (env.builtin .json)) = .ok (ans 1)
  bye : packWithMarshaller env ⟨4, some [], some v.bye⟩ (some (env.builtin .json)) = .ok (ans 3)
  name : packWithMarshaller env ⟨6, some [], some v.name⟩ (some (env.builtin .json)) = .ok (ans 5)
  proto : packWithMarshaller env ⟨12, some [], some v.response⟩ (some (env.builtin .protobuf)) = .ok (ans 11)

/-- A message that asks for an answer: a text with id 1, 3 or 5, or a protobuf request with id 11. -/
def Spec.Asks (env : Env V) (v : SayHello.Vals V) (x : Sent V) : Prop :=
  (x.msg.id = 1 ∨ x.msg.id = 3 ∨ x.msg.id = 5) ∧ ReadableAs env .json v.noText x ∨ x.msg.id = 11 ∧ ReadableAs env .protobuf v.noRequest x

/-- The messages of connection `c` of the sayHello server: with ids it has handlers for, to be routed by id, with any other header
entries, any bodies and marshallers. -/
structure Spec.Hellos (env : Env V) (max : Int32) (room : Nat) (v : SayHello.Vals V) (xs : List (Sent V)) (c : Nat) (arr : Nat → Arrival)
    (tasks : List Task) : Prop where
  ok : ∀ x ∈ xs, x.Ok env max.toInt
  ids : ∀ x ∈ xs, x.msg.id = 1 ∨ x.msg.id = 3 ∨ x.msg.id = 5 ∨ x.msg.id = 11 ∨ x.msg.id = 20
  byId : ∀ x ∈ xs, (∀ s, Header.get? x.msg.header "Router-Type" = some (.str s) → s = "MESSAGE_ID") ∧
    Header.get? x.msg.header "Router-Pattern-Value" = none
  received : ReceivedOn c tasks arr
  code : ∀ i, (arr i).tcp = some c → ∀ d, (arr i).code d = SayHello.code env room v (arr i).stream d

theorem unpack_readable (env : Env V) (hj : env.json.Lawful) (max : Int) (x : Sent V) (hx : x.Ok env max) (b : Builtin) (dest : V) :
    (ReadableAs env b dest x → ∃ msg, packxUnpack env (some (env.builtin b)) { live := x.bytes } dest = .ok msg) ∧
    (¬ ReadableAs env b dest x → ∃ e, packxUnpack env (some (env.builtin b)) { live := x.bytes } dest = .err e) := by
  obtain ⟨hb, bb, h1, h2, hp, he, _⟩ := sent_frame hx
  obtain ⟨hne, h', hd, _, _⟩ := hj.roundtrip _ _ h1
  have hun : packxUnpack env (some (env.builtin b)) { live := x.bytes } dest =
      (do let dest ← (if bb = [] then .ok dest else orErr (env.dec b bb dest) .marshal)
          .ok { id := x.msg.id, header := h', body := some dest }) := by
    unfold packxUnpack
    rw [unpack_frame env { live := x.bytes } dest _ x.msg.id.toInt hb bb [] (by simp [he]) (by omega), if_neg hne, hd, id_of_pattern]
    simp [orErr, Env.builtin]
  have huniq : ∀ t, BodyEnc env x.m x.msg.body t → t = bb := by
    intro t ht
    rcases ht with ⟨h, rfl⟩ | ⟨w, hw, h⟩
    · rcases h2 with ⟨_, rfl⟩ | ⟨w, hw, _⟩
      · rfl
      · rw [h] at hw; cases hw
    · rcases h2 with ⟨h', _⟩ | ⟨w', hw', h'⟩
      · rw [h'] at hw; cases hw
      · rw [hw] at hw'
        injection hw' with hw'
        subst hw'
        rcases h with ⟨hm, h⟩ | ⟨m, hm, h⟩ <;> rcases h' with ⟨hm', h'⟩ | ⟨m', hm', h'⟩ <;> rw [hm] at hm' <;> cases hm' <;>
          (have := h.symm.trans h'; injection this)
  rw [hun]
  constructor
  · rintro ⟨t, ht, hr⟩
    obtain rfl := huniq t ht
    by_cases ht0 : t = []
    · simp [ht0]
    · obtain ⟨u, hu⟩ := hr.resolve_left ht0
      simp [ht0, hu, orErr]
  · intro hn
    have h0 : bb ≠ [] := fun h => hn ⟨bb, h2, .inl h⟩
    have h1 : env.dec b bb dest = none := by
      cases hdec : env.dec b bb dest with
      | none => rfl
      | some u => exact absurd ⟨bb, h2, .inr ⟨u, hdec⟩⟩ hn
    simp [h0, h1, orErr]

theorem say_eq (env : Env V) (hj : env.json.Lawful) (max : Int) (room : Nat) (v : SayHello.Vals V) (x : Sent V) (hx : x.Ok env max)
    (id : Int32) (text : V) (b : Bytes) (hb : packWithMarshaller env ⟨id, some [], some text⟩ (some (env.builtin .json)) = .ok b)
    (hroom : b.length ≤ room) :
    (ReadableAs env .json v.noText x → SayHello.say env room v x.bytes id text .done = .call (.send b) fun _ => .done) ∧
    (¬ ReadableAs env .json v.noText x → SayHello.say env room v x.bytes id text .done = .panic) := by
  obtain ⟨h1, h2⟩ := unpack_readable env hj max x hx .json v.noText
  constructor
  · intro h
    obtain ⟨msg, hm⟩ := h1 h
    simp only [SayHello.say, ctxBind, hm, ctxReply, packxPack, if_true, hb, sendPacked, replyBuf, writeOnce]
    exact ofSend_one b room hroom _
  · intro h
    obtain ⟨e, he⟩ := h2 h
    simp only [SayHello.say, ctxBind, he]

theorem proto_eq (env : Env V) (hj : env.json.Lawful) (max : Int) (room : Nat) (v : SayHello.Vals V) (x : Sent V) (hx : x.Ok env max)
    (b : Bytes) (hb : packWithMarshaller env ⟨12, some [], some v.response⟩ (some (env.builtin .protobuf)) = .ok b)
    (hroom : b.length ≤ room) :
    (ReadableAs env .protobuf v.noRequest x →
      SayHello.body env room v x.bytes SayHello.sayHelloProtobuf .done = .call (.send b) fun _ => .done) ∧
    (¬ ReadableAs env .protobuf v.noRequest x → SayHello.body env room v x.bytes SayHello.sayHelloProtobuf .done = .done) := by
  obtain ⟨h1, h2⟩ := unpack_readable env hj max x hx .protobuf v.noRequest
  have e : ∀ k, SayHello.body env room v x.bytes SayHello.sayHelloProtobuf k =
      match ctxBindWithMarshaller env (some (env.builtin .protobuf)) { live := x.bytes } v.noRequest with
      | .ok _ => .ofSend (ctxFormat env (env.builtin .json) .protobuf .conn (.accept room) 12 (some v.response) []) k
      | .panic => .panic
      | _ => k := fun _ => rfl
  have hn : (env.builtin .json).name ≠ "protobuf" := by simp [Env.builtin, Builtin.marshalName]
  constructor
  · intro h
    obtain ⟨msg, hm⟩ := h1 h
    simp only [e, ctxBindWithMarshaller, Option.getD_some, hm, ctxFormat, commonReply, getMarshallerByMarshalName, packxPack, if_true,
      ne_eq, hn, not_false_eq_true, hb, sendPacked, replyBuf, writeOnce]
    exact ofSend_one b room hroom _
  · intro h
    obtain ⟨er, he⟩ := h2 h
    simp only [e, ctxBindWithMarshaller, Option.getD_some, he]

theorem hello_dispatch :
    let s := runOps .new SayHello.ops
    s.handle (.byId 1) = .chain [SayHello.middlewareGlobal, SayHello.middleware1, SayHello.middleware2, SayHello.sayHello] ∧
    s.handle (.byId 3) = .chain [SayHello.middlewareGlobal, SayHello.middleware1, SayHello.sayGoodBye] ∧
    s.handle (.byId 5) = .chain [SayHello.middlewareGlobal, SayHello.middleware1, SayHello.middleware3, SayHello.sayName] ∧
    s.handle (.byId 11) = .chain [SayHello.middlewareGlobal, SayHello.middleware1, SayHello.sayHelloProtobuf] ∧
    s.handle (.byId 20) = .direct SayHello.heartbeat := by decide

theorem hello_routed (env : Env V) (hj : env.json.Lawful) (max : Int) (x : Sent V) (hx : x.Ok env max)
    (hb : (∀ s, Header.get? x.msg.header "Router-Type" = some (.str s) → s = "MESSAGE_ID") ∧
      Header.get? x.msg.header "Router-Pattern-Value" = none) :
    RoutedOf env.json x.bytes (.byId x.msg.id) ∧ declaredHeaderLen x.bytes < 2^31 - 16 ∧ headerType env.json x.bytes = "MESSAGE_ID" ∧
    urlPatternOf env.json { live := x.bytes } = .ok "" := by
  have hpk : x.msg.pack env x.m = .ok x.bytes := hx.packed
  obtain ⟨h8, hid, hlen, h', hf, hk⟩ := packed_frame env hj _ _ _ hpk hx.small
  have ht : ∀ s, Header.get? h' "Router-Type" = some (.str s) → s = "MESSAGE_ID" := by
    intro s hs
    have := hk "Router-Type"
    rw [hs] at this
    cases hv : x.msg.header.get? "Router-Type" with
    | none => rw [hv] at this; cases this
    | some v =>
      rw [hv] at this
      cases v <;> simp [Any.asString] at this
      subst this
      exact hb.1 _ hv
  have hp : Header.get? h' "Router-Pattern-Value" = none := by
    have := hk "Router-Pattern-Value"
    rw [hb.2] at this
    simpa using this
  refine ⟨?_, hlen, ?_, ?_⟩
  · have : Int32.ofInt (declaredId x.bytes) = x.msg.id := by rw [hid]; simp
    rw [← this]
    exact .plain h' hf ht h8
  · rw [headerType, hf]
    unfold typeIn
    simp only
    split
    · rename_i s hs; exact ht s hs
    · rfl
  · obtain ⟨hh, e1, e2, e3⟩ : ∃ hh, headerOf env.json { live := x.bytes } = .ok hh ∧ True ∧ Header.get? hh "Router-Pattern-Value" = none := by
      obtain ⟨_, ⟨hh, e1, e2⟩, _⟩ := C81_handler_reads env hj max x hx []
      refine ⟨hh, e1, trivial, ?_⟩
      have := e2.2 "Router-Pattern-Value"
      rw [hb.2] at this
      simpa using this
    simp [urlPatternOf, e1, headerGetString, HEADER_ROUTER_VALUE, e3]

theorem hello_avoids (env : Env V) (room : Nat) (v : SayHello.Vals V) (stream : Bytes) (bad : Call → Prop) (h2 : ∀ b, ¬ bad (.send b))
    (d : Dispatch) : Avoids bad (SayHello.code env room v stream d) := by
  have hs : ∀ (o : SendOut) (k : Code), Avoids bad k → Avoids bad (.ofSend o k) := by
    intro o k hk
    unfold Code.ofSend
    induction o.calls with
    | nil =>
      simp only [List.foldr_nil]
      split
      · exact .panic
      · exact hk
    | cons c l ih => exact .call _ _ (h2 _) (fun _ => ih)
  have hsay : ∀ id t k, Avoids bad k → Avoids bad (SayHello.say env room v stream id t k) := by
    intro id t k hk
    unfold SayHello.say
    split
    · exact hs _ _ hk
    · exact .panic
  have hbody : ∀ h k, Avoids bad k → Avoids bad (SayHello.body env room v stream h k) := by
    intro h k hk
    unfold SayHello.body
    split
    · exact hsay _ _ _ hk
    · split
      · exact hsay _ _ _ hk
      · split
        · exact hsay _ _ _ hk
        · split
          · split
            · exact hs _ _ hk
            · exact .panic
            · exact hk
          · exact hk
  cases d with
  | chain hs =>
    show Avoids bad (hs.foldr (SayHello.body env room v stream) .done)
    induction hs with
    | nil => exact .done
    | cons h l ih => exact hbody _ _ ih
  | direct h => exact hbody _ _ .done
  | nothing => exact .done
  | panic => exact .done

/-- What the handlers do with a message of the connection. -/
theorem hello_code (env : Env V) (hj : env.json.Lawful) (max : Int) (room : Nat) (v : SayHello.Vals V) (ans : Int32 → Bytes)
    (ha : HelloAnswers env v ans) (hroom : ∀ i, i = 1 ∨ i = 3 ∨ i = 5 ∨ i = 11 → (ans i).length ≤ room) (x : Sent V) (hx : x.Ok env max)
    (hi : x.msg.id = 1 ∨ x.msg.id = 3 ∨ x.msg.id = 5 ∨ x.msg.id = 11 ∨ x.msg.id = 20) :
    let d := (runOps .new SayHello.ops).handle (.byId x.msg.id)
    (d ≠ .nothing ∧ d ≠ .panic) ∧
    (Asks env v x → SayHello.code env room v x.bytes d = .call (.send (ans x.msg.id)) fun _ => .done) ∧
    (¬ Asks env v x → SayHello.code env room v x.bytes d = .done ∧ (x.msg.id = 11 ∨ x.msg.id = 20) ∨
      SayHello.code env room v x.bytes d = .panic ∧ (x.msg.id = 1 ∨ x.msg.id = 3 ∨ x.msg.id = 5)) := by
  obtain ⟨d1, d3, d5, d11, d20⟩ := hello_dispatch
  intro d
  have say : ∀ (id : Int32) (r : Int32) (t : V), x.msg.id = id → id = 1 ∨ id = 3 ∨ id = 5 →
      packWithMarshaller env ⟨r, some [], some t⟩ (some (env.builtin .json)) = .ok (ans id) →
      SayHello.code env room v x.bytes d = SayHello.say env room v x.bytes r t .done →
      (Asks env v x → SayHello.code env room v x.bytes d = .call (.send (ans x.msg.id)) fun _ => .done) ∧
      (¬ Asks env v x → SayHello.code env room v x.bytes d = .done ∧ (x.msg.id = 11 ∨ x.msg.id = 20) ∨
        SayHello.code env room v x.bytes d = .panic ∧ (x.msg.id = 1 ∨ x.msg.id = 3 ∨ x.msg.id = 5)) := by
    intro id r t h1 h2 h3 h4
    obtain ⟨g1, g2⟩ := say_eq env hj max room v x hx r t (ans id) h3 (hroom id (by rcases h2 with h | h | h <;> simp [h]))
    rw [h4, h1]
    have hn : id ≠ 11 := by rcases h2 with rfl | rfl | rfl <;> decide
    constructor
    · rintro (⟨_, h⟩ | ⟨h, _⟩)
      · exact g1 h
      · exact absurd (h1 ▸ h) hn
    · intro h
      exact .inr ⟨g2 (fun hr => h (.inl ⟨by rw [h1]; exact h2, hr⟩)), h2⟩
  rcases hi with h | h | h | h | h
  · have hd : d = _ := (congrArg (fun i => (runOps .new SayHello.ops).handle (.byId i)) h).trans d1
    exact ⟨by simp [hd], say 1 2 v.hello h (.inl rfl) ha.hello (by rw [hd]; rfl)⟩
  · have hd : d = _ := (congrArg (fun i => (runOps .new SayHello.ops).handle (.byId i)) h).trans d3
    exact ⟨by simp [hd], say 3 4 v.bye h (.inr (.inl rfl)) ha.bye (by rw [hd]; rfl)⟩
  · have hd : d = _ := (congrArg (fun i => (runOps .new SayHello.ops).handle (.byId i)) h).trans d5
    exact ⟨by simp [hd], say 5 6 v.name h (.inr (.inr rfl)) ha.name (by rw [hd]; rfl)⟩
  · have hd : d = _ := (congrArg (fun i => (runOps .new SayHello.ops).handle (.byId i)) h).trans d11
    obtain ⟨g1, g2⟩ := proto_eq env hj max room v x hx (ans 11) ha.proto (hroom 11 (by simp))
    have e : SayHello.code env room v x.bytes d = SayHello.body env room v x.bytes SayHello.sayHelloProtobuf .done := by rw [hd]; rfl
    refine ⟨by simp [hd], ?_, ?_⟩
    · rintro (⟨h', _⟩ | ⟨_, hr⟩)
      · rw [h] at h'; exact absurd h' (by decide)
      · rw [e, h]; exact g1 hr
    · intro hn
      rw [e]
      exact .inl ⟨g2 (fun hr => hn (.inr ⟨h, hr⟩)), .inl h⟩
  · have hd : d = _ := (congrArg (fun i => (runOps .new SayHello.ops).handle (.byId i)) h).trans d20
    refine ⟨by simp [hd], ?_, fun _ => .inl ⟨by rw [hd]; rfl, .inr h⟩⟩
    rintro (⟨h', _⟩ | ⟨h', _⟩)
    · rw [h] at h'; exact absurd h' (by decide)
    · rw [h] at h'; exact absurd h' (by decide)

/-- C149: a client sends any number of messages over its connection to the sayHello server, with ids 1, 3, 5, 11 and 20, any bodies,
header entries and marshallers; they arrive in any pieces and are handled along any schedule beside those of other connections.  Then
registration does not panic, nor does the handling of a message, unless it is for a text and has none; what goes out over the connection are the
answers of such messages, whole, each at most once, and nothing else; and when all are finished, each of them has been answered. -/
theorem C149_answered (env : Env V) (hj : env.json.Lawful) (max : Int32) (room : Nat) (v : SayHello.Vals V) (ans : Int32 → Bytes)
    (ha : HelloAnswers env v ans) (hroom : ∀ i, i = 1 ∨ i = 3 ∨ i = 5 ∨ i = 11 → (ans i).length ≤ room)
    (xs : List (Sent V)) (tail : Bytes) (ht : Incomplete max.toInt tail) (e : Ending) (he : e.plain) (r : Reader)
    (hr : stream r = ((xs.map Sent.bytes).flatten ++ tail, e)) (c : Nat) (arr : Nat → Arrival)
    (hl : Hellos env max room v xs c arr (connLoop env.json max r).1) (sched : List Nat) :
    let y := (Sys.start (runOps .new SayHello.ops) env.json arr).run sched
    Registers .new SayHello.ops = true ∧
    (∀ i x, xs[i]? = some x → (y.threads i).prog = .panic → (x.msg.id = 1 ∨ x.msg.id = 3 ∨ x.msg.id = 5) ∧ ¬ Asks env v x) ∧
    ∃ is : List Nat, is.Nodup ∧ (∀ i ∈ is, ∃ x, xs[i]? = some x ∧ Asks env v x) ∧
      sentOn arr c y.trace = is.filterMap (fun i => xs[i]?.map fun x => ans x.msg.id) ∧
      ((∀ i < xs.length, ∀ a k, (y.threads i).prog ≠ .act a k) → ∀ i x, xs[i]? = some x → Asks env v x → i ∈ is) := by
  classical
  intro y
  obtain ⟨hx, hids, hby, harr, hcode⟩ := hl
  rw [C81_one_task_each env hj max xs hx tail ht e he r hr] at harr
  have hget : ∀ i, (arr i).tcp = some c → ∃ x, x ∈ xs ∧ xs[i]? = some x ∧ (arr i).stream = x.bytes := by
    intro i hi
    obtain ⟨x, hm, h1, h2⟩ := received_getElem harr hi
    exact ⟨x, hm, h1, h2⟩
  have hal : Alike env.json arr c "MESSAGE_ID" (.ok "") := by
    refine ⟨fun i hi => ?_, fun i hi => ?_, fun i hi => ?_, fun i hi d => ?_⟩ <;> obtain ⟨x, hm, _, h2⟩ := hget i hi
    · rw [h2]; exact (hello_routed env hj _ x (hx x hm) (hby x hm)).2.1
    · rw [h2]; exact (hello_routed env hj _ x (hx x hm) (hby x hm)).2.2.1
    · rw [h2]; exact (hello_routed env hj _ x (hx x hm) (hby x hm)).2.2.2
    · rw [hcode i hi d, h2]
      refine hello_avoids env room v _ _ ?_ d
      rintro b (h | h) <;> simp [StoresKey] at h
  let owed : Nat → Bool := fun i => decide (∃ x, xs[i]? = some x ∧ Asks env v x)
  let out : Nat → Bytes := fun i => (xs[i]?.map fun x => ans x.msg.id).getD []
  let texts : Nat → Prop := fun i => ∃ x, xs[i]? = some x ∧ (x.msg.id = 1 ∨ x.msg.id = 3 ∨ x.msg.id = 5)
  have hstate : ∀ (pan : Prop) i, (arr i).tcp = some c → (pan ∨ owed i = true ∨ ¬ texts i) →
      SendState pan "MESSAGE_ID" (.ok "") (out i) (owed i) i y := by
    intro pan i hi hpan
    obtain ⟨x, hm, h1, h2⟩ := hget i hi
    obtain ⟨hroute, -, -, -⟩ := hello_routed env hj _ x (hx x hm) (hby x hm)
    obtain ⟨⟨n1, n2⟩, g1, g2⟩ := hello_code env hj max.toInt room v ans ha hroom x (hx x hm) (hids x hm)
    have ho : owed i = true ↔ Asks env v x := by
      simp only [owed, decide_eq_true_eq]
      constructor
      · rintro ⟨x', h', ha'⟩
        rw [h1] at h'; injection h' with h'; subst h'; exact ha'
      · exact fun h => ⟨x, h1, h⟩
    have hout : out i = ans x.msg.id := by simp [out, h1]
    refine sendState_run _ env.json arr c hal i hi _ (owed i) (Owes.request _ env.json _ _ _ (h2 ▸ hroute) (hal.small i hi) (hal.type i hi)
      n1 (.inr n2) _ ?_) sched
    rw [hcode i hi, h2, hout]
    by_cases hask : Asks env v x
    · rw [ho.2 hask, g1 hask]
      exact .send _ (fun _ => .ret _ _ rfl)
    · have hf : owed i = false := by
        cases h : owed i with
        | false => rfl
        | true => exact absurd (ho.1 h) hask
      rw [hf]
      rcases g2 hask with h | h
      · rw [h.1]; exact .ret _ _ rfl
      · rw [h.1]
        refine .panic _ (hpan.resolve_right ?_)
        rintro (ht | ht)
        · rw [hf] at ht; cases ht
        · exact ht ⟨x, h1, h.2⟩
  have htcp : ∀ i < xs.length, (arr i).tcp = some c := fun i hi => (harr.1 i xs[i].bytes (by simp [hi])).1
  have hlt : ∀ i x, xs[i]? = some x → i < xs.length := by
    intro i x h
    by_cases h' : i < xs.length
    · exact h'
    · rw [List.getElem?_eq_none (by omega)] at h; cases h
  have hnp : ∀ i x, xs[i]? = some x → (y.threads i).prog = .panic → (x.msg.id = 1 ∨ x.msg.id = 3 ∨ x.msg.id = 5) ∧ ¬ Asks env v x := by
    intro i x h1 h
    have hi := hlt i x h1
    have key : ¬ (owed i = true ∨ ¬ texts i) := by
      intro hc
      obtain ⟨o, ho, _⟩ := hstate False i (htcp i hi) (.inr hc)
      rw [h] at ho
      cases ho with
      | panic _ h => exact h
    constructor
    · obtain ⟨x', h', ht⟩ : texts i := Classical.byContradiction (fun hn => key (.inr hn))
      rw [h1] at h'; injection h' with h'; subst h'; exact ht
    · intro hask
      exact key (.inl (by simp only [owed, decide_eq_true_eq]; exact ⟨x, h1, hask⟩))
  refine ⟨by decide, hnp, ?_⟩
  obtain ⟨is, n1, n2, n3, n4⟩ := answered_of_states arr c out owed y (fun i hi => hstate True i hi (.inl trivial))
  have n2' : ∀ i ∈ is, ∃ x, xs[i]? = some x ∧ Asks env v x := by
    intro i hi
    have := (n2 i hi).2
    simpa only [owed, decide_eq_true_eq] using this
  refine ⟨is, n1, n2', ?_, ?_⟩
  · rw [n3]
    clear n1 n2 n3 n4
    induction is with
    | nil => rfl
    | cons i is ih =>
      obtain ⟨x, h, _⟩ := n2' i List.mem_cons_self
      rw [List.map_cons, ih (fun j hj => n2' j (List.mem_cons_of_mem _ hj))]
      simp [out, h]
  · intro hfin i x hix hask
    have hi := hlt i x hix
    refine n4 i (htcp i hi) (by simp only [owed, decide_eq_true_eq]; exact ⟨x, hix, hask⟩) ?_
    cases hp : (y.threads i).prog with
    | ret a => rfl
    | panic => exact absurd hask (hnp i x hix hp).2
    | act a k => exact absurd hp (hfin i hi a k)

/-! ## The client -/

/-- The text that a message with this id is to be answered with. -/
def Spec.answerText (v : SayHello.Vals V) (id : Int32) : V := if id = 1 then v.hello else if id = 3 then v.bye else v.name

/-- The client prints an answer: its bytes, the next id, and its text. -/
structure Spec.PrintsAnswer (v : SayHello.Vals V) (ans : Int32 → Bytes) (id : Int32) (p : SayHello.Printed V) : Prop where
  buf : p.buf = ans id
  next : p.msg.id = id + 1
  text : p.text = some (answerText v id)

theorem receive_step (env : Env V) (noText : V) {r r' : Reader} {buf : Bytes} (h : firstBlockOf (some r) = .ok buf r')
    {msg : Message V} (hm : packxUnpack env (some (env.builtin .json)) { live := buf } noText = .ok msg) :
    SayHello.receive env noText r =
      (⟨buf, msg, msg.body⟩ :: (SayHello.receive env noText r').1, (SayHello.receive env noText r').2) := by
  conv => lhs; unfold SayHello.receive
  split
  · rename_i h'; rw [h] at h'; cases h'
  · rename_i h'; rw [h] at h'; cases h'
  · rename_i h'; rw [h] at h'; cases h'
  · rename_i h'; rw [h] at h'; cases h'
    rw [hm]

theorem receive_end (env : Env V) (noText : V) {r : Reader} (hi : Incomplete 0 (stream r).1) (he : (stream r).2.plain) :
    SayHello.receive env noText r = ([], if (stream r).2 = .stillOpen then .waits else .panics) := by
  have h : shortOut (firstBlockOf (some r)) (stream r).2 := incomplete_step r 0 hi
  conv => lhs; unfold SayHello.receive
  cases hs : (stream r).2 <;> rw [hs] at h he
  · have h : firstBlockOf (some r) = .block := h
    split <;> (rename_i h'; rw [h] at h'; cases h') <;> rfl
  · obtain ⟨_, h⟩ := h
    split <;> (rename_i h'; rw [h] at h'; cases h') <;> rfl
  · exact he.elim
  · obtain ⟨_, h⟩ := h
    split <;> (rename_i h'; rw [h] at h'; cases h') <;> rfl

/-- C149: the client prints each answer to messages with ids 1, 3 and 5, once and in the order they come, however the bytes are cut up
on the way; then it waits, or crashes if the connection has ended. -/
theorem C149_printed (env : Env V) (hj : env.json.Lawful) (v : SayHello.Vals V) (ans : Int32 → Bytes) (ha : HelloAnswers env v ans)
    (ids : List Int32) (hids : ∀ i ∈ ids, (i = 1 ∨ i = 3 ∨ i = 5) ∧ (ans i).length < 2^31 ∧ Decodes (env.builtin .json) (answerText v i))
    (tail : Bytes) (ht : Incomplete 0 tail) (e : Ending) (he : e.plain) (r : Reader)
    (hr : stream r = ((ids.map ans).flatten ++ tail, e)) :
    ∃ ps, SayHello.receive env v.noText r = (ps, if e = .stillOpen then .waits else .panics) ∧ ps.length = ids.length ∧
      ∀ (i : Nat) id p, ids[i]? = some id → ps[i]? = some p → PrintsAnswer v ans id p := by
  induction ids generalizing r with
  | nil =>
    have hr : stream r = (tail, e) := hr
    have := receive_end env v.noText (r := r) (by rw [hr]; exact ht) (by rw [hr]; exact he)
    exact ⟨[], by rw [this, hr], rfl, by simp⟩
  | cons i ids ih =>
    obtain ⟨h1, h2, h3⟩ := hids i List.mem_cons_self
    have hp : packWithMarshaller env ⟨i + 1, some [], some (answerText v i)⟩ (some (env.builtin .json)) = .ok (ans i) := by
      rcases h1 with rfl | rfl | rfl
      · exact ha.hello
      · exact ha.bye
      · exact ha.name
    let x : Sent V := ⟨⟨i + 1, some [], some (answerText v i)⟩, some (env.builtin .json), ans i⟩
    have hx : x.Ok env 0 := ⟨hp, h2, fun h => by omega, rfl⟩
    rw [List.map_cons, List.flatten_cons, List.append_assoc] at hr
    obtain ⟨r', k1, k2⟩ := frame_step r 0 _ _ e hr (sent_acceptable hx)
    have k1 : firstBlockOf (some r) = .ok (ans i) r' := k1
    obtain ⟨h', k3, -⟩ := C81_bind env hj 0 x hx [] (env.builtin .json) (.inl rfl) (answerText v i) v.noText rfl h3
    have k3 : packxUnpack env (some (env.builtin .json)) { live := ans i } v.noText = .ok ⟨i + 1, h', some (answerText v i)⟩ := k3
    obtain ⟨ps, m1, m2, m3⟩ := ih (fun j hj => hids j (List.mem_cons_of_mem _ hj)) r' k2
    refine ⟨_, (receive_step env v.noText k1 k3).trans (by rw [m1]), by simp [m2], ?_⟩
    intro j id p hid hps
    cases j with
    | zero =>
      simp only [List.getElem?_cons_zero, Option.some.injEq] at hid hps
      subst hid hps
      exact ⟨rfl, rfl, rfl⟩
    | succ j =>
      simp only [List.getElem?_cons_succ] at hid hps
      exact m3 j id p hid hps

theorem nodup_length_le (l m : List Nat) (hl : l.Nodup) (h : ∀ i ∈ l, i ∈ m) : l.length ≤ m.length := by
  induction l generalizing m with
  | nil => simp
  | cons i l ih =>
    rw [List.nodup_cons] at hl
    have := ih (m.erase i) hl.2 (fun j hj => (List.mem_erase_of_ne (by rintro rfl; exact hl.1 hj)).2 (h j (List.mem_cons_of_mem _ hj)))
    rw [List.length_erase_of_mem (h i List.mem_cons_self)] at this
    have := List.length_pos_of_mem (h i List.mem_cons_self)
    simp only [List.length_cons]
    omega

/-- C149: the client and the server together.  The client has written its message `n` times; the bytes arrive in any pieces and are handled
along any schedule beside those of other connections.  The client, reading in any pieces what the server has sent it so far, prints the
answer at most `n` times, and nothing else, and waits for more; and exactly `n` times when all requests are finished. -/
theorem C149_client (env : Env V) (hj : env.json.Lawful) (max : Int32) (room : Nat) (v : SayHello.Vals V) (ans : Int32 → Bytes)
    (ha : HelloAnswers env v ans) (hroom : ∀ i, i = 1 ∨ i = 3 ∨ i = 5 ∨ i = 11 → (ans i).length ≤ room)
    (hname : (ans 5).length < 2^31 ∧ Decodes (env.builtin .json) v.name) (text : V) (htext : Decodes (env.builtin .json) text) (n : Nat)
    (bufs : List Bytes) (hb : SayHello.sends env text n = .ok bufs)
    (hsmall : ∀ b ∈ bufs, b.length < 2^31 ∧ (0 < max.toInt → (b.length : Int) ≤ 4 + max.toInt)) (r : Reader)
    (hr : stream r = (bufs.flatten, .stillOpen)) (c : Nat) (arr : Nat → Arrival) (hrec : ReceivedOn c (connLoop env.json max r).1 arr)
    (hcode : ∀ i, (arr i).tcp = some c → ∀ d, (arr i).code d = SayHello.code env room v (arr i).stream d) (sched : List Nat) :
    let y := (Sys.start (runOps .new SayHello.ops) env.json arr).run sched
    ∀ r', stream r' = ((sentOn arr c y.trace).flatten, .stillOpen) →
      ∃ ps, SayHello.receive env v.noText r' = (ps, .waits) ∧ (∀ p ∈ ps, PrintsAnswer v ans 5 p) ∧ ps.length ≤ n ∧
        ((∀ i < n, ∀ a k, (y.threads i).prog ≠ .act a k) → ps.length = n) := by
  intro y r' hr'
  obtain ⟨buf, hbuf, rfl⟩ : ∃ buf, packxPack env (env.builtin .json) 5 (some text) [SayHello.clientHeader] = .ok buf ∧
      bufs = List.replicate n buf := by
    unfold SayHello.sends at hb
    split at hb <;> simp_all
  let x : Sent V := ⟨⟨5, SayHello.clientHeader, some text⟩, some (env.builtin .json), buf⟩
  have hpk : packWithMarshaller env x.msg x.m = .ok buf := hbuf
  have hxs : ∀ z ∈ List.replicate n x, z = x := fun z hz => List.eq_of_mem_replicate hz
  have hmap : ((List.replicate n x).map Sent.bytes) = List.replicate n buf := by simp [x]
  have hok : ∀ z ∈ List.replicate n x, z.Ok env max.toInt := by
    intro z hz
    have hn : n ≠ 0 := by rintro rfl; simp at hz
    rw [hxs z hz]
    obtain ⟨h1, h2⟩ := hsmall buf (List.mem_replicate.2 ⟨hn, rfl⟩)
    exact ⟨hpk, h1, h2, (by decide : SayHello.clientHeader.get? "[tcpx-buffer-in-serial]" = none)⟩
  obtain ⟨-, -, is, n1, n2, n3, n4⟩ := C149_answered env hj max room v ans ha hroom (List.replicate n x) [] (.inl (by decide)) .stillOpen trivial r
    (by rw [hmap, hr]; simp) c arr ⟨hok, fun z hz => by rw [hxs z hz]; simp [x], fun z hz => by
      rw [hxs z hz]; exact ⟨fun s hs => by revert hs; simp [x, SayHello.clientHeader, Header.get?, GoMap.get?],
        (by decide : SayHello.clientHeader.get? "Router-Pattern-Value" = none)⟩, hrec, hcode⟩ sched
  have hsent : sentOn arr c y.trace = (List.replicate is.length (5 : Int32)).map ans := by
    rw [n3, List.map_replicate]
    clear n1 n3 n4
    induction is with
    | nil => rfl
    | cons i is ih =>
      obtain ⟨z, h, _⟩ := n2 i List.mem_cons_self
      have hz := hxs z (List.mem_of_getElem? h)
      rw [List.filterMap_cons, h, ih (fun j hj => n2 j (List.mem_cons_of_mem _ hj)), hz]
      rfl
  obtain ⟨ps, m1, m2, m3⟩ := C149_printed env hj v ans ha (List.replicate is.length 5)
    (fun i hi => by rw [List.eq_of_mem_replicate hi]; exact ⟨by simp, hname.1, hname.2⟩) [] (.inl (by decide)) .stillOpen trivial r'
    (by rw [hr', hsent]; simp)
  simp only [List.length_replicate] at m2
  refine ⟨ps, m1, ?_, ?_, ?_⟩
  · intro p hp
    obtain ⟨j, hj, rfl⟩ := List.getElem_of_mem hp
    exact m3 j 5 _ (by simp [← m2, hj]) (List.getElem?_eq_getElem hj)
  · have := nodup_length_le is (List.range n) n1 (fun i hi => by
      obtain ⟨z, h, _⟩ := n2 i hi
      have := (List.getElem?_eq_some_iff.1 h).1
      simpa using this)
    rw [m2]
    simpa using this
  · intro hfin
    have := nodup_length_le (List.range n) is List.nodup_range (fun i hi => by
      have hi : i < n := by simpa using hi
      refine n4 (by simpa using hfin) i x (by simp [hi]) (.inl ⟨.inr (.inr rfl), ?_⟩)
      obtain ⟨bb, e1, e2, e3⟩ := htext
      exact ⟨bb, .inr ⟨text, rfl, .inr ⟨_, rfl, e1⟩⟩, .inr ⟨text, e3 _⟩⟩)
    rw [m2] at *
    have h2 := nodup_length_le is (List.range n) n1 (fun i hi => by
      obtain ⟨z, h, _⟩ := n2 i hi
      have := (List.getElem?_eq_some_iff.1 h).1
      simpa using this)
    simp only [List.length_range] at this h2
    omega

/-! Examples for C149: a text, a protobuf request, and a text that cannot be bound, in two pieces; and the client writing twice. -/

/-- The example codec, except that the text `[9]` cannot be decoded. -/
private def helloEnv : Env Bytes := { Demo.env with dec := fun b t d => if t = [9] then none else Demo.env.dec b t d }

private def helloVals : SayHello.Vals Bytes := ⟨[], [], [1], [2], [3], [4]⟩

private def helloFrame (id : Int32) (h : Header) (body : Bytes) : Bytes := Tcpx.frame id (Demo.encHeader h) body

private def helloAns (i : Int32) : Bytes := helloFrame (i + 1) (some []) (if i = 1 then [1] else if i = 3 then [2] else if i = 5 then [3] else [4])

private theorem hello_packed (b : Builtin) (id : Int32) (h : Header) (body : Bytes) :
    packWithMarshaller helloEnv ⟨id, h, some body⟩ (some (helloEnv.builtin b)) = .ok (helloFrame id h body) := by
  simp [packWithMarshaller, helloFrame, helloEnv, Demo.env, Demo.json, orErr, Env.builtin]

private theorem helloAns_ok : HelloAnswers helloEnv helloVals helloAns :=
  ⟨hello_packed .json 2 _ _, hello_packed .json 4 _ _, hello_packed .json 6 _ _, hello_packed .protobuf 12 _ _⟩

private def helloSent (id : Int32) (h : Header) (body : Bytes) : Sent Bytes :=
  ⟨⟨id, h, some body⟩, some (helloEnv.builtin .json), helloFrame id h body⟩

private theorem helloSent_ok (id : Int32) (h : Header) (body : Bytes) (hb : body.length = 1) (hh : (Demo.encHeader h).length < 2^20)
    (hm : h.get? "[tcpx-buffer-in-serial]" = none) : (helloSent id h body).Ok helloEnv (0 : Int32).toInt := by
  refine ⟨hello_packed .json id h body, ?_, (by intro h; exact absurd h (by decide)), hm⟩
  have : (helloSent id h body).bytes.length = 16 + (Demo.encHeader h).length + body.length := by
    simp [helloSent, helloFrame, Tcpx.frame, putUint32]; omega
  omega

private def helloArr (tasks : List Task) (room : Nat) : Nat → Arrival := fun i =>
  match tasks[i]? with
  | some (.single b) => ⟨some 4, b, fun d => SayHello.code helloEnv room helloVals b d⟩
  | _ => ⟨none, [], fun _ => .done⟩

private theorem helloArr_received (tasks : List Task) (room : Nat) : ReceivedOn 4 tasks (helloArr tasks room) ∧
    ∀ i, (helloArr tasks room i).tcp = some 4 → ∀ d, (helloArr tasks room i).code d =
      SayHello.code helloEnv room helloVals (helloArr tasks room i).stream d := by
  refine ⟨⟨?_, ?_⟩, ?_⟩
  · intro i b h; simp only [helloArr, h]; exact ⟨trivial, trivial⟩
  · intro i h; simp [helloArr, List.getElem?_eq_none h]
  · intro i hi d
    unfold helloArr at hi ⊢
    split at hi
    · simp only
    · cases hi

set_option maxRecDepth 100000 in
example : let xs := [helloSent 1 (some []) [7], helloSent 11 none [8], helloSent 5 SayHello.clientHeader [9]]
    helloEnv.json.Lawful ∧ HelloAnswers helloEnv helloVals helloAns ∧ Incomplete (0 : Int32).toInt [] ∧ Ending.plain .stillOpen ∧
    (∃ (r : Reader) (room : Nat) (arr : Nat → Arrival), stream r = ((xs.map Sent.bytes).flatten ++ [], .stillOpen) ∧
      (∀ i, i = 1 ∨ i = 3 ∨ i = 5 ∨ i = 11 → (helloAns i).length ≤ room) ∧
      Hellos helloEnv 0 room helloVals xs 4 arr (connLoop helloEnv.json 0 r).1) ∧
    Asks helloEnv helloVals (helloSent 1 (some []) [7]) ∧ Asks helloEnv helloVals (helloSent 11 none [8]) ∧
    ¬ Asks helloEnv helloVals (helloSent 5 SayHello.clientHeader [9]) := by
  intro xs
  refine ⟨Demo.json_lawful, helloAns_ok, .inl (by decide), trivial, ?_, ?_, ?_, ?_⟩
  · let r : Reader := [.chunk (helloSent 1 (some []) [7]).bytes, .chunk ((helloSent 11 none [8]).bytes ++ (helloSent 5 SayHello.clientHeader [9]).bytes)]
    have hrec := helloArr_received (connLoop helloEnv.json 0 r).1 1000
    refine ⟨r, 1000, helloArr (connLoop helloEnv.json 0 r).1 1000, by simp [r, xs, stream], ?_, ?_, ?_, ?_, hrec.1, hrec.2⟩
    · rintro i (rfl | rfl | rfl | rfl) <;> decide
    · intro x hx
      simp only [xs, List.mem_cons, List.not_mem_nil, or_false] at hx
      rcases hx with rfl | rfl | rfl <;> exact helloSent_ok _ _ _ rfl (by decide) (by decide)
    · intro x hx
      simp only [xs, List.mem_cons, List.not_mem_nil, or_false] at hx
      rcases hx with rfl | rfl | rfl <;> simp [helloSent]
    · intro x hx
      simp only [xs, List.mem_cons, List.not_mem_nil, or_false] at hx
      rcases hx with rfl | rfl | rfl <;>
        exact ⟨by intro s hs; simp [helloSent, SayHello.clientHeader, Header.get?, GoMap.get?] at hs,
          by simp [helloSent, SayHello.clientHeader, Header.get?, GoMap.get?]⟩
  · exact .inl ⟨.inl rfl, [7], .inr ⟨_, rfl, .inr ⟨_, rfl, rfl⟩⟩, .inr ⟨[7], rfl⟩⟩
  · exact .inr ⟨rfl, [8], .inr ⟨_, rfl, .inr ⟨_, rfl, rfl⟩⟩, .inr ⟨[8], rfl⟩⟩
  · rintro (⟨_, t, ht | ⟨w, hw, ⟨hm, _⟩ | ⟨m, hm, ht⟩⟩, h⟩ | ⟨h, _⟩)
    · cases ht.1
    · cases hm
    · injection hw with hw
      injection hm with hm
      subst hw hm
      have ht : t = [9] := by injection ht with ht; exact ht.symm
      subst ht
      rcases h with h | ⟨u, h⟩
      · cases h
      · cases h
    · exact absurd h (by decide)

private theorem hello_decodes (b : Bytes) (h1 : b ≠ []) (h2 : b ≠ [9]) : Decodes (helloEnv.builtin .json) b := by
  refine ⟨b, rfl, h1, fun d => ?_⟩
  simp [helloEnv, Env.builtin, h2, Demo.env]

set_option maxRecDepth 100000 in
example : (∀ i ∈ [(5 : Int32), 1, 3], (i = 1 ∨ i = 3 ∨ i = 5) ∧ (helloAns i).length < 2^31 ∧
    Decodes (helloEnv.builtin .json) (answerText helloVals i)) ∧
    Decodes (helloEnv.builtin .json) [7] ∧
    SayHello.sends helloEnv [7] 2 = .ok (List.replicate 2 (helloFrame 5 SayHello.clientHeader [7])) ∧
    (∀ b ∈ List.replicate 2 (helloFrame 5 SayHello.clientHeader [7]), b.length < 2^31 ∧
      (0 < (0 : Int32).toInt → (b.length : Int) ≤ 4 + (0 : Int32).toInt)) := by
  refine ⟨?_, hello_decodes _ (by simp) (by simp), ?_, ?_⟩
  · intro i hi
    simp only [List.mem_cons, List.not_mem_nil, or_false] at hi
    rcases hi with rfl | rfl | rfl
    · exact ⟨by simp, by decide, hello_decodes _ (by decide) (by decide)⟩
    · exact ⟨by simp, by decide, hello_decodes _ (by decide) (by decide)⟩
    · exact ⟨by simp, by decide, hello_decodes _ (by decide) (by decide)⟩
  · have : packxPack helloEnv (helloEnv.builtin .json) 5 (some [7]) [SayHello.clientHeader] = .ok (helloFrame 5 SayHello.clientHeader [7]) :=
      hello_packed .json 5 SayHello.clientHeader [7]
    simp only [SayHello.sends, this]
  · intro b hb
    rw [List.eq_of_mem_replicate hb]
    exact ⟨by decide, by decide⟩

end Tcpx
