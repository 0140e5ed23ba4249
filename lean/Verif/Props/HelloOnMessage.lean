import Verif.Model.HelloOnMessage
import Verif.Props.Hello
/-!
# Property C158: the `OnMessage` of the sayHello example
-/
namespace Tcpx
open Spec
variable {V : Type}

/-- A program that sends `b` and nothing else, once (`true`) or not at all (`false`), and looks nothing up. -/
inductive SendsOnly (b : Bytes) : Bool → Prog Unit → Prop where
  | ret : SendsOnly b false (.ret ())
  | send (k) : (∀ r, SendsOnly b false (k r)) → SendsOnly b true (.act (.note (.sent b)) k)
  | other (o a k) : (∀ b', a ≠ .note (.sent b')) → (∀ r, SendsOnly b o (k r)) → SendsOnly b o (.act a k)

theorem SendsOnly.owes {b : Bytes} {o : Bool} {p : Prog Unit} (h : SendsOnly b o p) (rt : String) (q : Res String) :
    Owes False rt q b (fun _ o => o = false) o p := by
  induction h with
  | ret => exact .ret _ _ rfl
  | send k _ ih => exact .send _ ih
  | other o a k ha _ ih => exact .other _ _ _ ha (fun r _ => ih r)

/-- Along every schedule such a request has sent its answer once, or has still to send it; whatever the other requests are. -/
theorem sendsOnly_run (s : Srv) (json : JSONCodec) (arr : Nat → Arrival) (i : Nat) (b : Bytes) (owed : Bool)
    (h0 : SendsOnly b owed (request s json (arr i).stream (arr i).code)) (sched : List Nat) :
    SendState False "" (.ok "") b owed i ((Sys.start s json arr).run sched) := by
  have := (run_induct arr (fun y => ∃ o, SendsOnly b o (y.threads i).prog ∧ (o = true → owed = true) ∧
      sentBy i y.trace = if owed = true ∧ o = false then [b] else []) _ (start_good s json arr)
      ⟨owed, h0, id, by cases owed <;> rfl⟩ ?_ sched).1
  · obtain ⟨o, h1, h2, h3⟩ := this
    exact ⟨o, h1.owes _ _, h2, h3⟩
  · rintro y j a k p _ ⟨o, ho, hw, hs⟩ hp
    by_cases hj : j = i
    · subst hj
      simp only [Sys.next, if_true]
      rw [hp] at ho
      cases ho with
      | send k hk =>
        refine ⟨false, hk _, by simp, ?_⟩
        simp only [sentBy] at hs ⊢
        simp [hs, hw rfl]
      | other o a k ha hk =>
        refine ⟨o, hk _, hw, ?_⟩
        rw [sentBy_cons_other (.inr (fun b' => ha b')), hs]
    · simp only [Sys.next, if_neg (Ne.symm hj)]
      rw [sentBy_cons_other (.inl hj)]
      exact ⟨o, ho, hw, hs⟩

/-- C158: whatever a message says of its routing, it is given to the global middleware, to both others (though one of them is no longer in
use at the end), and then to `OnMessage`; the registrations do not panic. -/
theorem C158_routes (r : Srv.Routed) :
    (runOps .new SayHello.opsOnMessage).handle r =
      .chain [SayHello.middlewareGlobal, SayHello.middleware1, SayHello.middleware2, SayHello.onMessage] ∧
    Registers .new SayHello.opsOnMessage = true := by
  refine ⟨?_, by decide⟩
  have : (runOps .new SayHello.opsOnMessage).onMessage = some SayHello.onMessage := by decide
  simp only [Srv.handle, this]
  decide

/-- The frames of the answers: `ans i` is what a message with id `i` is to be answered with. -/
structure Spec.OnAnswers (env : Env V) (success : V) (ans : Int32 → Bytes) : Prop where
  seven : packWithMarshaller env ⟨8, some [], some success⟩ (some (env.builtin .json)) = .ok (ans 7)
  nine : packWithMarshaller env ⟨10, some [], some success⟩ (some (env.builtin .json)) = .ok (ans 9)

theorem onMessage_code (env : Env V) (hj : env.json.Lawful) (max : Int) (room : Nat) (v : SayHello.OnVals V) (ans : Int32 → Bytes)
    (ha : OnAnswers env v.success ans) (hroom : ∀ i, i = 7 ∨ i = 9 → (ans i).length ≤ room) (x : Sent V) (hx : x.Ok env max) :
    (x.msg.id = 7 ∨ x.msg.id = 9 → SayHello.onMessageBody env room v x.bytes = .call (.send (ans x.msg.id)) fun _ => .done) ∧
    (¬ (x.msg.id = 7 ∨ x.msg.id = 9) → SayHello.onMessageBody env room v x.bytes = .done) := by
  have hid : messageIDOf { live := x.bytes } = .ok x.msg.id := (C81_handler_reads env hj max x hx []).1
  have hbind : ∀ dest, (∃ m, ctxBind env (env.builtin .json) { live := x.bytes } dest = .ok m) ∨
      ∃ e, ctxBind env (env.builtin .json) { live := x.bytes } dest = .err e := by
    intro dest
    obtain ⟨h1, h2⟩ := bind_readable env hj max x hx dest
    by_cases h : Readable env dest x
    · exact .inl (h1 h)
    · exact .inr (h2 h)
  have n1 : (env.builtin .json).name = "json" := rfl
  constructor
  · rintro (h | h)
    · have e : SayHello.onMessageBody env room v x.bytes =
          .ofSend (ctxReply env (env.builtin .json) .conn (.accept room) 8 (some v.success) []) .done := by
        unfold SayHello.onMessageBody
        rw [hid]
        simp only [h, if_true]
        rcases hbind v.noA with ⟨m, hm⟩ | ⟨m, hm⟩ <;> rw [hm]
      rw [e, h]
      simp only [ctxReply, packxPack, if_true, ha.seven, sendPacked, replyBuf, writeOnce]
      exact ofSend_one _ room (hroom 7 (.inl rfl)) _
    · have e : SayHello.onMessageBody env room v x.bytes =
          .ofSend (ctxFormat env (env.builtin .json) .json .conn (.accept room) 10 (some v.success) []) .done := by
        unfold SayHello.onMessageBody
        rw [hid]
        simp only [h, if_true, if_neg (show ¬ (9 : Int32) = 7 by decide)]
        rcases hbind v.noB with ⟨m, hm⟩ | ⟨m, hm⟩ <;> rw [hm]
      rw [e, h]
      simp only [ctxFormat, commonReply, n1, ne_eq, not_true_eq_false, if_false, packxPack, if_true, ha.nine, sendPacked, replyBuf, writeOnce]
      exact ofSend_one _ room (hroom 9 (.inr rfl)) _
  · intro h
    unfold SayHello.onMessageBody
    rw [hid]
    simp only [if_neg (fun h' => h (.inl h')), if_neg (fun h' => h (.inr h'))]

/-- C158: a client sends any messages over its connection, with any ids, header entries (also such as ask for other ways of routing), bodies
and marshallers; they arrive in any pieces and are handled along any schedule beside those of other connections.  No handling of a message
panics; what goes out over the connection are the answers to messages with ids 7 and 9, whole, each at most once, and nothing else; and when
all are finished, each of them has been answered. -/
theorem C158_answered (env : Env V) (hj : env.json.Lawful) (max : Int32) (room : Nat) (v : SayHello.OnVals V) (ans : Int32 → Bytes)
    (ha : OnAnswers env v.success ans) (hroom : ∀ i, i = 7 ∨ i = 9 → (ans i).length ≤ room)
    (xs : List (Sent V)) (hx : ∀ x ∈ xs, x.Ok env max.toInt) (tail : Bytes) (ht : Incomplete max.toInt tail) (e : Ending) (he : e.plain)
    (r : Reader) (hr : stream r = ((xs.map Sent.bytes).flatten ++ tail, e)) (c : Nat) (arr : Nat → Arrival)
    (hrec : ReceivedOn c (connLoop env.json max r).1 arr)
    (hcode : ∀ i, (arr i).tcp = some c → ∀ d, (arr i).code d = SayHello.codeOnMessage env room v (arr i).stream d) (sched : List Nat) :
    let y := (Sys.start (runOps .new SayHello.opsOnMessage) env.json arr).run sched
    (∀ i < xs.length, (y.threads i).prog ≠ .panic) ∧
    ∃ is : List Nat, is.Nodup ∧ (∀ i ∈ is, ∃ x, xs[i]? = some x ∧ (x.msg.id = 7 ∨ x.msg.id = 9)) ∧
      sentOn arr c y.trace = is.filterMap (fun i => xs[i]?.map fun x => ans x.msg.id) ∧
      ((∀ i < xs.length, ∀ a k, (y.threads i).prog ≠ .act a k) → ∀ i x, xs[i]? = some x → x.msg.id = 7 ∨ x.msg.id = 9 → i ∈ is) := by
  intro y
  rw [C81_one_task_each env hj max xs hx tail ht e he r hr] at hrec
  let owed : Nat → Bool := fun i => xs[i]?.any fun x => decide (x.msg.id = 7 ∨ x.msg.id = 9)
  let out : Nat → Bytes := fun i => (xs[i]?.map fun x => ans x.msg.id).getD []
  have howed : ∀ i, owed i = true ↔ ∃ x, xs[i]? = some x ∧ (x.msg.id = 7 ∨ x.msg.id = 9) := by
    intro i
    simp only [owed, Option.any_eq_true, decide_eq_true_eq]
  have hstate : ∀ i, (arr i).tcp = some c → SendState False "" (.ok "") (out i) (owed i) i y := by
    intro i hi
    obtain ⟨x, hm, h1, h2⟩ := received_getElem hrec hi
    obtain ⟨g1, g2⟩ := onMessage_code env hj max.toInt room v ans ha hroom x (hx x hm)
    refine sendsOnly_run _ env.json arr i _ _ ?_ sched
    have hon : (runOps .new SayHello.opsOnMessage).onMessage = some SayHello.onMessage := by decide
    have hd : (runOps .new SayHello.opsOnMessage).dispatchOnMessage SayHello.onMessage =
        .chain [SayHello.middlewareGlobal, SayHello.middleware1, SayHello.middleware2, SayHello.onMessage] := by decide
    have hc : (arr i).code (.chain [SayHello.middlewareGlobal, SayHello.middleware1, SayHello.middleware2, SayHello.onMessage]) =
        SayHello.onMessageBody env room v x.bytes := by
      rw [hcode i hi, h2]; rfl
    have hout : out i = ans x.msg.id := by simp [out, h1]
    unfold request
    rw [hon]
    simp only [hd]
    refine .other _ _ _ (by simp) (fun _ => ?_)
    show SendsOnly _ _ (Prog.bind (((arr i).code _).run env.json (arr i).stream) _)
    rw [hc, hout]
    by_cases hq : x.msg.id = 7 ∨ x.msg.id = 9
    · rw [(howed i).2 ⟨x, h1, hq⟩, g1 hq]
      exact .send _ (fun _ => .other _ _ _ (by simp) (fun _ => .ret))
    · have hf : owed i = false := by
        cases h : owed i with
        | false => rfl
        | true =>
          obtain ⟨x', h', hq'⟩ := (howed i).1 h
          rw [h1] at h'; injection h' with h'; subst h'; exact absurd hq' hq
      rw [hf, g2 hq]
      exact .other _ _ _ (by simp) (fun _ => .ret)
  have htcp : ∀ i < xs.length, (arr i).tcp = some c := fun i hi => (hrec.1 i xs[i].bytes (by simp [hi])).1
  have hnp : ∀ i < xs.length, (y.threads i).prog ≠ .panic := by
    intro i hi hp
    obtain ⟨o, ho, _⟩ := hstate i (htcp i hi)
    rw [hp] at ho
    cases ho with
    | panic _ h => exact h
  refine ⟨hnp, ?_⟩
  obtain ⟨is, n1, n2, n3, n4⟩ := answered_of_states arr c out owed y hstate
  have n2' : ∀ i ∈ is, ∃ x, xs[i]? = some x ∧ (x.msg.id = 7 ∨ x.msg.id = 9) := fun i hi => (howed i).1 (n2 i hi).2
  refine ⟨is, n1, n2', ?_, ?_⟩
  · rw [n3]
    clear n1 n2 n3 n4
    induction is with
    | nil => rfl
    | cons i is ih =>
      obtain ⟨x, h, _⟩ := n2' i List.mem_cons_self
      rw [List.map_cons, ih (fun j hj => n2' j (List.mem_cons_of_mem _ hj))]
      simp [out, h]
  · intro hfin i x hix hq
    have hi : i < xs.length := (List.getElem?_eq_some_iff.1 hix).1
    refine n4 i (htcp i hi) ((howed i).2 ⟨x, hix, hq⟩) ?_
    cases hp : (y.threads i).prog with
    | ret a => rfl
    | panic => exact absurd hp (hnp i hi)
    | act a k => exact absurd hp (hfin i hi a k)

/-! Example for C158: a message with id 7 that asks to be routed by pattern, one with id 3, and one with id 9 whose body cannot be bound, in two
pieces. -/

private def onEnv : Env Bytes := { Demo.env with dec := fun b t d => if t = [9] then none else Demo.env.dec b t d }

private def onVals : SayHello.OnVals Bytes := ⟨[], [], [1]⟩

private def onAns (i : Int32) : Bytes := Tcpx.frame (i + 1) (Demo.encHeader (some [])) [1]

private theorem on_packed (id : Int32) (h : Header) (body : Bytes) :
    packWithMarshaller onEnv ⟨id, h, some body⟩ (some (onEnv.builtin .json)) = .ok (Tcpx.frame id (Demo.encHeader h) body) := by
  simp [packWithMarshaller, onEnv, Demo.env, Demo.json, orErr, Env.builtin]

private def onSent (id : Int32) (h : Header) (body : Bytes) : Sent Bytes :=
  ⟨⟨id, h, some body⟩, some (onEnv.builtin .json), Tcpx.frame id (Demo.encHeader h) body⟩

private theorem onSent_ok (id : Int32) (h : Header) (body : Bytes) (hb : body.length = 1) (hh : (Demo.encHeader h).length < 2^20)
    (hm : h.get? "[tcpx-buffer-in-serial]" = none) : (onSent id h body).Ok onEnv (0 : Int32).toInt := by
  refine ⟨on_packed id h body, ?_, (by intro h; exact absurd h (by decide)), hm⟩
  have : (onSent id h body).bytes.length = 16 + (Demo.encHeader h).length + body.length := by
    simp [onSent, Tcpx.frame, putUint32]; omega
  omega

private def onArr (tasks : List Task) : Nat → Arrival := fun i =>
  match tasks[i]? with
  | some (.single b) => ⟨some 4, b, fun d => SayHello.codeOnMessage onEnv 1000 onVals b d⟩
  | _ => ⟨none, [], fun _ => .done⟩

set_option maxRecDepth 100000 in
example : let xs := [onSent 7 (some [("Router-Type", .str "URL_PATTERN")]) [7], onSent 3 none [8], onSent 9 (some []) [9]]
    onEnv.json.Lawful ∧ OnAnswers onEnv onVals.success onAns ∧ (∀ i, i = 7 ∨ i = 9 → (onAns i).length ≤ 1000) ∧
    (∀ x ∈ xs, x.Ok onEnv (0 : Int32).toInt) ∧
    ∃ (r : Reader) (arr : Nat → Arrival), stream r = ((xs.map Sent.bytes).flatten ++ [], .stillOpen) ∧
      ReceivedOn 4 (connLoop onEnv.json 0 r).1 arr ∧
      ∀ i, (arr i).tcp = some 4 → ∀ d, (arr i).code d = SayHello.codeOnMessage onEnv 1000 onVals (arr i).stream d := by
  intro xs
  refine ⟨Demo.json_lawful, ⟨on_packed 8 _ _, on_packed 10 _ _⟩, ?_, ?_, ?_⟩
  · rintro i (rfl | rfl) <;> decide
  · intro x hx
    simp only [xs, List.mem_cons, List.not_mem_nil, or_false] at hx
    rcases hx with rfl | rfl | rfl <;> exact onSent_ok _ _ _ rfl (by decide) (by decide)
  · let r : Reader := [.chunk (onSent 7 (some [("Router-Type", .str "URL_PATTERN")]) [7]).bytes,
      .chunk ((onSent 3 none [8]).bytes ++ (onSent 9 (some []) [9]).bytes)]
    refine ⟨r, onArr (connLoop onEnv.json 0 r).1, by simp [r, xs, stream], ⟨?_, ?_⟩, ?_⟩
    · intro i b h; simp only [onArr, h]; exact ⟨trivial, trivial⟩
    · intro i h; simp [onArr, List.getElem?_eq_none h]
    · intro i hi d
      unfold onArr at hi ⊢
      split at hi
      · simp only
      · cases hi

end Tcpx
