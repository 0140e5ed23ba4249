import Verif.Spec.EndToEnd
import Verif.Props.Requests
import Verif.Props.Sending
/-!
# C81–C83: from the sender's call to the receiver's handler, and back
-/
namespace Tcpx
open Spec
variable {V : Type}

/-! ## C81 -/

theorem sent_frame {env : Env V} {max : Int} {x : Sent V} (hx : x.Ok env max) :
    ∃ hb bb, env.json.marshal x.msg.header = some hb ∧ BodyEnc env x.m x.msg.body bb ∧ payload hb bb < 2^31 - 4 ∧
      x.bytes = Spec.frame x.msg.id.toInt hb bb ∧ (0 < max → (payload hb bb : Int) ≤ max) := by
  obtain ⟨hb, bb, h1, h2, h3⟩ := pack_ok hx.packed
  have hlen : x.bytes.length = 4 + payload hb bb := by
    rw [h3]; simp [Tcpx.frame, putUint32, payload]; omega
  have hsm := hx.small
  have hfit := hx.fits
  have hp : payload hb bb < 2^31 - 4 := by omega
  exact ⟨hb, bb, h1, bodyEnc_of h2, hp, h3.trans (frame_eq_spec _ _ _ (by omega)), fun h0 => by have := hfit h0; omega⟩

theorem sent_acceptable {env : Env V} {max : Int} {x : Sent V} (hx : x.Ok env max) : Acceptable max x.bytes := by
  obtain ⟨hb, bb, _, _, hp, he, hm⟩ := sent_frame hx
  rw [he]
  exact frame_acceptable max _ hb bb (by omega) hm

theorem sent_ordinary {env : Env V} (hj : env.json.Lawful) {max : Int} {x : Sent V} (hx : x.Ok env max) :
    KindOf env.json x.bytes .ordinary := by
  obtain ⟨hb, bb, h1, _, hp, he, _⟩ := sent_frame hx
  obtain ⟨_, h', hd, _, hk⟩ := hj.roundtrip _ _ h1
  refine .ordinary h' ?_ (.absent _ ?_)
  · rw [he, frameHeader_frame _ _ _ _ hp, hd]
  · have := hk PIPED
    have hn : Header.get? x.msg.header PIPED = none := hx.noMarker
    rw [hn] at this
    cases hg : Header.get? h' PIPED with
    | none => rfl
    | some v => rw [hg] at this; cases this

/-- C81: a connection over which a peer sends any list of packed messages, in whatever pieces the bytes arrive, starts exactly one
goroutine per message, in the order they were sent, each with exactly the bytes packed for that message; then it waits for more if
the stream is still open and ends otherwise. -/
theorem C81_one_task_each (env : Env V) (hj : env.json.Lawful) (max : Int32) (xs : List (Sent V))
    (hx : ∀ x ∈ xs, x.Ok env max.toInt) (tail : Bytes) (ht : Incomplete max.toInt tail) (e : Ending) (he : e.plain) (r : Reader)
    (hr : stream r = ((xs.map Sent.bytes).flatten ++ tail, e)) :
    connLoop env.json max r = (xs.map (fun x => .single x.bytes), if e = .stillOpen then .blocked else .ended) := by
  induction xs generalizing r with
  | nil =>
    simp only [List.map_nil, List.flatten_nil, List.nil_append] at hr
    have h1 : (stream r).1 = tail := by rw [hr]
    have h2 : (stream r).2 = e := by rw [hr]
    have hsh := incomplete_step r max (by rw [h1]; exact ht)
    rw [h2] at hsh
    cases e with
    | stillOpen => rw [connLoop_block hsh]; simp
    | closed => obtain ⟨_, hsh⟩ := hsh; rw [connLoop_err hsh]; simp
    | failed => obtain ⟨_, hsh⟩ := hsh; rw [connLoop_err hsh]; simp
    | closedWith l => exact he.elim
  | cons x xs ih =>
    have hx0 := hx x (List.mem_cons_self)
    simp only [List.map_cons, List.flatten_cons, List.append_assoc] at hr
    obtain ⟨r1, e1, e2⟩ := frame_step r max x.bytes _ e hr (sent_acceptable hx0)
    have hk : isPipe env.json x.bytes = .ok (false, 0) := kind_result (sent_ordinary hj hx0)
    rw [connLoop_ok e1, hk]
    simp only
    rw [ih (fun y hy => hx y (List.mem_cons_of_mem _ hy)) r1 e2]
    simp

/-- C81: what a handler reads of a received message (whatever lies behind it in the buffer) is what the sender packed: the id, the
header, the encoded body with `RawStream`, and with `BindWithMarshaller` the body itself if the marshaller can decode its own text. -/
theorem C81_handler_reads (env : Env V) (hj : env.json.Lawful) (max : Int) (x : Sent V) (hx : x.Ok env max) (spare : Bytes) :
    messageIDOf ⟨x.bytes, spare⟩ = .ok x.msg.id ∧
    (∃ h', headerOf env.json ⟨x.bytes, spare⟩ = .ok h' ∧ SameHeader x.msg.header h') ∧
    (∃ t, ctxRawStream ⟨x.bytes, spare⟩ = .ok t ∧ BodyEnc env x.m x.msg.body t.live) ∧
    (∀ v dest, x.msg.body = some v → Decodes (x.m.getD (env.builtin .json)) v →
      ∃ h', ctxBindWithMarshaller env x.m ⟨x.bytes, spare⟩ dest = .ok { id := x.msg.id, header := h', body := some v } ∧
        SameHeader x.msg.header h') ∧
    (∀ dest, x.msg.body = none →
      ∃ h', ctxBindWithMarshaller env x.m ⟨x.bytes, spare⟩ dest = .ok { id := x.msg.id, header := h', body := some dest } ∧
        SameHeader x.msg.header h') := by
  obtain ⟨hb, bb, h1, h2, hp, he, _⟩ := sent_frame hx
  obtain ⟨hne, h', hd, hn, hk⟩ := hj.roundtrip _ _ h1
  have acc := C02_accessors ⟨x.bytes, spare⟩ x.msg.id hb bb [] (by simp [he]) hp
  obtain ⟨_, a2, _, _, ⟨t, a5, a5'⟩, ⟨u, a6, a6'⟩⟩ := acc
  have hun : ∀ dest, ctxBindWithMarshaller env x.m ⟨x.bytes, spare⟩ dest =
      (do let dest ← (if bb = [] then .ok dest else orErr ((x.m.getD (env.builtin .json)).unmarshal bb dest) .marshal)
          .ok { id := x.msg.id, header := h', body := some dest }) := by
    intro dest
    unfold ctxBindWithMarshaller packxUnpack
    rw [unpack_frame env ⟨x.bytes, spare⟩ dest _ x.msg.id.toInt hb bb [] (by simp [he]) (by omega), if_neg hne, hd, id_of_pattern]
    simp [orErr]
  refine ⟨a2, ⟨h', by simp [headerOf, a5, a5', hd, orErr], hn, hk⟩, ⟨u, a6, by rw [a6']; exact h2⟩, ?_, ?_⟩
  · intro v dest hv ⟨bb', e1, e2, e3⟩
    refine ⟨h', ?_, hn, hk⟩
    have : bb = bb' := by
      rcases h2 with ⟨h, _⟩ | ⟨w, hw, h⟩
      · rw [hv] at h; cases h
      · rw [hv] at hw
        injection hw with hw
        subst hw
        rcases h with ⟨hm, h⟩ | ⟨m', hm, h⟩
        · rw [hm] at e1
          have := h.symm.trans e1
          injection this
        · rw [hm] at e1
          have := h.symm.trans e1
          injection this
    rw [hun, if_neg (by rw [this]; exact e2), this, e3]
    simp [orErr]
  · intro dest hv
    refine ⟨h', ?_, hn, hk⟩
    have : bb = [] := by
      rcases h2 with ⟨_, h⟩ | ⟨w, hw, _⟩
      · exact h
      · rw [hv] at hw; cases hw
    rw [hun, if_pos this]
    simp

/-- C81: with `Bind`, which uses the marshaller of the server, a handler reads the body if its sender used that marshaller. -/
theorem C81_bind (env : Env V) (hj : env.json.Lawful) (max : Int) (x : Sent V) (hx : x.Ok env max) (spare : Bytes) (m : Marshaller V)
    (hm : x.m = some m ∨ x.m = none ∧ m = env.builtin .json) (v dest : V) (hv : x.msg.body = some v) (hd : Decodes m v) :
    ∃ h', ctxBind env m ⟨x.bytes, spare⟩ dest = .ok { id := x.msg.id, header := h', body := some v } ∧ SameHeader x.msg.header h' := by
  have e : x.m.getD (env.builtin .json) = m := by
    rcases hm with h | ⟨h, rfl⟩ <;> rw [h] <;> rfl
  obtain ⟨h', h1, h2⟩ := (C81_handler_reads env hj max x hx spare).2.2.2.1 v dest hv (e ▸ hd)
  refine ⟨h', ?_, h2⟩
  rw [← h1]
  unfold ctxBind ctxBindWithMarshaller
  rw [e]

/-- Full claim of C81 on dispatch: along every schedule the `i`-th message of connection `c` is dispatched at most once, to the
handlers its sender addressed, and has been dispatched when its request is finished. -/
def Spec.HandledAsAddressed (s : Srv) (json : JSONCodec) (arr : Nat → Arrival) (i : Nat) (d : Dispatch) : Prop :=
  ∀ sched, let y := (Sys.start s json arr).run sched
    (dispatches i y.trace = [] ∨ dispatches i y.trace = [d]) ∧ ((y.threads i).prog.Stopped → dispatches i y.trace = [d])

/-- What the messages of connection `c` are: `arr i` for `i` below the number of tasks started by the connection loop. -/
def Spec.ReceivedOn (c : Nat) (tasks : List Task) (arr : Nat → Arrival) : Prop :=
  (∀ i b, tasks[i]? = some (.single b) → (arr i).tcp = some c ∧ (arr i).stream = b) ∧
  (∀ i, tasks.length ≤ i → (arr i).tcp ≠ some c)

theorem received_getElem {c : Nat} {arr : Nat → Arrival} {xs : List (Sent V)} (h : ReceivedOn c (xs.map (fun x => .single x.bytes)) arr)
    {j : Nat} (hj : (arr j).tcp = some c) : ∃ x ∈ xs, xs[j]? = some x ∧ (arr j).stream = x.bytes := by
  have hlt : j < xs.length := by
    rcases Nat.lt_or_ge j xs.length with hlt | hge
    · exact hlt
    · exact absurd hj (h.2 j (by simpa using hge))
  refine ⟨xs[j], List.getElem_mem hlt, List.getElem?_eq_getElem hlt, ?_⟩
  exact (h.1 j xs[j].bytes (by simp [hlt])).2

/-- C81 for messages built with `NewMessage` (partial): a client sends any number of them over one connection, with any ids, bodies
and marshallers; they arrive in any pieces; their requests run concurrently with each other and with those of other connections
along any schedule.  Then each is given, exactly once, to the handlers registered for its id, and what these read with `MessageIDOf`
and `Bind` is what the client packed (`C81_handler_reads`).  Handlers may do anything but store under "router_type".
Missing: clients that also send messages built with `NewURLPatternMessage` over the same connection
(`C81_mixed_violated`). -/
theorem C81_messages_handled_partial (env : Env V) (hj : env.json.Lawful) (s : Srv) (hno : s.onMessage = none) (max : Int32)
    (xs : List (Sent V)) (ids : Nat → Int32) (bodies : Nat → Option V)
    (hx : ∀ i x, xs[i]? = some x → x.Ok env max.toInt ∧ x.msg = newMessage (ids i) (bodies i))
    (tail : Bytes) (ht : Incomplete max.toInt tail) (e : Ending) (he : e.plain) (r : Reader)
    (hr : stream r = ((xs.map Sent.bytes).flatten ++ tail, e)) (c : Nat) (arr : Nat → Arrival)
    (harr : ReceivedOn c (connLoop env.json max r).1 arr)
    (hcode : ∀ j, (arr j).tcp = some c → ∀ d, Avoids StoresRouterType ((arr j).code d)) :
    (connLoop env.json max r).1.length = xs.length ∧
    ∀ i < xs.length, HandledAsAddressed s env.json arr i (s.dispatchId (ids i)) := by
  have hmem : ∀ x ∈ xs, x.Ok env max.toInt := by
    intro x hm
    obtain ⟨i, hi, rfl⟩ := List.mem_iff_getElem.1 hm
    exact (hx i _ (List.getElem?_eq_getElem hi)).1
  have hl := C81_one_task_each env hj max xs hmem tail ht e he r hr
  rw [hl] at harr ⊢
  refine ⟨by simp, fun i hi => ?_⟩
  have hpk : ∀ j, (arr j).tcp = some c → (newMessage (ids j) (bodies j)).pack env (xs[j]?.bind Sent.m) = .ok (arr j).stream ∧
      (arr j).stream.length < 2^31 := by
    intro j hjc
    obtain ⟨x, hxm, hxj, hs⟩ := received_getElem harr hjc
    obtain ⟨h1, h2⟩ := hx j x hxj
    rw [hs, hxj]
    refine ⟨?_, h1.small⟩
    rw [← h2]
    exact h1.packed
  have hic : (arr i).tcp = some c := (harr.1 i xs[i].bytes (by simp [hi])).1
  have := C35_tcp_same_type_partial s env.json arr c i hic
    (fun j hjc => (packed_frame env hj _ _ _ (hpk j hjc).1 (hpk j hjc).2).2.2.1)
    (fun j hjc => by
      rw [headerType_message env hj _ _ _ _ (hpk j hjc).1 (hpk j hjc).2, headerType_message env hj _ _ _ _ (hpk i hic).1 (hpk i hic).2])
    hcode _ (C72_message_route env hj _ _ _ _ (hpk i hic).1 (hpk i hic).2)
  intro sched
  have := this sched
  simpa only [Srv.handle, hno] using this

theorem headerType_pattern (env : Env V) (hj : env.json.Lawful) (p : String) (src : Option V) (m : Option (Marshaller V)) (bs : Bytes)
    (hp : (newURLPatternMessage p src).pack env m = .ok bs) (hl : bs.length < 2^31) : headerType env.json bs = URLPATTERN := by
  obtain ⟨_, _, _, h', hf, hk⟩ := packed_frame env hj _ m bs hp hl
  rw [headerType_eq hf, typeIn, getString_of (hk "Router-Type") "URL_PATTERN" rfl]; rfl

/-- C81 for messages built with `NewURLPatternMessage` (partial): the same, each given to the handlers of its pattern.
Missing: as in `C81_messages_handled_partial`. -/
theorem C81_patterns_handled_partial (env : Env V) (hj : env.json.Lawful) (s : Srv) (hno : s.onMessage = none) (max : Int32)
    (xs : List (Sent V)) (patterns : Nat → String) (bodies : Nat → Option V)
    (hx : ∀ i x, xs[i]? = some x → x.Ok env max.toInt ∧ x.msg = newURLPatternMessage (patterns i) (bodies i))
    (tail : Bytes) (ht : Incomplete max.toInt tail) (e : Ending) (he : e.plain) (r : Reader)
    (hr : stream r = ((xs.map Sent.bytes).flatten ++ tail, e)) (c : Nat) (arr : Nat → Arrival)
    (harr : ReceivedOn c (connLoop env.json max r).1 arr)
    (hcode : ∀ j, (arr j).tcp = some c → ∀ d, Avoids StoresRouterType ((arr j).code d)) :
    (connLoop env.json max r).1.length = xs.length ∧
    ∀ i < xs.length, HandledAsAddressed s env.json arr i (s.dispatchUrl (patterns i)) := by
  have hmem : ∀ x ∈ xs, x.Ok env max.toInt := by
    intro x hm
    obtain ⟨i, hi, rfl⟩ := List.mem_iff_getElem.1 hm
    exact (hx i _ (List.getElem?_eq_getElem hi)).1
  have hl := C81_one_task_each env hj max xs hmem tail ht e he r hr
  rw [hl] at harr ⊢
  refine ⟨by simp, fun i hi => ?_⟩
  have hpk : ∀ j, (arr j).tcp = some c →
      (newURLPatternMessage (patterns j) (bodies j)).pack env (xs[j]?.bind Sent.m) = .ok (arr j).stream ∧
      (arr j).stream.length < 2^31 := by
    intro j hjc
    obtain ⟨x, hxm, hxj, hs⟩ := received_getElem harr hjc
    obtain ⟨h1, h2⟩ := hx j x hxj
    rw [hs, hxj]
    refine ⟨?_, h1.small⟩
    rw [← h2]
    exact h1.packed
  have hic : (arr i).tcp = some c := (harr.1 i xs[i].bytes (by simp [hi])).1
  have := C35_tcp_same_type_partial s env.json arr c i hic
    (fun j hjc => (packed_frame env hj _ _ _ (hpk j hjc).1 (hpk j hjc).2).2.2.1)
    (fun j hjc => by
      rw [headerType_pattern env hj _ _ _ _ (hpk j hjc).1 (hpk j hjc).2, headerType_pattern env hj _ _ _ _ (hpk i hic).1 (hpk i hic).2])
    hcode _ (C72_pattern_route env hj _ _ _ _ (hpk i hic).1 (hpk i hic).2)
  intro sched
  have := this sched
  simpa only [Srv.handle, hno] using this

/-- C81 is violated whenever a client sends a `NewMessage` message and then a `NewURLPatternMessage` message over one connection
(and the server has different handlers for that pattern and for id 0): along some schedule the second is not handled as
addressed, whatever the fragmentation. -/
theorem C81_mixed_violated (env : Env V) (hj : env.json.Lawful) (s : Srv) (hno : s.onMessage = none) (max : Int32)
    (x0 x1 : Sent V) (id : Int32) (p : String) (b0 b1 : Option V) (h0 : x0.Ok env max.toInt) (h1 : x1.Ok env max.toInt)
    (e0 : x0.msg = newMessage id b0) (e1 : x1.msg = newURLPatternMessage p b1) (r : Reader)
    (hr : stream r = (x0.bytes ++ x1.bytes, .stillOpen)) (c : Nat) (arr : Nat → Arrival)
    (harr : ReceivedOn c (connLoop env.json max r).1 arr) (hne : s.dispatchUrl p ≠ s.dispatchId 0) :
    ¬ HandledAsAddressed s env.json arr 1 (s.dispatchUrl p) := by
  have hl := C81_one_task_each env hj max [x0, x1] (by simp [h0, h1]) [] (.inl (by simp)) .stillOpen trivial r (by simp [hr])
  rw [hl] at harr
  have a0 := harr.1 0 x0.bytes rfl
  have a1 := harr.1 1 x1.bytes rfl
  have key := C35_tcp_violated env hj s hno c arr id p b0 b1 x0.m x1.m a0.1 a1.1 (by rw [a0.2, ← e0]; exact h0.packed)
    (by rw [a1.2, ← e1]; exact h1.packed) (by rw [a0.2]; exact h0.small) (by rw [a1.2]; exact h1.small)
  obtain ⟨⟨sched, hs⟩, _⟩ := key
  intro hall
  rcases (hall sched).1 with h | h
  · rw [hs] at h; cases h
  · rw [hs] at h
    injection h with h
    exact hne h.symm

/-! Examples for C81: messages for ids 7 and -1 and one for the pattern "/a". -/

/-- A message packed with the example codec. -/
private def demoSent (msg : Message Bytes) : Sent Bytes := ⟨msg, none, Tcpx.frame msg.id (Demo.encHeader msg.header) (msg.body.getD [])⟩

private theorem demo_packed (msg : Message Bytes) :
    packWithMarshaller Demo.env (demoSent msg).msg (demoSent msg).m = .ok (demoSent msg).bytes := by
  cases h : msg.body <;> simp [packWithMarshaller, demoSent, Demo.env, Demo.json, orErr, Env.builtin, h]

set_option maxRecDepth 100000 in
private theorem demo_ok0 : (demoSent (newMessage 7 (some [1,2]))).Ok Demo.env 0 :=
  ⟨demo_packed _, by decide, by intro h; omega, by decide⟩

set_option maxRecDepth 100000 in
private theorem demo_ok1 : (demoSent (newMessage (-1) none)).Ok Demo.env 0 :=
  ⟨demo_packed _, by decide, by intro h; omega, by decide⟩

set_option maxRecDepth 100000 in
private theorem demo_ok2 : (demoSent (newURLPatternMessage "/a" (some [3]))).Ok Demo.env 0 :=
  ⟨demo_packed _, by decide, by intro h; omega, by decide⟩

example : Decodes (Demo.env.builtin .json) [1,2] := ⟨[1,2], rfl, by simp, fun _ => rfl⟩
example : ∃ h', ctxBind Demo.env (Demo.env.builtin .json) ⟨(demoSent (newMessage 7 (some [1,2]))).bytes, [9]⟩ [] =
    .ok { id := 7, header := h', body := some [1,2] } :=
  (C81_bind Demo.env Demo.json_lawful 0 _ demo_ok0 [9] _ (.inr ⟨rfl, rfl⟩) [1,2] [] rfl ⟨[1,2], rfl, by simp, fun _ => rfl⟩).imp fun _ h => h.1

/-- There are always arrivals fitting the tasks of a connection. -/
private theorem received_exists (c : Nat) (tasks : List Task) : ∃ arr, ReceivedOn c tasks arr := by
  refine ⟨fun i => match tasks[i]? with | some (.single b) => ⟨some c, b, fun _ => .done⟩ | _ => ⟨none, [], fun _ => .done⟩, ?_, ?_⟩
  · intro i b h; simp only [h]; exact ⟨trivial, trivial⟩
  · intro i h
    simp only [List.getElem?_eq_none h]
    simp

-- two messages arriving in one piece on connection 4
example : let xs := [demoSent (newMessage 7 (some [1,2])), demoSent (newMessage (-1) none)]
    let ids (i : Nat) : Int32 := if i = 0 then 7 else -1
    let bodies (i : Nat) : Option Bytes := if i = 0 then some [1,2] else none
    (∀ i x, xs[i]? = some x → x.Ok Demo.env (0 : Int32).toInt ∧ x.msg = newMessage (ids i) (bodies i)) ∧
    ∃ (r : Reader) (arr : Nat → Arrival),
      stream r = ((xs.map Sent.bytes).flatten ++ [], .stillOpen) ∧ ReceivedOn 4 (connLoop Demo.env.json 0 r).1 arr := by
  intro xs ids bodies
  refine ⟨?_, [.chunk (xs.map Sent.bytes).flatten], ?_⟩
  · intro i x hix
    match i with
    | 0 => simp only [xs, List.getElem?_cons_zero, Option.some.injEq] at hix; subst hix; exact ⟨demo_ok0, rfl⟩
    | 1 => simp only [xs, List.getElem?_cons_succ, List.getElem?_cons_zero, Option.some.injEq] at hix; subst hix; exact ⟨demo_ok1, rfl⟩
    | i + 2 => simp [xs] at hix
  · obtain ⟨arr, h⟩ := received_exists 4 (connLoop Demo.env.json 0 [.chunk (xs.map Sent.bytes).flatten]).1
    exact ⟨arr, by simp only [stream], h⟩

/-! ## C82: the client functions -/

/-- C82: `WriteJSON` hands exactly one buffer to the connection, the frame of the message, or nothing at all and an error if the body
(or the empty header) cannot be encoded; a failed `Write` is reported. -/
theorem C82_writeJSON (env : Env V) (ev : WEv) (id : Int32) (src : Option V) :
    (∀ hb bb, env.json.marshal none = some hb → BodyEnc env none src bb → payload hb bb < 2^32 →
      ∃ n, (writeJSON env ev id src).calls = [⟨Spec.frame id.toInt hb bb, n⟩] ∧
        (∀ k, ev = .accept k → n = min k (Spec.frame id.toInt hb bb).length ∧ (writeJSON env ev id src).res = .ok ()) ∧
        (∀ k, ev = .fail k → n = min k (Spec.frame id.toInt hb bb).length ∧ ∃ e, (writeJSON env ev id src).res = .err e)) ∧
    ((env.json.marshal none = none ∨ ∃ v, src = some v ∧ env.enc .json v = none) →
      (writeJSON env ev id src).calls = [] ∧ ∃ e, (writeJSON env ev id src).res = .err e) := by
  constructor
  · intro hb bb h1 h2 hs
    have hpk : packWithMarshaller env { id := id, header := none, body := src } (some (env.builtin .json)) =
        .ok (Spec.frame id.toInt hb bb) := by
      refine pack_spec env id none src _ hb bb h1 ?_ hs
      rcases h2 with h | ⟨v, hv, ⟨_, h⟩ | ⟨_, h, _⟩⟩
      · exact .inl h
      · exact .inr ⟨v, hv, h⟩
      · cases h
    unfold writeJSON
    rw [hpk]
    simp only [sendPacked]
    cases ev with
    | accept k => exact ⟨_, rfl, fun j hj => by cases hj; exact ⟨rfl, rfl⟩, fun j hj => by cases hj⟩
    | fail k => exact ⟨_, rfl, fun j hj => (by cases hj), fun j hj => (by cases hj; exact ⟨rfl, _, rfl⟩)⟩
  · intro hbad
    unfold writeJSON
    rcases pack_cases env id none src (env.builtin .json) with ⟨hb, bb, h1, h2, _⟩ | ⟨_, e, he⟩
    · rcases hbad with h | ⟨v, hv, h⟩
      · rw [h1] at h; cases h
      · rcases h2 with ⟨h2, _⟩ | ⟨w, hw, h2⟩
        · rw [h2] at hv; cases hv
        · rw [hw] at hv; cases hv; exact absurd (h2.symm.trans h) (by simp)
    · rw [he]; exact ⟨rfl, _, rfl⟩

/-- C82: `TCPCallOnceJSON` reports a failed dial without writing anything; otherwise it does what `WriteJSON` does with the id, which
must fit an `int32`, and closes the connection whatever happened. -/
theorem C82_callOnce (env : Env V) (z : Int) (src : Option V) :
    ((tcpCallOnceJSON env none z src).dialled = false ∧ (tcpCallOnceJSON env none z src).calls = [] ∧
      ∃ e, (tcpCallOnceJSON env none z src).res = .err e) ∧
    ∀ ev, (tcpCallOnceJSON env (some ev) z src).dialled = true ∧ (tcpCallOnceJSON env (some ev) z src).closed = true ∧
      ∀ hb bb, env.json.marshal none = some hb → BodyEnc env none src bb → payload hb bb < 2^32 → -2^31 ≤ z → z < 2^31 →
        ∃ n, (tcpCallOnceJSON env (some ev) z src).calls = [⟨Spec.frame z hb bb, n⟩] ∧
          (∀ k, ev = .accept k → n = min k (Spec.frame z hb bb).length ∧ (tcpCallOnceJSON env (some ev) z src).res = .ok ()) ∧
          (∀ k, ev = .fail k → n = min k (Spec.frame z hb bb).length ∧ ∃ e, (tcpCallOnceJSON env (some ev) z src).res = .err e) := by
  refine ⟨⟨rfl, rfl, _, rfl⟩, fun ev => ⟨rfl, rfl, ?_⟩⟩
  intro hb bb h1 h2 hs hz0 hz1
  have hz : (Int32.ofInt z).toInt = z := Int32.toInt_ofInt_of_le (by omega) (by omega)
  have := (C82_writeJSON env ev (Int32.ofInt z) src).1 hb bb h1 h2 hs
  rw [hz] at this
  exact this

/-- C82, caveat: an id outside the range of `int32` is silently sent as another id. -/
theorem C82_callOnce_id_limit (env : Env V) (ev : WEv) (z : Int) (src : Option V) (hb bb : Bytes) (h1 : env.json.marshal none = some hb)
    (h2 : BodyEnc env none src bb) (hs : payload hb bb < 2^32) :
    ∃ n, (tcpCallOnceJSON env (some ev) (z + 2^32) src).calls = [⟨Spec.frame (Int32.ofInt z).toInt hb bb, n⟩] := by
  obtain ⟨n, h, _⟩ := (C82_writeJSON env ev (Int32.ofInt (z + 2^32)) src).1 hb bb h1 h2 hs
  have : Int32.ofInt (z + 2^32) = Int32.ofInt z := by
    rw [← Int32.toInt_inj, Int32.toInt_ofInt, Int32.toInt_ofInt]
    exact Int.add_bmod_right ..
  refine ⟨n, ?_⟩
  rw [← this]
  rw [← h]
  rfl

/-- C82: calling `Recv` as often as there are complete frames returns exactly these frames, in order and for every fragmentation,
and leaves exactly what follows them. -/
theorem C82_recv_each (fs : List Bytes) (ha : ∀ f ∈ fs, Acceptable 0 f) (tail : Bytes) (e : Ending) (r : Reader)
    (hr : stream r = (fs.flatten ++ tail, e)) : ∃ r', recvMany fs.length r = .ok fs r' ∧ stream r' = (tail, e) := by
  induction fs generalizing r with
  | nil => exact ⟨r, rfl, by simpa using hr⟩
  | cons f fs ih =>
    simp only [List.flatten_cons, List.append_assoc] at hr
    obtain ⟨r1, e1, e2⟩ := frame_step r 0 f _ e hr (ha f List.mem_cons_self)
    have e1 : recv r = .ok f r1 := e1
    obtain ⟨r2, e3, e4⟩ := ih (fun g hg => ha g (List.mem_cons_of_mem _ hg)) r1 e2
    exact ⟨r2, by simp [recvMany, e1, e3], e4⟩

/-- C82: what the methods of `PackType` read of a received message is what its sender packed. -/
theorem C82_packType_reads (env : Env V) (hj : env.json.Lawful) (max : Int) (x : Sent V) (hx : x.Ok env max) (spare : Bytes) :
    packTypeMessageID ⟨x.bytes, spare⟩ = .ok x.msg.id ∧
    (∀ b v dest, x.msg.body = some v → x.m = some (env.builtin b) → Decodes (env.builtin b) v →
      packTypeBind env b ⟨x.bytes, spare⟩ dest = .ok v) ∧
    (∀ v dest, x.msg.body = some v → x.m = none → Decodes (env.builtin .json) v →
      packTypeBind env .json ⟨x.bytes, spare⟩ dest = .ok v) ∧
    (∀ p, x.msg.header.get? "Router-Pattern-Value" = some (.str p) → packTypeURLPattern env.json ⟨x.bytes, spare⟩ = .ok p) ∧
    (x.msg.header.get? "Router-Pattern-Value" = none → packTypeURLPattern env.json ⟨x.bytes, spare⟩ = .ok "") := by
  obtain ⟨a1, ⟨h', a2, _, a3⟩, ⟨t, a4, a5⟩, _⟩ := C81_handler_reads env hj max x hx spare
  have bind : ∀ b v dest, x.msg.body = some v → x.m.getD (env.builtin .json) = env.builtin b → Decodes (env.builtin b) v →
      packTypeBind env b ⟨x.bytes, spare⟩ dest = .ok v := by
    intro b v dest hv hm ⟨bb, d1, _, d3⟩
    have : t.live = bb := by
      rcases a5 with ⟨h, _⟩ | ⟨w, hw, h⟩
      · rw [hv] at h; cases h
      · rw [hv] at hw
        injection hw with hw
        subst hw
        have d2 : (x.m.getD (env.builtin .json)).marshal v = some t.live := by
          rcases h with ⟨hm', h⟩ | ⟨m', hm', h⟩
          · rw [hm']; exact h
          · rw [hm']; exact h
        rw [hm, d1] at d2
        injection d2 with d2
        exact d2.symm
    have d3 : env.dec b bb dest = some v := d3 dest
    have a4 : bodyBytesOf ⟨x.bytes, spare⟩ = .ok t := a4
    simp [packTypeBind, a4, this, d3, orErr]
  have pat : ∀ p q, headerGetString h' HEADER_ROUTER_VALUE = .ok (p, q) → packTypeURLPattern env.json ⟨x.bytes, spare⟩ = .ok p := by
    intro p q h
    simp only [packTypeURLPattern, urlPatternOf, a2, Res.bind_ok, h]
  have hk := a3 "Router-Pattern-Value"
  refine ⟨by simp [packTypeMessageID, a1], ?_, ?_, ?_, ?_⟩
  · intro b v dest hv hm; exact bind b v dest hv (by rw [hm]; rfl)
  · intro v dest hv hm; exact bind .json v dest hv (by rw [hm]; rfl)
  · intro p hp
    have hg : h'.get? HEADER_ROUTER_VALUE = some (.str p) := getString_of hk p hp
    exact pat p true (by unfold headerGetString; rw [if_neg (len_ne_zero_of_get hg), hg]; rfl)
  · intro hp
    rw [hp] at hk
    have hg : h'.get? HEADER_ROUTER_VALUE = none := by
      cases hv : h'.get? "Router-Pattern-Value" with
      | none => exact hv
      | some v => rw [hv] at hk; cases hk
    exact pat "" false (by unfold headerGetString; rw [hg]; simp)

/-- C82: a client that has read the body of a message (`BodyBytesOf`, `RawStream`) gets what the sender packed with `BindJSON`, if the
sender used json; and an error if the text is not json. -/
theorem C82_bindJSON (env : Env V) (hj : env.json.Lawful) (max : Int) (x : Sent V) (hx : x.Ok env max) (spare : Bytes)
    (hm : x.m = some (env.builtin .json) ∨ x.m = none) (v dest : V) (hv : x.msg.body = some v) (hd : Decodes (env.builtin .json) v) :
    (∃ t, ctxRawStream ⟨x.bytes, spare⟩ = .ok t ∧ bindJSON env t.live dest = .ok v) ∧
    ∀ b, env.dec .json b dest = none → ∃ e, bindJSON env b dest = .err e := by
  refine ⟨?_, fun b hb => ⟨.marshal, by simp [bindJSON, hb, orErr]⟩⟩
  obtain ⟨t, h1, h2⟩ := (C81_handler_reads env hj max x hx spare).2.2.1
  refine ⟨t, h1, ?_⟩
  obtain ⟨bb, e1, _, e3⟩ := hd
  have : t.live = bb := by
    rcases h2 with ⟨h, _⟩ | ⟨w, hw, h⟩
    · rw [hv] at h; cases h
    · rw [hv] at hw
      injection hw with hw
      subst hw
      rcases h with ⟨_, h⟩ | ⟨m', hm', h⟩
      · exact Option.some.inj (h.symm.trans e1)
      · rcases hm with hm | hm <;> rw [hm] at hm' <;> cases hm'
        exact Option.some.inj (h.symm.trans e1)
  have h3 : env.dec .json bb dest = some v := e3 dest
  rw [this, bindJSON, h3]; rfl

/-- C82, caveat: a message without body can be bound by a handler with `BindWithMarshaller` (the destination keeps its value), but not
by a client with `PackType.BindJSON` and the like, if the decoder refuses the empty text (as encoding/json and encoding/xml do). -/
theorem C82_nil_body_limit (env : Env V) (hj : env.json.Lawful) (max : Int) (x : Sent V) (hx : x.Ok env max) (spare : Bytes) (b : Builtin)
    (dest : V) (hn : x.msg.body = none) (hd : env.dec b [] dest = none) :
    (∃ e, packTypeBind env b ⟨x.bytes, spare⟩ dest = .err e) ∧
    ∃ h', ctxBindWithMarshaller env x.m ⟨x.bytes, spare⟩ dest = .ok { id := x.msg.id, header := h', body := some dest } := by
  obtain ⟨_, _, ⟨t, a4, a5⟩, _, a6⟩ := C81_handler_reads env hj max x hx spare
  have ht : t.live = [] := by
    rcases a5 with ⟨_, h⟩ | ⟨w, hw, _⟩
    · exact h
    · rw [hn] at hw; cases hw
  have a4 : bodyBytesOf ⟨x.bytes, spare⟩ = .ok t := a4
  refine ⟨⟨.marshal, by simp [packTypeBind, a4, ht, hd, orErr]⟩, ?_⟩
  obtain ⟨h', h, _⟩ := a6 dest hn
  exact ⟨h', h⟩

set_option maxRecDepth 100000 in
example : BodyEnc Demo.env none (some [1,2]) [1,2] ∧ Demo.env.json.marshal none = some [110] ∧ payload [110] [1,2] < 2^32 :=
  ⟨.inr ⟨_, rfl, .inl ⟨rfl, rfl⟩⟩, rfl, by decide⟩
example : Acceptable 0 [0,0,0,12, 0,0,0,7, 0,0,0,0, 0,0,0,0] := by refine ⟨?_, ?_, ?_, ?_⟩ <;> decide
example : (demoSent (newURLPatternMessage "/a" (some [3]))).msg.header.get? "Router-Pattern-Value" = some (.str "/a") := by decide

/-! ## C83: replies of concurrent handlers -/

/-- A reply made by some handler: its arguments and what the `Write` call did. -/
structure Spec.ReplyCall (V : Type) where
  id : Int32
  src : Option V
  format : Builtin
  headers : List Header
  ev : WEv

/-- What the reply does on a stream connection. -/
def Spec.ReplyCall.out (env : Env V) (m : Marshaller V) (c : Spec.ReplyCall V) : SendOut :=
  ctxFormat env m c.format .conn c.ev c.id c.src c.headers

/-- `f` is the frame of the reply: its id, all its headers (the last map wins), and the source encoded by the marshaller of the
requested format (the server's own `m` if it has that name). -/
def Spec.IsReply (env : Env V) (m : Marshaller V) (c : Spec.ReplyCall V) (f : Bytes) : Prop :=
  ∃ (m' : Marshaller V) (merged : HMap) (hb bb : Bytes), (m.name = formatName c.format → m' = m) ∧
    (m.name ≠ formatName c.format → m' = env.builtin c.format) ∧
    (∀ k, Header.get? (some merged) k = lastWins c.headers k) ∧ env.json.marshal (some merged) = some hb ∧
    ((c.src = none ∧ bb = []) ∨ ∃ v, c.src = some v ∧ m'.marshal v = some bb) ∧ f = Spec.frame c.id.toInt hb bb

/-- `fs` are the frames of the replies that reported success, in order. -/
inductive Spec.Succeeded (env : Env V) (m : Marshaller V) : List (Spec.ReplyCall V) → List Bytes → Prop where
  | nil : Succeeded env m [] []
  | ok (c cs f fs) : (c.out env m).res = .ok () → IsReply env m c f → Succeeded env m cs fs → Succeeded env m (c :: cs) (f :: fs)
  | failed (c cs fs) : (c.out env m).res ≠ .ok () → Succeeded env m cs fs → Succeeded env m (c :: cs) fs

/-- Full claim of C83: the peer receives exactly the frames of the replies that reported success, one after the other. -/
def Spec.OnlyWholeReplies (env : Env V) (m : Marshaller V) (cs : List (Spec.ReplyCall V)) : Prop :=
  ∃ fs, Succeeded env m cs fs ∧ transmitted (cs.flatMap fun c => (c.out env m).calls) = fs.flatten

theorem reply_eq (env : Env V) (m : Marshaller V) (c : ReplyCall V) (hp : ∀ h ∈ c.headers, ProperMap h) :
    ∃ (m' : Marshaller V) (merged : HMap), (m.name = formatName c.format → m' = m) ∧
    (m.name ≠ formatName c.format → m' = env.builtin c.format) ∧
      (∀ k, Header.get? (some merged) k = lastWins c.headers k) ∧
      c.out env m = sendPacked (packWithMarshaller env { id := c.id, header := some merged, body := c.src } (some m')) (writeOnce c.ev) := by
  obtain ⟨id, src, b, headers, ev⟩ := c
  have hm' : ∃ m' : Marshaller V, (m.name = formatName b → m' = m) ∧ (m.name ≠ formatName b → m' = env.builtin b) ∧
      ctxFormat env m b .conn ev id src headers = sendPacked (packxPack env m' id src headers) (replyBuf .conn ev) := by
    by_cases h : m.name = formatName b
    · refine ⟨m, fun _ => rfl, fun h' => absurd h h', ?_⟩
      cases b <;> simp only [formatName] at h <;> simp [ctxFormat, commonReply, h]
    · refine ⟨env.builtin b, fun h' => absurd h' h, fun _ => rfl, ?_⟩
      cases b <;> simp only [formatName] at h <;> simp [ctxFormat, commonReply, h] <;> rfl
  obtain ⟨m', n1, n2, heq⟩ := hm'
  refine ⟨m', mergeHeaders headers, n1, n2, ?_, ?_⟩
  · intro k
    have := get?_mergeHeaders headers hp [] k
    simpa [Header.get?, mergeHeaders] using this
  · show ctxFormat env m b .conn ev id src headers = _
    rw [heq]
    unfold packxPack
    split
    · rename_i h; subst h; rfl
    · rfl

theorem reply_cases (env : Env V) (m : Marshaller V) (c : ReplyCall V) (hp : ∀ h ∈ c.headers, ProperMap h)
    (hs : ∀ call ∈ (c.out env m).calls, call.buf.length < 2^32) :
    (∃ f, IsReply env m c f ∧ c.out env m = writeOnce c.ev f) ∨ ((c.out env m).calls = [] ∧ ∃ e, (c.out env m).res = .err e) := by
  obtain ⟨m', merged, n1, n2, hm, heq⟩ := reply_eq env m c hp
  rw [heq] at hs ⊢
  rcases pack_cases env c.id (some merged) c.src m' with ⟨hb, bb, h1, h2, h3⟩ | ⟨_, e, he⟩
  · left
    rw [h3] at hs ⊢
    have hlen : (Tcpx.frame c.id hb bb).length = 4 + payload hb bb := by
      simp [Tcpx.frame, putUint32, payload]; omega
    have : (Tcpx.frame c.id hb bb).length < 2^32 := by
      cases hev : c.ev <;> rw [hev] at hs <;> exact hs _ (by simp only [sendPacked, writeOnce]; exact List.mem_cons_self)
    exact ⟨_, ⟨m', merged, hb, bb, n1, n2, hm, h1, h2, frame_eq_spec _ _ _ (by omega)⟩, rfl⟩
  · right
    rw [he]; exact ⟨rfl, _, rfl⟩

/-- C83 (partial): the replies of all handlers of a connection, made concurrently and taking place in any order, reach the peer as
whole frames, never mixed, provided a `Write` that succeeds transmits its whole buffer and one that fails transmits nothing.
Missing: writes that fail after transmitting a part (`C83_partial_write_violated`). -/
theorem C83_whole_frames_partial (env : Env V) (m : Marshaller V) (cs : List (ReplyCall V)) (hp : ∀ c ∈ cs, ∀ h ∈ c.headers, ProperMap h)
    (hs : ∀ c ∈ cs, ∀ call ∈ (c.out env m).calls, call.buf.length < 2^32)
    (hw : ∀ c ∈ cs, ∀ k, (c.ev = .accept k → ∀ call ∈ (c.out env m).calls, call.buf.length ≤ k) ∧ (c.ev = .fail k → k = 0)) :
    OnlyWholeReplies env m cs := by
  induction cs with
  | nil => exact ⟨[], .nil, rfl⟩
  | cons c cs ih =>
    obtain ⟨fs, i1, i2⟩ := ih (fun d hd => hp d (List.mem_cons_of_mem _ hd)) (fun d hd => hs d (List.mem_cons_of_mem _ hd))
      (fun d hd => hw d (List.mem_cons_of_mem _ hd))
    have hsplit : transmitted ((c :: cs).flatMap fun c => (c.out env m).calls) =
        transmitted (c.out env m).calls ++ fs.flatten := by
      rw [← i2]; simp [transmitted, List.flatMap_cons, List.flatMap_append]
    have hw := hw c List.mem_cons_self
    rcases reply_cases env m c (hp c List.mem_cons_self) (hs c List.mem_cons_self) with ⟨f, h1, h2⟩ | ⟨h1, e, h2⟩
    · rw [h2] at hw
      cases hev : c.ev with
      | accept k =>
        have hk := (hw k).1 hev
        rw [hev] at h2 hk
        have hk := hk _ (by simp only [writeOnce]; exact List.mem_cons_self)
        simp only at hk
        refine ⟨f :: fs, .ok _ _ _ _ (by rw [h2]; rfl) h1 i1, ?_⟩
        rw [hsplit, h2]
        simp [transmitted, writeOnce, Nat.min_eq_right hk]
      | fail k =>
        have hk := (hw k).2 hev
        rw [hev] at h2
        refine ⟨fs, .failed _ _ _ (by rw [h2]; simp [writeOnce]) i1, ?_⟩
        rw [hsplit, h2, hk]
        simp [transmitted, writeOnce]
    · refine ⟨fs, .failed _ _ _ (by rw [h2]; simp) i1, ?_⟩
      rw [hsplit, h1]
      simp [transmitted]

/-- C83: then a client reading with `Recv` gets exactly these frames, one by one, however the bytes arrive. -/
theorem C83_client_receives (env : Env V) (m : Marshaller V) (cs : List (ReplyCall V)) (fs : List Bytes) (hok : Succeeded env m cs fs)
    (ht : transmitted (cs.flatMap fun c => (c.out env m).calls) = fs.flatten) (hs : ∀ f ∈ fs, f.length < 2^31) (e : Ending) (r : Reader)
    (hr : stream r = (transmitted (cs.flatMap fun c => (c.out env m).calls), e)) :
    ∃ r', recvMany fs.length r = .ok fs r' ∧ stream r' = ([], e) := by
  refine C82_recv_each fs (fun f hf => ?_) [] e r (by rw [hr, ht]; simp)
  have : ∃ id hb bb, f = Spec.frame id hb bb := by
    clear hr ht hs
    induction hok with
    | nil => cases hf
    | ok c cs g gs _ h _ ih =>
      rcases List.mem_cons.1 hf with rfl | hf
      · obtain ⟨_, _, hb, bb, _, _, _, _, _, h⟩ := h; exact ⟨_, _, _, h⟩
      · exact ih hf
    | failed c cs gs _ _ ih => exact ih hf
  obtain ⟨id, hb, bb, rfl⟩ := this
  have := hs _ hf
  rw [frame_length] at this
  exact frame_acceptable 0 id hb bb (by omega) (by omega)

/-- C83 is violated whenever a reply fails after transmitting a proper non-empty part of its frame and another reply follows: the peer
does not receive whole frames.  If the part contains the length field and the second frame is long enough, `Recv` returns without
error a block made of pieces of both replies. -/
theorem C83_partial_write_violated (env : Env V) (m : Marshaller V) (c1 c2 : ReplyCall V) (f1 f2 : Bytes) (k1 k2 : Nat)
    (h1 : c1.out env m = ⟨[⟨f1, k1⟩], .err .io⟩) (h2 : c2.out env m = ⟨[⟨f2, k2⟩], .ok ()⟩) (hk2 : f2.length ≤ k2)
    (hf2 : ∀ f, IsReply env m c2 f → f = f2) (hk : 0 < k1) (hk1 : k1 < f1.length) :
    ¬ OnlyWholeReplies env m [c1, c2] ∧
    (Acceptable 0 f1 → 4 ≤ k1 → f1.length ≤ k1 + f2.length → ∀ e r,
      stream r = (transmitted ([c1, c2].flatMap fun c => (c.out env m).calls), e) →
      ∃ r', recv r = .ok (f1.take k1 ++ f2.take (f1.length - k1)) r') := by
  have ht : transmitted ([c1, c2].flatMap fun c => (c.out env m).calls) = f1.take k1 ++ f2 := by
    simp [h1, h2, transmitted, List.take_of_length_le hk2]
  rw [ht]
  constructor
  · rintro ⟨fs, hs, he⟩
    rw [ht] at he
    have : fs = [f2] := by
      cases hs with
      | ok _ _ _ _ h => rw [h1] at h; cases h
      | failed _ _ _ _ hs =>
        cases hs with
        | ok _ _ f _ _ hr hs => cases hs; rw [hf2 _ hr]
        | failed _ _ _ h => exact absurd (by rw [h2]) h
    rw [this] at he
    have := congrArg List.length he
    simp only [List.length_append, List.length_take, List.flatten_cons, List.flatten_nil, List.append_nil] at this
    omega
  · intro ha h4 hl e r hr
    obtain ⟨hf4, hlen, hL, hmax⟩ := ha
    have hd : declaredLength (f1.take k1 ++ f2.take (f1.length - k1)) = declaredLength f1 := by
      have a : declaredLength (f1.take k1 ++ f2.take (f1.length - k1)) = declaredLength (f1.take k1) := fieldAt_append_left (by simp; omega)
      have b : declaredLength (f1.take k1 ++ f1.drop k1) = declaredLength (f1.take k1) := fieldAt_append_left (by simp; omega)
      rw [List.take_append_drop] at b
      rw [a, b]
    obtain ⟨r', e1, _⟩ := frame_step r 0 (f1.take k1 ++ f2.take (f1.length - k1)) (f2.drop (f1.length - k1)) e
      (by rw [hr, List.append_assoc, List.take_append_drop])
      ⟨by simp; omega, by rw [hd, ← hlen]; simp; omega, by rw [hd]; exact hL, by rw [hd]; exact hmax⟩
    exact ⟨r', e1⟩

/-! Examples for C83: two replies without headers or body, ids 1 and 2. -/

private theorem demo_reply (c : ReplyCall Bytes) (hh : c.headers = []) (hsrc : c.src = none) (m : Marshaller Bytes) (f : Bytes)
    (h : IsReply Demo.env m c f) : f = Spec.frame c.id.toInt [123, 0] [] := by
  obtain ⟨m', merged, hb, bb, _, _, h1, h2, h3, h4⟩ := h
  have hm : merged = [] := by
    cases merged with
    | nil => rfl
    | cons e l =>
      have := h1 e.1
      rw [hh] at this
      simp [Header.get?, GoMap.get?, lastWins] at this
  subst hm
  rcases h3 with ⟨_, rfl⟩ | ⟨v, hv, _⟩
  · have : hb = [123, 0] := by
      have : some (Demo.encHeader (some [])) = some hb := h2
      injection this with this
      exact this.symm
    rw [h4, this]
  · rw [hsrc] at hv; cases hv

example : let c1 : ReplyCall Bytes := ⟨1, none, .json, [], .fail 5⟩
    let c2 : ReplyCall Bytes := ⟨2, none, .json, [], .accept 100⟩
    let m := Demo.env.builtin .json
    ∃ f1 f2 k1 k2, c1.out Demo.env m = ⟨[⟨f1, k1⟩], .err .io⟩ ∧ c2.out Demo.env m = ⟨[⟨f2, k2⟩], .ok ()⟩ ∧ f2.length ≤ k2 ∧
      (∀ f, IsReply Demo.env m c2 f → f = f2) ∧ 0 < k1 ∧ k1 < f1.length ∧ Acceptable 0 f1 ∧ 4 ≤ k1 ∧ f1.length ≤ k1 + f2.length := by
  intro c1 c2 m
  have ha : Acceptable 0 (Spec.frame 1 [123, 0] []) := frame_acceptable 0 _ _ _ (by simp [payload]) (by omega)
  have hl1 : (Spec.frame 1 [123, 0] []).length = 18 := rfl
  have hl2 : (Spec.frame 2 [123, 0] []).length = 18 := rfl
  have h1 : c1.out Demo.env m = ⟨[⟨Spec.frame 1 [123, 0] [], 5⟩], .err .io⟩ := by decide
  have h2 : c2.out Demo.env m = ⟨[⟨Spec.frame 2 [123, 0] [], 18⟩], .ok ()⟩ := by decide
  exact ⟨_, _, 5, 18, h1, h2, by omega, fun f hf => demo_reply c2 rfl rfl m f hf, by omega, by omega, ha, by omega, by omega⟩

end Tcpx
