import Verif.Lemmas.Requests
import Verif.Lemmas.Client
import Verif.Props.Codec
import Verif.Lemmas.DemoCodec
/-!
# C34–C37, C49, C50, C72: requests running side by side
-/
namespace Tcpx
open Spec

/-! ## C34, C35: routing -/

/-- Full claim of C34 and C35: along every schedule request `i` is dispatched at most once, as its own header says, and has been
dispatched when it is finished. -/
def Spec.RoutedByOwnHeader (s : Srv) (json : JSONCodec) (arr : Nat → Arrival) (i : Nat) : Prop :=
  ∀ r, RoutedOf json (arr i).stream r → ∀ sched,
    let y := (Sys.start s json arr).run sched
    (dispatches i y.trace = [] ∨ dispatches i y.trace = [s.handle r]) ∧
    ((y.threads i).prog.Stopped → dispatches i y.trace = [s.handle r])

theorem routed_of_state {rt : String} {d : Dispatch} {i : Nat} {y : Sys} (h : DispatchState rt d i y) :
    (dispatches i y.trace = [] ∨ dispatches i y.trace = [d]) ∧ ((y.threads i).prog.Stopped → dispatches i y.trace = [d]) := by
  rcases h with ⟨h1, h2⟩ | ⟨_, h2⟩
  · refine ⟨.inl h2, fun hs => ?_⟩
    generalize (y.threads i).prog = q at h1 hs
    cases h1 <;> exact absurd rfl (hs _ _)
  · exact ⟨.inr h2, fun _ => h2⟩

/-- A request that shares its store with no other request is routed by its own header. -/
theorem private_routed (s : Srv) (json : JSONCodec) (arr : Nat → Arrival) (i : Nat)
    (hpriv : ∀ j, scope arr j = scope arr i → j = i) (hs : declaredHeaderLen (arr i).stream < 2^31 - 16) :
    RoutedByOwnHeader s json arr i := by
  intro r hr sched
  let rt := headerType json (arr i).stream
  have key := (run_induct arr (fun y => DispatchState rt (s.handle r) i y ∧
      (Pre rt (s.handle r) (y.threads i).prog → (y.mem (scope arr i) routerTypeKey).bind Any.asString = none ∨
        y.mem (scope arr i) routerTypeKey = some (.str rt))) _ (start_good s json arr)
    ⟨.inl ⟨Pre.request s json _ _ r hr hs, rfl⟩, fun _ => .inl rfl⟩ ?_ sched).1
  · exact routed_of_state key.1
  · intro y j a k p _ ⟨h1, h2⟩ hp
    refine ⟨dispatchState_next arr rt _ i y j a k p hp h1 (fun _ hpre => h2 hpre), ?_⟩
    by_cases hj : j = i
    · subst hj
      intro hpre
      rcases h1 with ⟨h1, _⟩ | ⟨h1, _⟩
      · have := h2 h1
        rw [hp] at h1
        cases h1 with
        | get k _ => exact this
        | set k _ => right; simp [Sys.next, Action.memEffect, Mem.put]
        | noted k s _ => exact this
        | now k _ => exact this
      · -- already dispatched: cannot be undispatched again
        exfalso
        rw [hp] at h1
        simp only [Sys.next, if_true] at hpre
        have hall := h1.2 (a.result (scope arr j) y.mem)
        have : ∀ q : Prog Unit, q.All (fun a => ∀ d, a ≠ .note (.dispatch d)) → ¬ Pre rt (s.handle r) q := by
          intro q hq hpre
          induction hpre with
          | get k hk ih => exact ih none (.inl rfl) (hq.2 _)
          | set k hk ih => exact ih none (hq.2 _)
          | noted k t hk ih => exact ih none (hq.2 _)
          | now k hk => exact hq.1 _ rfl
        exact this _ hall hpre
    · intro hpre
      have hthr : (y.next arr j a k p).threads i = y.threads i := by simp [Sys.next, Ne.symm hj]
      rw [hthr] at hpre
      have := h2 hpre
      have hmem : (y.next arr j a k p).mem (scope arr i) routerTypeKey = y.mem (scope arr i) routerTypeKey := by
        have hne : ¬ scope arr i = scope arr j := fun h => hj (hpriv j h.symm)
        cases a <;> simp [Sys.next, Action.memEffect, Mem.put, hne]
      rw [hmem]
      exact this

/-- C34: the header decides, for a message whose request shares its store with no other (every datagram; a message alone on its
TCP connection), whatever its handlers do.
Missing: messages declaring a header of `2^31 - 16` bytes or more, which make the router panic
(`C34_huge_header_violated`); other messages of the same TCP connection are the subject of C35. -/
theorem C34_header_decides_partial (s : Srv) (json : JSONCodec) (arr : Nat → Arrival) (i : Nat)
    (halone : ∀ j c, (arr i).tcp = some c → (arr j).tcp = some c → j = i)
    (hs : declaredHeaderLen (arr i).stream < 2^31 - 16) : RoutedByOwnHeader s json arr i := by
  refine private_routed s json arr i ?_ hs
  intro j hj
  unfold scope at hj
  cases hi : (arr i).tcp with
  | none =>
    cases hjt : (arr j).tcp with
    | none => rw [hi, hjt] at hj; cases hj; rfl
    | some c => rw [hi, hjt] at hj; cases hj
  | some c =>
    cases hjt : (arr j).tcp with
    | none => rw [hi, hjt] at hj; cases hj
    | some c' => rw [hi, hjt] at hj; cases hj; exact halone j c hi hjt

/-- C34: every message has exactly one route of the specification. -/
theorem C34_route_exists (json : JSONCodec) (f : Bytes) : ∃ r, RoutedOf json f r := routed_total json f

-- a message without header, id 7, received by UDP and alone on a TCP connection, is given to the handlers of id 7
example : let s := (Srv.new.addHandler 7 [5]).st
    let f : Bytes := [0,0,0,12, 0,0,0,7, 0,0,0,0, 0,0,0,0]
    dispatches 0 ((Sys.start s Demo.json (fun _ => ⟨none, f, fun _ => .done⟩)).run [0, 1, 0, 1, 0, 1, 0]).trace = [s.handle (.byId 7)] ∧
    dispatches 0 ((Sys.start s Demo.json (fun i => ⟨some i, f, fun _ => .done⟩)).run [0, 1, 0, 1, 0, 1, 0]).trace = [.chain [5]] := by
  decide

/-- C35 for datagrams: routed by their own header, whatever else is received and however it is scheduled (missing: as in C34). -/
theorem C35_udp_partial (s : Srv) (json : JSONCodec) (arr : Nat → Arrival) (i : Nat) (hu : (arr i).tcp = none)
    (hs : declaredHeaderLen (arr i).stream < 2^31 - 16) : RoutedByOwnHeader s json arr i :=
  C34_header_decides_partial s json arr i (fun j c h => by rw [hu] at h; cases h) hs

/-! A message declaring an absurd header length is not routed at all. -/

/-- C34 is violated by every message shorter than 2 GB declaring a header of at least `2^31 - 16` bytes whose length, read as a signed
number, passes the length check: the specification routes it by id, the code panics before dispatching it. -/
theorem C34_huge_header_violated (s : Srv) (hno : s.onMessage = none) (json : JSONCodec) (arr : Nat → Arrival) (f : Bytes)
    (h0 : (arr 0).stream = f) (hu : (arr 0).tcp = none) (hl : 12 ≤ f.length) (hl2 : f.length < 2^31)
    (hh : 2^31 - 16 ≤ declaredHeaderLen f) (hsg : 16 + signed32 (declaredHeaderLen f) ≤ f.length) :
    RoutedOf json f (.byId (Int32.ofInt (declaredId f))) ∧
    ∃ sched, (((Sys.start s json arr).run sched).threads 0).prog = .panic ∧
      dispatches 0 ((Sys.start s json arr).run sched).trace = [] := by
  have hf : frameHeader json f = none := by
    unfold frameHeader
    rw [if_pos (.inr (by omega))]
  refine ⟨.noHeader hf (by omega), [0], ?_⟩
  have hp := (C11_header_panic_iff { live := f }).2 ⟨hl, hsg, hh⟩
  have hp : headerOf json { live := f } = .panic := by rw [headerOf, hp]
  have : routerTypeWith json none f = .panic := by
    unfold routerTypeWith
    simp only [Option.bind_none]
    rw [if_neg (by rintro rfl; simp at hl), hp]
  simp [Sys.run, Sys.step, Sys.start, hu, h0, request, hno, routerType, perform, bind, Prog.bind, udpPtrs, Action.effect, Mem.empty,
    this, dispatches]

-- such a message: 16 bytes declaring a header of 2^32 - 1 bytes
example : 2^31 - 16 ≤ declaredHeaderLen [0,0,0,12, 0,0,0,1, 255,255,255,255, 0,0,0,0] ∧
    16 + signed32 (declaredHeaderLen [0,0,0,12, 0,0,0,1, 255,255,255,255, 0,0,0,0]) ≤ 16 := by decide

/-- Handlers of the connection that store under "router_type" themselves are excluded below. -/
abbrev Spec.StoresRouterType : Call → Prop := StoresKey (.str "router_type")

/-- C35 for TCP: routed by their own header as long as all messages of the connection ask for the same router type and no handler
of the connection stores a value under the key "router_type".
Missing: connections carrying messages of both types (`C35_tcp_violated`). -/
theorem C35_tcp_same_type_partial (s : Srv) (json : JSONCodec) (arr : Nat → Arrival) (c i : Nat) (hi : (arr i).tcp = some c)
    (hsmall : ∀ j, (arr j).tcp = some c → declaredHeaderLen (arr j).stream < 2^31 - 16)
    (hsame : ∀ j, (arr j).tcp = some c → headerType json (arr j).stream = headerType json (arr i).stream)
    (hcode : ∀ j, (arr j).tcp = some c → ∀ d, Avoids StoresRouterType ((arr j).code d)) :
    RoutedByOwnHeader s json arr i := by
  intro r hr sched
  let rt := headerType json (arr i).stream
  have hsc : ∀ j, scope arr j = .conn c ↔ (arr j).tcp = some c := by
    intro j; unfold scope
    cases (arr j).tcp <;> simp
  have hsci : scope arr i = .conn c := (hsc i).2 hi
  have key := (run_induct arr (fun y => DispatchState rt (s.handle r) i y ∧
      KeepsScope arr (.conn c) routerTypeKey (· = .str rt) (fun _ => True) y) _ (start_good s json arr)
    ⟨.inl ⟨Pre.request s json _ _ r hr (hsmall i hi), rfl⟩, keepsScope_start s json arr _ ?_⟩ ?_ sched).1
  · exact routed_of_state key.1
  · intro j hj
    have hj := (hsc j).1 hj
    have := request_keeps_routerType s json (arr j).stream (arr j).code (hsmall j hj) (hcode j hj)
    rw [hsame j hj] at this
    exact this
  · intro y j a k p _ ⟨h1, h2⟩ hp
    refine ⟨dispatchState_next arr rt _ i y j a k p hp h1 (fun _ _ => ?_), keepsScope_next arr _ y j a k p h2 hp⟩
    rw [hsci]
    cases hm : y.mem (.conn c) routerTypeKey with
    | none => exact .inl rfl
    | some v => exact .inr (by rw [h2.2.1 v hm])

-- two messages of one connection, both routed by id, interleaved
example : let s := (((Srv.new.addHandler 7 [5]).st).addHandler 8 [6]).st
    let f (n : UInt8) : Bytes := [0,0,0,12, 0,0,0,n, 0,0,0,0, 0,0,0,0]
    let y := (Sys.start s Demo.json (fun i => ⟨some 4, f (if i = 0 then 7 else 8), fun _ => .done⟩)).run [0, 1, 1, 0, 1, 0, 1, 0]
    dispatches 0 y.trace = [.chain [5]] ∧ dispatches 1 y.trace = [.chain [6]] := by
  decide

/-! ## C72: built messages -/

theorem getString_of {h h' : Header} {k : String} (hk : (h'.get? k).map Any.asString = (h.get? k).map Any.asString) (s : String)
    (hs : h.get? k = some (.str s)) : h'.get? k = some (.str s) := by
  rw [hs] at hk
  cases hv : h'.get? k with
  | none => rw [hv] at hk; cases hk
  | some v =>
    rw [hv] at hk
    cases v with
    | str t => simp only [Option.map_some, Any.asString, Option.some.injEq] at hk; rw [hk]
    | _ => cases hk

section Built
variable {V : Type}

theorem packed_frame (env : Env V) (hj : env.json.Lawful) (msg : Message V) (m : Option (Marshaller V)) (bs : Bytes)
    (hp : msg.pack env m = .ok bs) (hl : bs.length < 2^31) :
    8 ≤ bs.length ∧ declaredId bs = msg.id.toInt ∧ declaredHeaderLen bs < 2^31 - 16 ∧
    ∃ h', frameHeader env.json bs = some h' ∧ ∀ k, (h'.get? k).map Any.asString = (msg.header.get? k).map Any.asString := by
  have hp : packWithMarshaller env { id := msg.id, header := msg.header, body := msg.body } (some (m.getD (env.builtin .json))) = .ok bs := hp
  rcases pack_cases env msg.id msg.header msg.body (m.getD (env.builtin .json)) with ⟨hb, bb, h1, h2, h3⟩ | ⟨_, e, h3⟩
  · rw [h3] at hp
    have hlen : (Tcpx.frame msg.id hb bb).length = 4 + payload hb bb := by
      simp [Tcpx.frame, putUint32, payload]; omega
    injection hp with hp
    have hpl : payload hb bb < 2^31 - 4 := by rw [← hp, hlen] at hl; omega
    rw [frame_eq_spec _ _ _ (by omega)] at hp
    subst hp
    obtain ⟨_, h', h4, _, h5⟩ := hj.roundtrip _ _ h1
    have hid := frame_field4 msg.id.toInt hb bb []
    have hhl := frame_field8 msg.id.toInt hb bb [] (by omega)
    rw [List.append_nil] at hid hhl
    refine ⟨by rw [frame_length, payload]; omega, ?_, ?_, h', ?_, h5⟩
    · rw [declaredId, hid, signed32_pattern32]
    · rw [declaredHeaderLen, hhl]; simp only [payload] at hpl; omega
    · rw [frameHeader_frame _ _ _ _ hpl, h4]
  · rw [h3] at hp; cases hp

/-- C72: a message built with `NewMessage` and packed with any marshaller asks to be routed by its id. -/
theorem C72_message_route (env : Env V) (hj : env.json.Lawful) (id : Int32) (src : Option V) (m : Option (Marshaller V)) (bs : Bytes)
    (hp : (newMessage id src).pack env m = .ok bs) (hl : bs.length < 2^31) : RoutedOf env.json bs (.byId id) := by
  obtain ⟨h8, hid, _, h', hf, hk⟩ := packed_frame env hj _ m bs hp hl
  have h1 := getString_of (hk "Router-Type") "MESSAGE_ID" rfl
  have : Int32.ofInt (declaredId bs) = id := by rw [hid]; simp [newMessage]
  rw [← this]
  exact .plain h' hf (fun s hs => by rw [h1] at hs; cases hs; rfl) h8

/-- C72: a message built with `NewURLPatternMessage` and packed with any marshaller asks to be routed by its pattern. -/
theorem C72_pattern_route (env : Env V) (hj : env.json.Lawful) (p : String) (src : Option V) (m : Option (Marshaller V)) (bs : Bytes)
    (hp : (newURLPatternMessage p src).pack env m = .ok bs) (hl : bs.length < 2^31) : RoutedOf env.json bs (.byUrl p) := by
  obtain ⟨_, _, _, h', hf, hk⟩ := packed_frame env hj _ m bs hp hl
  exact .url h' p hf (getString_of (hk "Router-Type") "URL_PATTERN" rfl) (getString_of (hk "Router-Pattern-Value") p rfl)

/-- C72: so it is given to the handlers of that id or pattern, when its request shares its store with no other (a datagram, or a
message alone on its connection).
Missing: messages on a connection that also carries messages of the other kind, see `C35_tcp_violated`. -/
theorem C72_dispatched_partial (env : Env V) (hj : env.json.Lawful) (s : Srv) (hno : s.onMessage = none) (arr : Nat → Arrival) (i : Nat)
    (halone : ∀ j c, (arr i).tcp = some c → (arr j).tcp = some c → j = i) (src : Option V) (m : Option (Marshaller V))
    (hl : (arr i).stream.length < 2^31) (sched : List Nat)
    (hend : (((Sys.start s env.json arr).run sched).threads i).prog.Stopped) :
    (∀ id, (newMessage id src).pack env m = .ok (arr i).stream →
      dispatches i ((Sys.start s env.json arr).run sched).trace = [s.dispatchId id]) ∧
    (∀ p, (newURLPatternMessage p src).pack env m = .ok (arr i).stream →
      dispatches i ((Sys.start s env.json arr).run sched).trace = [s.dispatchUrl p]) := by
  constructor
  · intro id hp
    have hs := (packed_frame env hj _ m _ hp hl).2.2.1
    have := (C34_header_decides_partial s env.json arr i halone hs _ (C72_message_route env hj id src m _ hp hl) sched).2 hend
    rw [this, Srv.handle, hno]
  · intro p hp
    have hs := (packed_frame env hj _ m _ hp hl).2.2.1
    have := (C34_header_decides_partial s env.json arr i halone hs _ (C72_pattern_route env hj p src m _ hp hl) sched).2 hend
    rw [this, Srv.handle, hno]

-- messages of both kinds can be packed
set_option maxRecDepth 100000 in
example : ∃ bs, (newMessage 7 (some [1,2,3]) : Message Bytes).pack Demo.env none = .ok bs ∧ bs.length < 2^31 := ⟨_, rfl, by decide⟩
set_option maxRecDepth 100000 in
example : ∃ bs, (newURLPatternMessage "/a" (some [1]) : Message Bytes).pack Demo.env none = .ok bs ∧ bs.length < 2^31 :=
  ⟨_, rfl, by decide⟩

theorem headerType_message (env : Env V) (hj : env.json.Lawful) (id : Int32) (src : Option V) (m : Option (Marshaller V)) (bs : Bytes)
    (hp : (newMessage id src).pack env m = .ok bs) (hl : bs.length < 2^31) : headerType env.json bs = MESSAGEID := by
  obtain ⟨_, _, _, h', hf, hk⟩ := packed_frame env hj _ m bs hp hl
  rw [headerType_eq hf, typeIn, getString_of (hk "Router-Type") "MESSAGE_ID" rfl]; rfl

/-- C35 is violated on every server and TCP connection on which a message built with `NewMessage` is followed by one built with
`NewURLPatternMessage`: if the first has got as far as being routed, the second is routed by message id 0, whatever its pattern. -/
theorem C35_tcp_violated (env : Env V) (hj : env.json.Lawful) (s : Srv) (hno : s.onMessage = none) (c : Nat) (arr : Nat → Arrival)
    (id : Int32) (p : String) (src src' : Option V) (m m' : Option (Marshaller V)) (h0 : (arr 0).tcp = some c) (h1 : (arr 1).tcp = some c)
    (hp0 : (newMessage id src).pack env m = .ok (arr 0).stream) (hp1 : (newURLPatternMessage p src').pack env m' = .ok (arr 1).stream)
    (hl0 : (arr 0).stream.length < 2^31) (hl1 : (arr 1).stream.length < 2^31) :
    (∃ sched, dispatches 1 ((Sys.start s env.json arr).run sched).trace = [s.dispatchId 0]) ∧
    (s.dispatchUrl p ≠ s.dispatchId 0 → ¬ RoutedByOwnHeader s env.json arr 1) := by
  have hrt : routerTypeWith env.json none (arr 0).stream = .ok MESSAGEID := by
    rw [routerTypeWith_header env.json _ (packed_frame env hj _ m _ hp0 hl0).2.2.1 none rfl, headerType_message env hj id src m _ hp0 hl0]
  have hrt1 : routerTypeWith env.json (some (.str MESSAGEID)) (arr 1).stream = .ok MESSAGEID := rfl
  have hid : handleMessageID s (arr 1).stream = s.dispatchId 0 := by
    obtain ⟨h8, hid, _⟩ := packed_frame env hj _ m' _ hp1 hl1
    unfold handleMessageID
    rw [messageIDOf_eq, if_neg (by simp only [Slice.len]; omega), id_of_declared, hid]
    rfl
  have hrun : dispatches 1 ((Sys.start s env.json arr).run [0, 0, 1, 1, 1]).trace = [s.dispatchId 0] := by
    simp [Sys.run, Sys.step, Sys.start, h0, h1, request, hno, routerType, perform, bind, Prog.bind, tcpPtrs, Action.effect, Mem.empty,
      Mem.put, hrt, hrt1, dispatches, Any.asString, runDispatch, hid]
  refine ⟨⟨_, hrun⟩, fun hne hall => ?_⟩
  rcases (hall _ (C72_pattern_route env hj p src' m' _ hp1 hl1) _).1 with h | h
  · rw [hrun] at h; cases h
  · rw [hrun, Srv.handle, hno] at h
    injection h with h
    exact hne h.symm

-- a server with a handler for id 0 and one for "/a", for which the two differ
example : let s := (((Srv.new.addHandler 0 [5]).st).any "/a" [6]).st
    s.dispatchUrl "/a" ≠ s.dispatchId 0 ∧ s.onMessage = none := by decide

end Built

/-! ## C36: per-request values -/

theorem lastSet_congr {w w' : Nat → Bool} (h : ∀ j, w j = w' j) (k : Key) (tr : List Event) : lastSet w k tr = lastSet w' k tr := by
  have : w = w' := funext h
  rw [this]

/-- C36 for datagrams: whatever runs besides, `GetCtxPerRequest(k)` returns the value last stored under `k` by the request itself,
or nothing if it has stored none.
Missing: TCP (`C36_tcp_shared_violated`). -/
theorem C36_udp_private_partial (s : Srv) (json : JSONCodec) (arr : Nat → Arrival) (sched : List Nat) (newer older : List Event) (e : Event)
    (k : Key) (ht : ((Sys.start s json arr).run sched).trace = newer ++ e :: older) (he : e.action = .getReq k)
    (hu : (arr e.tid).tcp = none) : e.result = lastSet (fun j => decide (j = e.tid)) k older := by
  rw [((memory s json arr sched).2.of_mem e newer older ht) k (.inl he)]
  apply lastSet_congr
  intro j
  by_cases hje : j = e.tid
  · simp [inScope, scope, hje]
  · simp only [inScope, scope, hu, hje, decide_false]
    cases hj : (arr j).tcp <;> simp [hje]

/-- C36 for TCP, as far as it goes: `GetCtxPerRequest(k)` returns the value last stored under `k` by a request of the same connection,
never one of another connection or of a datagram.
Missing: privacy between the requests of one connection (`C36_tcp_shared_violated`). -/
theorem C36_tcp_other_connections_partial (s : Srv) (json : JSONCodec) (arr : Nat → Arrival) (sched : List Nat) (newer older : List Event)
    (e : Event) (k : Key) (c : Nat) (ht : ((Sys.start s json arr).run sched).trace = newer ++ e :: older) (he : e.action = .getReq k)
    (hc : (arr e.tid).tcp = some c) : e.result = lastSet (fun j => decide ((arr j).tcp = some c)) k older := by
  rw [((memory s json arr sched).2.of_mem e newer older ht) k (.inl he)]
  apply lastSet_congr
  intro j
  simp only [inScope, scope, hc]
  cases hj : (arr j).tcp <;> simp

/-- C36 is violated on every TCP connection: a value stored with `SetCtxPerRequest` by the first request is read with
`GetCtxPerRequest` by the second. -/
theorem C36_tcp_shared_violated (s : Srv) (f : H) (hon : s.onMessage = some f) (json : JSONCodec) (arr : Nat → Arrival) (c : Nat)
    (k : Key) (v : Any) (h0 : (arr 0).tcp = some c) (h1 : (arr 1).tcp = some c)
    (hc0 : ∀ d, (arr 0).code d = .call (.setReq k v) (fun _ => .done))
    (hc1 : ∀ d, (arr 1).code d = .call (.getReq k) (fun _ => .done)) :
    ∃ sched e older, ((Sys.start s json arr).run sched).trace = e :: older ∧ e.tid = 1 ∧ e.action = .getReq k ∧ e.result = some v ∧
      ∀ e' ∈ older, e'.tid = 1 → e'.action ≠ .setReq k v := by
  refine ⟨[0, 0, 1, 1], ?_⟩
  simp [Sys.run, Sys.step, Sys.start, h0, h1, request, hon, perform, bind, Prog.bind, tcpPtrs, Action.effect,
      Mem.put, runDispatch, Srv.dispatchOnMessage, hc0, hc1, Code.run, Call.run]
  refine ⟨_, _, ⟨rfl, rfl⟩, rfl, rfl, rfl, ?_⟩
  simp

-- a datagram whose handler reads back what it stored
example : ∃ e ∈ ((Sys.start { onMessage := some 3 } Demo.json (fun _ => ⟨none, [], fun _ =>
      .call (.setReq (.other 1) (.num 5)) fun _ => .call (.getReq (.other 1)) fun _ => .done⟩)).run [0, 1, 0, 1, 0]).trace,
    e.tid = 0 ∧ e.action = .getReq (.other 1) ∧ e.result = some (.num 5) := by decide

/-! ## C37: URL-pattern replies -/

/-- C37: `GetURLPattern` returns the pattern in the header of the message being handled, if the requests sharing its store (for a
datagram, only itself) all have that pattern and no handler among them stores a value under "url_pattern".
Missing: TCP connections with messages of different patterns (`C37_tcp_violated`). -/
theorem C37_own_pattern_partial (s : Srv) (json : JSONCodec) (arr : Nat → Arrival) (i : Nat)
    (hsame : ∀ j c, (arr i).tcp = some c → (arr j).tcp = some c →
      urlPatternOf json { live := (arr j).stream } = urlPatternOf json { live := (arr i).stream } ∧
      ∀ d, Avoids (StoresKey (.str "url_pattern")) ((arr j).code d))
    (hown : ∀ d, Avoids (StoresKey (.str "url_pattern")) ((arr i).code d))
    (sched : List Nat) (e : Event) (he : e ∈ ((Sys.start s json arr).run sched).trace) (hi : e.tid = i) (r : Res String)
    (hr : e.action = .note (.pattern r)) : r = urlPatternOf json { live := (arr i).stream } := by
  have key := (run_induct arr (KeepsScope arr (scope arr i) urlPatternKey
      (fun v => ∃ p, urlPatternOf json { live := (arr i).stream } = .ok p ∧ v = .str p)
      (fun n => ∀ r, n = .pattern r → r = urlPatternOf json { live := (arr i).stream })) _ (start_good s json arr)
    (keepsScope_start s json arr _ ?_) (fun y j a k p _ h hp => keepsScope_next arr _ y j a k p h hp) sched).1
  · exact key.2.2 e he (by rw [hi]) _ hr r rfl
  · intro j hj
    have hj' : urlPatternOf json { live := (arr j).stream } = urlPatternOf json { live := (arr i).stream } ∧
        ∀ d, Avoids (StoresKey (.str "url_pattern")) ((arr j).code d) := by
      unfold scope at hj
      cases hti : (arr i).tcp with
      | none =>
        cases htj : (arr j).tcp with
        | none => rw [hti, htj] at hj; cases hj; exact ⟨rfl, hown⟩
        | some c => rw [hti, htj] at hj; cases hj
      | some c =>
        cases htj : (arr j).tcp with
        | none => rw [hti, htj] at hj; cases hj
        | some c' => rw [hti, htj] at hj; cases hj; exact hsame j c hti htj
    exact request_keeps_pattern s json _ _ _ hj'.1 hj'.2

-- a message with a nil header has the empty pattern
example : ∃ e ∈ ((Sys.start { onMessage := some 3 } Demo.json (fun _ => ⟨some 2, [0,0,0,12, 0,0,0,7, 0,0,0,1, 0,0,0,0, 110], fun _ =>
      .call .urlPattern fun _ => .call .urlPattern fun _ => .done⟩)).run [0, 1, 0, 1, 0, 0, 0]).trace,
    e.tid = 0 ∧ e.action = .note (.pattern (.ok "")) := by decide

/-- C37: the reply then carries that pattern: if it can be encoded, one buffer is handed to the connection, and read as a message it
is routed to the pattern of the request. -/
theorem C37_reply_pattern {V : Type} (env : Env V) (hj : env.json.Lawful) (b : Builtin) (stream : Bytes) (p : String)
    (hp : urlPatternOf env.json { live := stream } = .ok p) (link : Link) (hlink : link ≠ .none) (ev : WEv) (src : Option V) (bs : Bytes)
    (hpk : (newURLPatternMessage p src).pack env (some (env.builtin b)) = .ok bs) (hl : bs.length < 2^31) :
    ∃ n, (ctxURLPatternReply env b (urlPatternOf env.json { live := stream }) link ev src).calls = [⟨bs, n⟩] ∧
      RoutedOf env.json bs (.byUrl p) := by
  have hrep : ∀ buf, replyBuf link ev buf = writeOnce ev buf := by
    intro buf; cases link
    · rfl
    · rfl
    · exact absurd rfl hlink
  rw [hp]
  simp only [ctxURLPatternReply, hpk, sendPacked, hrep]
  cases ev with
  | accept k => exact ⟨_, rfl, C72_pattern_route env hj p src _ bs hpk hl⟩
  | fail k => exact ⟨_, rfl, C72_pattern_route env hj p src _ bs hpk hl⟩

/-- C37 is violated on every TCP connection with messages of different patterns: `GetURLPattern` in the second request returns the
pattern of the first. -/
theorem C37_tcp_violated (s : Srv) (f : H) (hon : s.onMessage = some f) (json : JSONCodec) (arr : Nat → Arrival) (c : Nat)
    (p q : String) (hpq : p ≠ q) (h0 : (arr 0).tcp = some c) (h1 : (arr 1).tcp = some c)
    (hp : urlPatternOf json { live := (arr 0).stream } = .ok p) (hq : urlPatternOf json { live := (arr 1).stream } = .ok q)
    (hc0 : ∀ d, (arr 0).code d = .call .urlPattern (fun _ => .done))
    (hc1 : ∀ d, (arr 1).code d = .call .urlPattern (fun _ => .done)) :
    ∃ sched e older, ((Sys.start s json arr).run sched).trace = e :: older ∧ e.tid = 1 ∧ e.action = .note (.pattern (.ok p)) ∧
      .ok p ≠ urlPatternOf json { live := (arr 1).stream } := by
  refine ⟨[0, 0, 0, 1, 1, 1], ?_⟩
  rw [hq]
  simp [Sys.run, Sys.step, Sys.start, h0, h1, request, hon, perform, bind, Prog.bind, tcpPtrs, Action.effect, Mem.empty,
      Mem.put, runDispatch, Srv.dispatchOnMessage, hc0, hc1, Code.run, Call.run, getURLPattern, hp, Any.asString, hpq]

/-! ## C49, C50: per-connection values and the user name -/

/-- C49: `SetCtxPerConn` refuses exactly the string keys starting with "tcpx-", at once; any other key is stored. -/
theorem C49_refused_iff (k : Key) (v : Any) :
    ((∃ t, k = .str ("tcpx-" ++ t)) → setCtxPerConn k v = .panic) ∧
    ((¬ ∃ t, k = .str ("tcpx-" ++ t)) → setCtxPerConn k v = .act (.setConn .user k v) (fun _ => .ret ())) := by
  cases k with
  | other n => exact ⟨fun ⟨t, h⟩ => (by cases h), fun _ => rfl⟩
  | str s =>
    have hiff : ("tcpx-".toList.isPrefixOf s.toList = true) ↔ ∃ t, s = "tcpx-" ++ t := by
      rw [List.isPrefixOf_iff_prefix]
      constructor
      · rintro ⟨t, ht⟩
        refine ⟨String.ofList t, ?_⟩
        apply String.toList_inj.1
        rw [String.toList_append, ← ht]
        simp
      · rintro ⟨t, rfl⟩
        exact ⟨t.toList, by rw [String.toList_append]⟩
    constructor
    · rintro ⟨t, h⟩
      injection h with h
      simp only [setCtxPerConn, if_pos (hiff.2 ⟨t, h⟩)]
    · intro h
      simp only [setCtxPerConn]
      rw [if_neg (fun hp => h (by obtain ⟨t, ht⟩ := hiff.1 hp; exact ⟨t, by rw [ht]⟩))]
      rfl

example : setCtxPerConn (.str "tcpx-username") .null = .panic := (C49_refused_iff _ _).1 ⟨"username", by decide⟩

theorem lastSet_eq_conn {w : Nat → Bool} {k : Key} {tr : List Event}
    (h : ∀ e ∈ tr, w e.tid = true → ∀ v, e.action ≠ .setReq k v) : lastSet w k tr = lastSetConn w k tr := by
  induction tr with
  | nil => rfl
  | cons e es ih =>
    have ih := ih (fun e' he' => h e' (List.mem_cons_of_mem _ he'))
    have he := h e List.mem_cons_self
    simp only [lastSet, lastSetConn]
    by_cases hw : w e.tid = true
    · rw [if_pos hw, if_pos hw]
      cases ha : e.action with
      | setReq k' v =>
        have : k' ≠ k := fun hk => he hw v (by rw [ha, hk])
        simp only [if_neg this, ih]
      | setConn who k' v => simp only [ih]
      | _ => exact ih
    · rw [if_neg hw, if_neg hw]; exact ih

/-- C49: on a TCP connection `GetCtxPerConn(k)` returns the value last stored under `k` with `SetCtxPerConn` (or by the framework) by
any request of the connection, provided no request of the connection has stored `k` with `SetCtxPerRequest`.
Missing: connections where one has (`C49_request_overwrites_violated`). -/
theorem C49_last_stored_partial (s : Srv) (json : JSONCodec) (arr : Nat → Arrival) (sched : List Nat) (newer older : List Event)
    (e : Event) (k : Key) (c : Nat) (ht : ((Sys.start s json arr).run sched).trace = newer ++ e :: older) (he : e.action = .getConn k)
    (hc : (arr e.tid).tcp = some c) (hno : ∀ e' ∈ older, (arr e'.tid).tcp = some c → ∀ v, e'.action ≠ .setReq k v) :
    e.result = lastSetConn (fun j => decide ((arr j).tcp = some c)) k older := by
  rw [((memory s json arr sched).2.of_mem e newer older ht) k (.inr he),
    lastSet_congr (w' := fun j => decide ((arr j).tcp = some c))]
  · exact lastSet_eq_conn (fun e' he' hw => hno e' he' (of_decide_eq_true hw))
  · intro j
    simp only [inScope, scope, hc]
    cases hj : (arr j).tcp <;> simp

/-- C49 is violated when a handler uses `SetCtxPerRequest` with the same key: it overwrites the value of the connection. -/
theorem C49_request_overwrites_violated (s : Srv) (f : H) (hon : s.onMessage = some f) (json : JSONCodec) (arr : Nat → Arrival) (c : Nat)
    (k : Key) (v w : Any) (hk : ¬ ∃ t, k = .str ("tcpx-" ++ t)) (hvw : v ≠ w) (h0 : (arr 0).tcp = some c)
    (hc0 : ∀ d, (arr 0).code d = .call (.setConn k v) fun _ => .call (.setReq k w) fun _ => .call (.getConn k) fun _ => .done) :
    ∃ sched e older, ((Sys.start s json arr).run sched).trace = e :: older ∧ e.tid = 0 ∧ e.action = .getConn k ∧ e.result = some w ∧
      lastSetConn (fun j => decide ((arr j).tcp = some c)) k older ≠ some w := by
  have hset := (C49_refused_iff k v).2 hk
  refine ⟨[0, 0, 0, 0], ?_⟩
  simp [Sys.run, Sys.step, Sys.start, h0, request, hon, perform, bind, Prog.bind, tcpPtrs, Action.effect, Mem.empty,
      Mem.put, runDispatch, Srv.dispatchOnMessage, hc0, Code.run, Call.run, hset, connStore]
  refine ⟨_, _, ⟨rfl, rfl⟩, rfl, rfl, rfl, ?_⟩
  simp [lastSetConn, h0, hvw]

/-- Only `SetUsername` stores under the key of the user name with the per-connection setter. -/
def NameEvent (e : Event) : Prop := ∀ v, e.action ≠ .setConn .user (.str "tcpx-username") v

theorem name_events (s : Srv) (json : JSONCodec) (arr : Nat → Arrival) (sched : List Nat) :
    ∀ e ∈ ((Sys.start s json arr).run sched).trace, NameEvent e := by
  have hall : ∀ j, (request s json (arr j).stream (arr j).code).All (fun a => ∀ v, a ≠ .setConn .user (.str "tcpx-username") v) := by
    intro j
    have hr : (routerType json (arr j).stream).All (fun a => ∀ v, a ≠ .setConn .user (.str "tcpx-username") v) :=
      routerType_all json _ _ (by simp) (by simp) (by simp)
    have hcode : ∀ d, (((arr j).code d).run json (arr j).stream).All (fun a => ∀ v, a ≠ .setConn .user (.str "tcpx-username") v) := by
      intro d
      refine Code.run_all json _ _ _ _ (avoids_false _) ?_
      intro c a _ ha v h
      subst h
      exact ha.2 _ rfl (by decide)
    have hd : ∀ d, (runDispatch json (arr j).stream (arr j).code d).All (fun a => ∀ v, a ≠ .setConn .user (.str "tcpx-username") v) := by
      intro d
      refine ⟨by simp, fun _ => ?_⟩
      cases d with
      | nothing => trivial
      | panic => trivial
      | direct h => exact hcode _
      | chain hs =>
        show (Prog.bind (((arr j).code (.chain hs)).run json (arr j).stream) _).All _
        exact Prog.All.bind (hcode _) (fun _ => ⟨by simp, fun _ => trivial⟩)
    unfold request
    cases s.onMessage with
    | some g => exact hd _
    | none =>
      refine Prog.All.bind hr (fun rt => ?_)
      split
      · exact hd _
      · refine Prog.All.bind hr (fun rt => ?_)
        split
        · exact hd _
        · exact Prog.All.bind hr (fun rt => hd _)
  have key := (run_induct arr (fun y => (∀ j, (y.threads j).prog.All (fun a => ∀ v, a ≠ .setConn .user (.str "tcpx-username") v)) ∧
      ∀ e ∈ y.trace, NameEvent e) _ (start_good s json arr) ⟨hall, fun e he => by cases he⟩ ?_ sched).1
  · exact key.2
  · intro y i a k p _ ⟨h1, h2⟩ hp
    have hi := h1 i
    rw [hp] at hi
    refine ⟨fun j => ?_, fun e he => ?_⟩
    · by_cases hj : j = i
      · subst hj; simp only [Sys.next, if_true]; exact hi.2 _
      · simp only [Sys.next, if_neg hj]; exact h1 j
    · rcases List.mem_cons.1 he with rfl | he
      · exact hi.1
      · exact h2 e he

theorem lastSetConn_eq_name {w : Nat → Bool} {tr : List Event} (h : ∀ e ∈ tr, NameEvent e) :
    lastSetConn w (.str "tcpx-username") tr = lastName w tr := by
  induction tr with
  | nil => rfl
  | cons e es ih =>
    have ih := ih (fun e' he' => h e' (List.mem_cons_of_mem _ he'))
    have he := h e List.mem_cons_self
    simp only [lastSetConn, lastName]
    by_cases hw : w e.tid = true
    · rw [if_pos hw, if_pos hw]
      cases ha : e.action with
      | setConn who k v =>
        cases who with
        | user =>
          have : k ≠ .str "tcpx-username" := fun hk => he v (by rw [ha, hk])
          simp only [if_neg this, ih]
        | framework => simp only [ih]
      | _ => exact ih
    · rw [if_neg hw, if_neg hw]; exact ih

/-- C50: what `Username` reads on a TCP connection is the name last set with `SetUsername` (also by `Online`) on that connection,
whatever is stored with `SetCtxPerConn`, provided no request of the connection stores under "tcpx-username" with `SetCtxPerRequest`.
Missing: `SetCtxPerRequest` with that key (`C50_forged_violated`). -/
theorem C50_last_name_partial (s : Srv) (json : JSONCodec) (arr : Nat → Arrival) (sched : List Nat) (newer older : List Event)
    (e : Event) (c : Nat) (ht : ((Sys.start s json arr).run sched).trace = newer ++ e :: older)
    (he : e.action = .getConn (.str "tcpx-username")) (hc : (arr e.tid).tcp = some c)
    (hno : ∀ e' ∈ older, (arr e'.tid).tcp = some c → ∀ v, e'.action ≠ .setReq (.str "tcpx-username") v) :
    e.result = lastName (fun j => decide ((arr j).tcp = some c)) older := by
  rw [C49_last_stored_partial s json arr sched newer older e _ c ht he hc hno]
  apply lastSetConn_eq_name
  intro e' he'
  exact name_events s json arr sched e' (by rw [ht]; simp [he'])

/-- C50 is violated on every TCP connection: a handler storing under "tcpx-username" with `SetCtxPerRequest` changes the user name. -/
theorem C50_forged_violated (s : Srv) (f : H) (hon : s.onMessage = some f) (json : JSONCodec) (arr : Nat → Arrival) (c : Nat)
    (u : String) (h0 : (arr 0).tcp = some c)
    (hc0 : ∀ d, (arr 0).code d = .call (.setReq (.str "tcpx-username") (.str u)) fun _ => .call .username fun _ => .done) :
    ∃ sched e older, ((Sys.start s json arr).run sched).trace = e :: older ∧ e.tid = 0 ∧ e.action = .note (.username (some u)) ∧
      lastName (fun j => decide ((arr j).tcp = some c)) older = none := by
  refine ⟨[0, 0, 0, 0], ?_⟩
  simp [Sys.run, Sys.step, Sys.start, h0, request, hon, perform, bind, Prog.bind, tcpPtrs, Action.effect, Mem.empty,
      Mem.put, runDispatch, Srv.dispatchOnMessage, hc0, Code.run, Call.run, connStore, username, usernameKey, Any.asString]
  refine ⟨_, _, ⟨rfl, rfl⟩, rfl, rfl, ?_⟩
  simp [lastName]

-- one request logs in, another of the same connection reads the name
example : ∃ e ∈ ((Sys.start { onMessage := some 3 } Demo.json (fun i => ⟨some 9, [], fun _ =>
      if i = 0 then .call (.setUsername "ann") fun _ => .done else .call .username fun _ => .done⟩)).run [0, 0, 1, 1, 1]).trace,
    e.tid = 1 ∧ e.action = .note (.username (some "ann")) := by decide

end Tcpx
