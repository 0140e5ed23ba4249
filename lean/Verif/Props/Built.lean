import Verif.Props.Requests
/-!
# C72: built messages on connections that carry others
-/
namespace Tcpx
open Spec
variable {V : Type}

theorem headerType_pattern (env : Env V) (hj : env.json.Lawful) (p : String) (src : Option V) (m : Option (Marshaller V)) (bs : Bytes)
    (hp : (newURLPatternMessage p src).pack env m = .ok bs) (hl : bs.length < 2^31) : headerType env.json bs = URLPATTERN := by
  obtain ⟨_, _, _, h', hf, hk⟩ := packed_frame env hj _ m bs hp hl
  rw [headerType_eq hf, typeIn, getString_of (hk "Router-Type") "URL_PATTERN" rfl]; rfl

/-- C72: a message on a connection all of whose messages are built with `NewMessage`, however many and whatever their ids, bodies and
marshallers, is given to the handlers of its id; likewise with `NewURLPatternMessage`.  The handlers do not store a router type.
Missing: connections that carry messages of both kinds (`C72_mixed_violated`). -/
theorem C72_same_kind_partial (env : Env V) (hj : env.json.Lawful) (s : Srv) (hno : s.onMessage = none) (arr : Nat → Arrival) (c i : Nat)
    (hi : (arr i).tcp = some c) (srcs : Nat → Option V) (ms : Nat → Option (Marshaller V))
    (hl : ∀ j, (arr j).tcp = some c → (arr j).stream.length < 2^31)
    (hcode : ∀ j, (arr j).tcp = some c → ∀ d, Avoids StoresRouterType ((arr j).code d)) (sched : List Nat)
    (hend : (((Sys.start s env.json arr).run sched).threads i).prog.Stopped) :
    (∀ ids : Nat → Int32, (∀ j, (arr j).tcp = some c → (newMessage (ids j) (srcs j)).pack env (ms j) = .ok (arr j).stream) →
      dispatches i ((Sys.start s env.json arr).run sched).trace = [s.dispatchId (ids i)]) ∧
    (∀ ps : Nat → String, (∀ j, (arr j).tcp = some c → (newURLPatternMessage (ps j) (srcs j)).pack env (ms j) = .ok (arr j).stream) →
      dispatches i ((Sys.start s env.json arr).run sched).trace = [s.dispatchUrl (ps i)]) := by
  constructor
  · intro ids hp
    have hsame : ∀ j, (arr j).tcp = some c → headerType env.json (arr j).stream = headerType env.json (arr i).stream := fun j h => by
      rw [headerType_message env hj _ _ _ _ (hp j h) (hl j h), headerType_message env hj _ _ _ _ (hp i hi) (hl i hi)]
    have := (C35_tcp_same_type_partial s env.json arr c i hi (fun j h => (packed_frame env hj _ _ _ (hp j h) (hl j h)).2.2.1) hsame hcode
      _ (C72_message_route env hj _ _ _ _ (hp i hi) (hl i hi)) sched).2 hend
    rw [this, Srv.handle, hno]
  · intro ps hp
    have hsame : ∀ j, (arr j).tcp = some c → headerType env.json (arr j).stream = headerType env.json (arr i).stream := fun j h => by
      rw [headerType_pattern env hj _ _ _ _ (hp j h) (hl j h), headerType_pattern env hj _ _ _ _ (hp i hi) (hl i hi)]
    have := (C35_tcp_same_type_partial s env.json arr c i hi (fun j h => (packed_frame env hj _ _ _ (hp j h) (hl j h)).2.2.1) hsame hcode
      _ (C72_pattern_route env hj _ _ _ _ (hp i hi) (hl i hi)) sched).2 hend
    rw [this, Srv.handle, hno]

theorem trace_grows (y : Sys) (sched : List Nat) : ∃ new, (y.run sched).trace = new ++ y.trace := by
  induction sched generalizing y with
  | nil => exact ⟨[], rfl⟩
  | cons i sched ih =>
    have h1 : ∃ new, (y.step i).trace = new ++ y.trace := by
      unfold Sys.step
      split
      · split
        · exact ⟨[_], rfl⟩
        · exact ⟨[], rfl⟩
      · exact ⟨[], rfl⟩
    obtain ⟨a, ha⟩ := h1
    obtain ⟨b, hb⟩ := ih (y.step i)
    exact ⟨b ++ a, by rw [Sys.run, List.foldl_cons]; rw [Sys.run] at hb; rw [hb, ha, List.append_assoc]⟩

/-- C72 is violated on every TCP connection on which a message built with `NewMessage` is followed by one built with
`NewURLPatternMessage`, on every server that treats the pattern otherwise than id 0: along some schedule the second message is given
to what is registered for id 0, and however the run goes on it is never the case that it was given to the pattern's handlers only. -/
theorem C72_mixed_violated (env : Env V) (hj : env.json.Lawful) (s : Srv) (hno : s.onMessage = none) (c : Nat) (arr : Nat → Arrival)
    (id : Int32) (p : String) (src src' : Option V) (m m' : Option (Marshaller V)) (h0 : (arr 0).tcp = some c) (h1 : (arr 1).tcp = some c)
    (hp0 : (newMessage id src).pack env m = .ok (arr 0).stream) (hp1 : (newURLPatternMessage p src').pack env m' = .ok (arr 1).stream)
    (hl0 : (arr 0).stream.length < 2^31) (hl1 : (arr 1).stream.length < 2^31) (hne : s.dispatchUrl p ≠ s.dispatchId 0) :
    ∃ sched, dispatches 1 ((Sys.start s env.json arr).run sched).trace = [s.dispatchId 0] ∧
      ∀ more, dispatches 1 ((Sys.start s env.json arr).run (sched ++ more)).trace ≠ [s.dispatchUrl p] := by
  obtain ⟨⟨sched, h⟩, _⟩ := C35_tcp_violated env hj s hno c arr id p src src' m m' h0 h1 hp0 hp1 hl0 hl1
  refine ⟨sched, h, fun more hm => ?_⟩
  obtain ⟨new, hn⟩ := trace_grows ((Sys.start s env.json arr).run sched) more
  have : (Sys.start s env.json arr).run (sched ++ more) = ((Sys.start s env.json arr).run sched).run more := List.foldl_append
  have hmem : s.dispatchId 0 ∈ [s.dispatchUrl p] := by
    rw [← hm, this, hn, dispatches, List.filterMap_append, List.mem_append]
    exact .inr (by rw [← dispatches, h]; exact List.mem_singleton.2 rfl)
  exact hne (List.mem_singleton.1 hmem).symm

-- a connection with messages for two ids, whose handlers do nothing; and one with a message of each kind
set_option maxRecDepth 100000 in
example : ∃ arr : Nat → Arrival, (∀ j, (arr j).tcp = some 3) ∧ (∀ j, (arr j).stream.length < 2^31) ∧
    (∀ j d, Avoids StoresRouterType ((arr j).code d)) ∧
    ∀ j, (newMessage (if j = 0 then 7 else 8) (some [1,2,3]) : Message Bytes).pack Demo.env none = .ok (arr j).stream := by
  obtain ⟨a, ha, hal⟩ : ∃ bs, (newMessage 7 (some [1,2,3]) : Message Bytes).pack Demo.env none = .ok bs ∧ bs.length < 2^31 :=
    ⟨_, rfl, by decide⟩
  obtain ⟨b, hb, hbl⟩ : ∃ bs, (newMessage 8 (some [1,2,3]) : Message Bytes).pack Demo.env none = .ok bs ∧ bs.length < 2^31 :=
    ⟨_, rfl, by decide⟩
  refine ⟨fun j => ⟨some 3, if j = 0 then a else b, fun _ => .done⟩, fun _ => rfl, fun j => ?_, fun _ _ => .done, fun j => ?_⟩
  · by_cases hj : j = 0 <;> simp [hj, hal, hbl]
  · by_cases hj : j = 0 <;> simp [hj, ha, hb]

set_option maxRecDepth 100000 in
example : ∃ arr : Nat → Arrival, (arr 0).tcp = some 3 ∧ (arr 1).tcp = some 3 ∧
    (newMessage 7 (some [1,2,3]) : Message Bytes).pack Demo.env none = .ok (arr 0).stream ∧
    (newURLPatternMessage "/a" (some [1]) : Message Bytes).pack Demo.env none = .ok (arr 1).stream ∧
    (arr 0).stream.length < 2^31 ∧ (arr 1).stream.length < 2^31 := by
  obtain ⟨a, ha, hal⟩ : ∃ bs, (newMessage 7 (some [1,2,3]) : Message Bytes).pack Demo.env none = .ok bs ∧ bs.length < 2^31 :=
    ⟨_, rfl, by decide⟩
  obtain ⟨b, hb, hbl⟩ : ∃ bs, (newURLPatternMessage "/a" (some [1]) : Message Bytes).pack Demo.env none = .ok bs ∧ bs.length < 2^31 :=
    ⟨_, rfl, by decide⟩
  exact ⟨fun j => ⟨some 3, if j = 0 then a else b, fun _ => .done⟩, rfl, rfl, ha, hb, hal, hbl⟩

end Tcpx
