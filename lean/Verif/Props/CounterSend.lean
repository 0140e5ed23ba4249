import Verif.Model.CounterSend
import Verif.Props.CounterClient
import Verif.Props.AuthClient
/-!
# C126: what the client of the request counter sends, and the whole session
-/
namespace Tcpx
open Spec Counter
variable {V : Type}

/-- C126: the session of the example's own client.  What it writes, in whatever pieces it reaches the server, starts one request.  Whatever
other requests there are, however all are scheduled: when this request (`i`) has run its two functions it has reported one count, and
before that none; the frame with this count, in whatever pieces it reaches the client, makes it print the text of the count and nothing else. -/
theorem C126_session {M : Type} (env : Env V) (hj : env.json.Lawful) (max : Int32) (user : V) (b : Bytes)
    (hb : CounterClient.sends env user = .ok b) (hne : b ≠ []) (hs : b.length < 2^31)
    (hfit : 0 < max.toInt → (b.length : Int) ≤ 4 + max.toInt) (e : Ending) (he : e.plain) (r : Reader) (hr : stream r = (b, e))
    (obj : Bytes → Option M) (enc : Int32 → Bytes) (hdr : Bytes) (hsize : ∀ n, payload hdr (enc n) < 2^31 - 4) :
    (connLoop env.json max r).1 = [.single b] ∧
    ∀ (arr : Nat → Srv.Routed) (i : Nat), RoutedOf env.json b (arr i) → ∀ sched,
      (sched.count i < 2 → ((start arr).run sched).reported.filter (fun x => x.1 == i) = []) ∧
      (2 ≤ sched.count i → ∃ n, ((start arr).run sched).reported.filter (fun x => x.1 == i) = [(i, n)] ∧
        ∀ (e' : Ending) (r' : Reader), e'.plain → stream r' = (Spec.frame 4 hdr (enc n), e') →
          CounterClient.recv obj r' = ([.text (enc n)], if e' = .stillOpen then .waits else .exits)) := by
  have hpk : packWithMarshaller env ⟨3, some [("Authorization", .str "a client secret key")], some user⟩ (some (env.builtin .json)) = .ok b := by
    unfold CounterClient.sends at hb
    split at hb
    · rename_i b' h
      injection hb with hb
      rw [← hb]; exact h
    · injection hb with hb; exact absurd hb.symm hne
    · cases hb
    · cases hb
  let x : Sent V := ⟨⟨3, some [("Authorization", .str "a client secret key")], some user⟩, some (env.builtin .json), b⟩
  have hx : x.Ok env max.toInt := ⟨hpk, hs, hfit, by simp [x, Header.get?, GoMap.get?]⟩
  have h1 := C81_one_task_each env hj max [x] (by simpa using hx) [] (.inl (by simp)) e he r (by simp [hr, x])
  refine ⟨by rw [h1]; rfl, fun arr i hi sched => ?_⟩
  have h3 : arr i = .byId 3 := by
    obtain ⟨-, -, h2, -⟩ := hello_routed env hj max.toInt x hx
      ⟨(fun s h => by simp [x, Header.get?, GoMap.get?] at h), by simp [x, Header.get?, GoMap.get?]⟩
    obtain ⟨h8, hid, -⟩ := packed_frame env hj _ _ _ (show x.msg.pack env x.m = .ok x.bytes from hx.packed) hx.small
    rw [routedOf_byId h8 h2 hi, hid]
    simp [x]
  have hn := reports_count arr sched i
  generalize ((start arr).run sched).reported = l at hn ⊢
  have hcount : (l.map (·.1)).count i = (l.filter (fun x => x.1 == i)).length := by
    rw [List.count, List.countP_map, List.countP_eq_length_filter]
    rfl
  rw [hcount] at hn
  constructor
  · intro h
    rw [if_neg (by omega)] at hn
    exact List.length_eq_zero_iff.1 hn
  · intro h
    rw [if_pos ⟨h3, h⟩] at hn
    obtain ⟨⟨j, n⟩, hl⟩ := List.length_eq_one_iff.1 hn
    have hj : j = i := by
      have : (j, n) ∈ l.filter (fun x => x.1 == i) := by rw [hl]; simp
      simpa using (List.mem_filter.1 this).2
    subst hj
    refine ⟨n, hl, fun e' r' he' hr' => ?_⟩
    obtain ⟨r2, s1, s2⟩ := CounterClient.recv_frame (obj := obj) 4 hdr (enc n) [] e' r' (hsize n)
      (by rw [hr', List.append_nil]; rfl) (l := [.text (enc n)])
      (by rw [CounterClient.display, if_neg (by decide), if_pos rfl])
    rw [s2, CounterClient.recv_end (by rw [s1]; exact .inl (by simp)) (by rw [s1]; exact he'), s1]
    rfl

set_option maxRecDepth 100000 in
example : ∃ b, CounterClient.sends Demo.env [7] = .ok b ∧ b ≠ [] ∧ b.length < 2^31 ∧ Demo.env.json.Lawful ∧
    (∃ r : Reader, stream r = (b, .closed) ∧ r.length = 3) ∧ (∃ arr : Nat → Srv.Routed, RoutedOf Demo.env.json b (arr 2) ∧ arr 1 = .byId 9) := by
  refine ⟨_, rfl, by decide, by decide, Demo.json_lawful, ?_, ?_⟩
  · let f := Tcpx.frame 3 (Demo.encHeader (some [("Authorization", .str "a client secret key")])) [7]
    refine ⟨[.chunk (f.take 5), .chunk (f.drop 5), .eof], ?_, rfl⟩
    simp only [stream]; rw [List.append_nil, List.take_append_drop]
  · let x : Sent Bytes := ⟨⟨3, some [("Authorization", .str "a client secret key")], some [7]⟩, some (Demo.env.builtin .json),
      Tcpx.frame 3 (Demo.encHeader (some [("Authorization", .str "a client secret key")])) [7]⟩
    have hx : x.Ok Demo.env 0 := ⟨rfl, by decide, fun h => absurd h (by decide), by decide⟩
    obtain ⟨h8, hid, hl, h', hh, hk⟩ := packed_frame Demo.env Demo.json_lawful x.msg x.m x.bytes hx.packed hx.small
    have hn : h'.get? "Router-Type" = none := by
      have := hk "Router-Type"
      cases hg : Header.get? h' "Router-Type" with
      | none => rfl
      | some v => rw [hg] at this; exact absurd this (by simp [x, Header.get?, GoMap.get?])
    exact ⟨fun i => if i = 1 then .byId 9 else .byId (Int32.ofInt (declaredId x.bytes)),
      .plain h' hh (fun s hs => by rw [hn] at hs; cases hs) h8, rfl⟩

end Tcpx
