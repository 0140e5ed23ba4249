import Verif.Model.AuthClient
import Verif.Props.AuthExample
import Verif.Props.RawClient
import Verif.Props.Hello
import Verif.Props.LoginClient
/-!
# Property C150: the clients of the auth example

A client's connection is its bytes on the way to the server (`r`, in any pieces), the messages that the server makes of them, and the
goroutines of the server, of which those with messages of this connection have these messages (`OnConn`).
-/
namespace Tcpx
open Spec AuthExample
variable {V : Type}

/-- What is taken of `encoding/json`, for headers and for credentials. -/
structure Spec.AuthCodec (env : Env V) (val : Auth → V) (auth : V → Auth) : Prop where
  json : env.json.Lawful
  decodes : ∀ a, Decodes (env.builtin .json) (val a)
  back : ∀ a, auth (val a) = a

/-- The goroutines with messages of connection `c` have messages that the server has received there, routed by their headers, with what
`Bind` makes of them. -/
def Spec.OnConn (env : Env V) (bind : Bytes → Except String Auth) (c : Nat) (tasks : List Task) (g : Nat → Gor) : Prop :=
  ∀ i m, g i = .msg m → m.conn = c → ∃ b, .single b ∈ tasks ∧ RoutedOf env.json b m.routed ∧ m.bound = bind b

theorem headerType_of {json : JSONCodec} {b : Bytes} {h : Header} {s : String} (e1 : frameHeader json b = some h)
    (e2 : Header.get? h "Router-Type" = some (.str s)) : headerType json b = s := by
  rw [headerType, e1, typeIn]
  simp only [e2]
theorem routedOf_byId {json : JSONCodec} {b : Bytes} {q : Srv.Routed} (h8 : 8 ≤ b.length) (ht : headerType json b = "MESSAGE_ID")
    (h : RoutedOf json b q) : q = .byId (Int32.ofInt (declaredId b)) := by
  have ne : ("URL_PATTERN" : String) ≠ "MESSAGE_ID" := by decide
  cases h with
  | noHeader => rfl
  | plain => rfl
  | noId h => exact absurd h8 (Nat.not_le.2 h)
  | url h p e1 e2 => exact absurd ((headerType_of e1 e2).symm.trans ht) ne
  | noPattern h e1 e2 => exact absurd ((headerType_of e1 e2).symm.trans ht) ne
  | badPattern h v e1 e2 => exact absurd ((headerType_of e1 e2).symm.trans ht) ne
  | otherType h s e1 e2 e3 => exact absurd ((headerType_of e1 e2).symm.trans ht) e3

/-- What the server makes of the message of a client with any secret. -/
theorem auth_message (env : Env V) (val : Auth → V) (auth : V → Auth) (hc : AuthCodec env val auth) (noAuth : V) (text : Err → String)
    (a : Auth) (b : Bytes) (hb : AuthClient.packed env val a = .ok b) (hs : b.length < 2^31) :
    (∀ q, RoutedOf env.json b q → q = .byId 1393) ∧ AuthClient.bound env auth noAuth text b = .ok a := by
  let x : Sent V := ⟨⟨1393, none, some (val a)⟩, none, b⟩
  have hx : x.Ok env 0 := ⟨hb, hs, fun h => absurd h (by decide), rfl⟩
  have hnone : ∀ k, Header.get? none k = none := fun _ => rfl
  obtain ⟨-, -, h2, -⟩ := hello_routed env hc.json 0 x hx ⟨(fun s h => by rw [hnone] at h; cases h), hnone _⟩
  obtain ⟨h8, hid, -⟩ := packed_frame env hc.json _ _ _ (show x.msg.pack env x.m = .ok x.bytes from hx.packed) hx.small
  refine ⟨fun q hq => ?_, ?_⟩
  · rw [routedOf_byId h8 h2 hq, hid]
    simp [x]
  obtain ⟨_, _, _, h3, _⟩ := C81_handler_reads env hc.json 0 x hx []
  obtain ⟨h', h4, _⟩ := h3 (val a) noAuth rfl (hc.decodes a)
  have h5 : ctxBind env (env.builtin .json) { live := b } noAuth = .ok ⟨1393, h', some (val a)⟩ := h4
  simp [AuthClient.bound, h5, hc.back]

/-- The messages of a connection over which the packed credentials `a` are sent, once or not at all. -/
theorem auth_conn (env : Env V) (val : Auth → V) (auth : V → Auth) (hc : AuthCodec env val auth) (noAuth : V) (text : Err → String)
    (a : Auth) (bs : List Bytes) (hb : ∀ b ∈ bs, AuthClient.packed env val a = .ok b) (max : Int32)
    (hs : ∀ b ∈ bs, b.length < 2^31 ∧ (0 < max.toInt → (b.length : Int) ≤ 4 + max.toInt)) (r : Reader)
    (hr : stream r = (bs.flatten, .stillOpen)) (c : Nat) (g : Nat → Gor)
    (hg : OnConn env (AuthClient.bound env auth noAuth text) c (connLoop env.json max r).1 g) (i : Nat) (m : Msg) (hi : g i = .msg m)
    (hm : m.conn = c) : bs ≠ [] ∧ m.routed = .byId 1393 ∧ m.bound = .ok a := by
  obtain ⟨b, h1, h2, h3⟩ := hg i m hi hm
  let xs : List (Sent V) := bs.map fun b => ⟨⟨1393, none, some (val a)⟩, none, b⟩
  have hx : ∀ x ∈ xs, x.Ok env max.toInt := by
    intro x hx
    obtain ⟨b, hm, rfl⟩ := List.mem_map.1 hx
    exact ⟨hb b hm, (hs b hm).1, (hs b hm).2, rfl⟩
  have he : xs.map Sent.bytes = bs := by simp [xs, Function.comp_def]
  have hinc : Incomplete max.toInt [] := .inl (by simp)
  rw [C81_one_task_each env hc.json max xs hx [] hinc .stillOpen trivial r (by rw [he, hr]; simp)] at h1
  obtain ⟨x, hxm, hxe⟩ := List.mem_map.1 h1
  have hbm : b ∈ bs := by
    rw [← he]
    cases hxe
    exact List.mem_map_of_mem hxm
  obtain ⟨k1, k2⟩ := auth_message env val auth hc noAuth text a b (hb b hbm) (hs b hbm).1
  exact ⟨List.ne_nil_of_mem hbm, k1 _ h2, h3.trans k2⟩

/-- C150: the client that sends nothing (`ClientAuthTimeout`) is connected for thirty seconds, and is then disconnected: if the auth watcher is
never more than `d` late, its connection has been closed when thirty seconds and `3 * d` have passed since it was accepted. -/
theorem C150_silent (env : Env V) (val : Auth → V) (auth : V → Auth) (hc : AuthCodec env val auth) (noAuth : V) (text : Err → String)
    (md5 : String → String) (sent : List Bytes) (hsent : AuthClient.sends env val md5 .timeout = .ok sent) (max : Int32) (r : Reader)
    (hr : stream r = (sent.flatten, .stillOpen)) (d : Nat) (life : Life) (g : Nat → Gor) (ls ls' : List TLabel) (c : Nat)
    (hc' : c = (trun cfg life (fun i => (g i).calls md5) ls).w.n)
    (hg : OnConn env (AuthClient.bound env auth noAuth text) c (connLoop env.json max r).1 g)
    (hp : Throughout cfg (.start life fun i => (g i).calls md5) (ls ++ .act (.accept .tcp) :: ls') (PromptAuth cfg d c))
    (hlate : (trun cfg life (fun i => (g i).calls md5) ls).now + 30000000000 + 3 * d <
      (trun cfg life (fun i => (g i).calls md5) (ls ++ .act (.accept .tcp) :: ls')).now) :
    ClosedIn c (trun cfg life (fun i => (g i).calls md5) (ls ++ .act (.accept .tcp) :: ls')).log := by
  have hnil : sent = [] := by
    unfold AuthClient.sends at hsent
    split at hsent <;> cases hsent <;> rfl
  subst hnil
  apply Classical.byContradiction
  intro hopen
  obtain ⟨-, _, i, m, h1, h2, -, -⟩ := C121_let_in md5 d life g ls ls' c hc' hp hopen hlate
  exact (auth_conn env val auth hc noAuth text ⟨"", "", ""⟩ [] (by simp) max (by simp) r hr c g hg i m h1 h2).1 rfl

/-- C150: the client with the wrong secret (`InvalidClient`) is told so and disconnected at once, if the two texts have different hashes:
all that is done with its message is to write "auth deny, signature wrong" and to deny it; its connection has been closed when `3 * d`
have passed since that was done, and in any case thirty seconds and `3 * d` after it was accepted. -/
theorem C150_refused (env : Env V) (val : Auth → V) (auth : V → Auth) (hc : AuthCodec env val auth) (noAuth : V) (text : Err → String)
    (md5 : String → String) (hmd5 : md5 "ftfjhello2222" ≠ md5 "ftfjhello") (sent : List Bytes)
    (hsent : AuthClient.sends env val md5 .invalid = .ok sent) (max : Int32)
    (hs : ∀ b ∈ sent, b.length < 2^31 ∧ (0 < max.toInt → (b.length : Int) ≤ 4 + max.toInt)) (r : Reader)
    (hr : stream r = (sent.flatten, .stillOpen)) (d : Nat) (life : Life) (g : Nat → Gor) (ls ls' : List TLabel) (c : Nat)
    (hc' : c = (trun cfg life (fun i => (g i).calls md5) ls).w.n)
    (hg : OnConn env (AuthClient.bound env auth noAuth text) c (connLoop env.json max r).1 g)
    (hp : Throughout cfg (.start life fun i => (g i).calls md5) (ls ++ .act (.accept .tcp) :: ls') (PromptAuth cfg d c)) :
    (∀ i m, g i = .msg m → m.conn = c → (runOps .new ops).handle m.routed = .direct authHandler ∧
      handler md5 m.bound = [.write "auth deny, signature wrong", .deny]) ∧
    ((∃ s i v, (s, .ret i (.auth c v)) ∈ (trun cfg life (fun i => (g i).calls md5) (ls ++ .act (.accept .tcp) :: ls')).log ∧
        s + 3 * d < (trun cfg life (fun i => (g i).calls md5) (ls ++ .act (.accept .tcp) :: ls')).now) ∨
      (trun cfg life (fun i => (g i).calls md5) ls).now + 30000000000 + 3 * d <
        (trun cfg life (fun i => (g i).calls md5) (ls ++ .act (.accept .tcp) :: ls')).now →
      ClosedIn c (trun cfg life (fun i => (g i).calls md5) (ls ++ .act (.accept .tcp) :: ls')).log) := by
  obtain ⟨b, hb⟩ : ∃ b, AuthClient.packed env val (AuthClient.credentials md5 "hello2222") = .ok b := by
    obtain ⟨bb, h1, _⟩ := hc.decodes (AuthClient.credentials md5 "hello2222")
    obtain ⟨hb, h2⟩ := Option.isSome_iff_exists.1 hc.json.nil_ok
    simp [AuthClient.packed, packWithMarshaller, h1, h2, orErr]
  have hs' : sent = [b] := by
    unfold AuthClient.sends at hsent
    rw [show AuthClient.secret .invalid = "hello2222" from rfl, hb] at hsent
    cases hsent
    rfl
  subst hs'
  have hall : ∀ i m, g i = .msg m → m.conn = c → m.routed = .byId 1393 ∧ m.bound = .ok (AuthClient.credentials md5 "hello2222") :=
    fun i m h1 h2 => (auth_conn env val auth hc noAuth text _ [b] (by simpa using hb) max hs r hr c g hg i m h1 h2).2
  have hne : (AuthClient.credentials md5 "hello2222").signature ≠
      md5 ((AuthClient.credentials md5 "hello2222").f1 ++ (AuthClient.credentials md5 "hello2222").f2 ++ "hello") := hmd5
  have hnone : ∀ i m, g i = .msg m → m.conn = c → ¬ Signed md5 m := by
    rintro i m h1 h2 ⟨-, a, h3, h4⟩
    rw [(hall i m h1 h2).2] at h3
    cases h3
    exact hne h4
  refine ⟨fun i m h1 h2 => ?_, ?_⟩
  · obtain ⟨h3, h4⟩ := hall i m h1 h2
    refine ⟨by rw [h3]; decide, ?_⟩
    rw [h4]
    exact if_pos (fun h => hne h.symm)
  · rintro (⟨s, i, v, h1, h2⟩ | h)
    · exact (C121_denied md5 d life g ls ls' c hc' hp hnone s i v h1 h2).2
    · apply Classical.byContradiction
      intro hopen
      obtain ⟨-, _, i, m, h1, h2, h3, -⟩ := C121_let_in md5 d life g ls ls' c hc' hp hopen h
      exact hnone i m h1 h2 h3

/-- C150: whatever comes over its connection, a client prints it all, in order, however it is cut up; when the connection ends, it
prints an error and its process ends. -/
theorem C150_prints (r : Reader) (hp : (stream r).2.plain) :
    ∃ ps : List Bytes, ps.flatten = (stream r).1 ∧
      RawClient.recv r = (ps.map .text ++ (if (stream r).2 = .stillOpen then [] else [.error]),
        if (stream r).2 = .stillOpen then .waits else .exits) := RawClient.recv_stream r hp

/-- C150 (partial): the message of a client that has the server's secret lets it in, and once its `RecvAuthPass` has returned, more than
`2 * d` before thirty seconds have passed, it is never disconnected for want of authorisation.
Missing: `ValidClient` has another secret, and does not send the message (`C150_valid_violated`). -/
theorem C150_right_partial (env : Env V) (val : Auth → V) (auth : V → Auth) (hc : AuthCodec env val auth) (noAuth : V)
    (text : Err → String) (md5 : String → String) (b : Bytes)
    (hb : AuthClient.packed env val (AuthClient.credentials md5 "hello") = .ok b) (max : Int32)
    (hs : b.length < 2^31 ∧ (0 < max.toInt → (b.length : Int) ≤ 4 + max.toInt)) (r : Reader)
    (hr : stream r = (b, .stillOpen)) (d : Nat) (life : Life) (g : Nat → Gor) (ls : List TLabel) (c : Nat)
    (hg : OnConn env (AuthClient.bound env auth noAuth text) c (connLoop env.json max r).1 g)
    (hp : Throughout cfg (.start life fun i => (g i).calls md5) ls (PromptAuth cfg d c)) :
    (∀ i m, g i = .msg m → m.conn = c → (runOps .new ops).handle m.routed = .direct authHandler ∧ handler md5 m.bound = [.pass]) ∧
    ∀ a s i, acceptedAt c (trun cfg life (fun i => (g i).calls md5) ls).log = some a →
      (s, .ret i (.auth c 1)) ∈ (trun cfg life (fun i => (g i).calls md5) ls).log → s + 2 * d < a + 30000000000 →
      ∀ t, (t, .closed c .deadline) ∉ (trun cfg life (fun i => (g i).calls md5) ls).log ∧
        (t, .closed c .denied) ∉ (trun cfg life (fun i => (g i).calls md5) ls).log := by
  have hall : ∀ i m, g i = .msg m → m.conn = c → m.routed = .byId 1393 ∧ m.bound = .ok (AuthClient.credentials md5 "hello") :=
    fun i m h1 h2 =>
      (auth_conn env val auth hc noAuth text _ [b] (by simpa using hb) max (by simpa using hs) r (by simpa using hr) c g hg i m h1 h2).2
  have he : (AuthClient.credentials md5 "hello").signature =
      md5 ((AuthClient.credentials md5 "hello").f1 ++ (AuthClient.credentials md5 "hello").f2 ++ "hello") := rfl
  refine ⟨fun i m h1 h2 => ?_, fun a s i ha hr hlt t => ?_⟩
  · obtain ⟨h3, h4⟩ := hall i m h1 h2
    exact ⟨by rw [h3]; decide, by rw [h4]; exact (authExample_pass md5 _).2 he.symm⟩
  · refine C121_kept md5 d life g ls c hp ?_ a s i ha hr hlt t
    rintro i m h1 h2 ⟨-, a, h3, h4⟩
    rw [(hall i m h1 h2).2] at h3
    cases h3
    exact h4 he

/-- C150 is violated: `ValidClient` is not let in.  It sends nothing, so its connection has been closed when thirty seconds and `3 * d`
have passed since it was accepted; and what it has packed, and does not send, would be refused. -/
theorem C150_valid_violated (env : Env V) (val : Auth → V) (auth : V → Auth) (hc : AuthCodec env val auth) (noAuth : V)
    (text : Err → String) (md5 : String → String) (hmd5 : md5 "ftfjhello2222" ≠ md5 "ftfjhello") :
    (∃ b, AuthClient.packed env val (AuthClient.credentials md5 (AuthClient.secret .valid)) = .ok b ∧ (b.length < 2^31 →
      handler md5 (AuthClient.bound env auth noAuth text b) = [.write "auth deny, signature wrong", .deny])) ∧
    AuthClient.sends env val md5 .valid = .ok [] ∧
    ∀ (max : Int32) (r : Reader), stream r = ([], .stillOpen) → ∀ (d : Nat) (life : Life) (g : Nat → Gor) (ls ls' : List TLabel) (c : Nat),
      c = (trun cfg life (fun i => (g i).calls md5) ls).w.n →
      OnConn env (AuthClient.bound env auth noAuth text) c (connLoop env.json max r).1 g →
      Throughout cfg (.start life fun i => (g i).calls md5) (ls ++ .act (.accept .tcp) :: ls') (PromptAuth cfg d c) →
      (trun cfg life (fun i => (g i).calls md5) ls).now + 30000000000 + 3 * d <
        (trun cfg life (fun i => (g i).calls md5) (ls ++ .act (.accept .tcp) :: ls')).now →
      ClosedIn c (trun cfg life (fun i => (g i).calls md5) (ls ++ .act (.accept .tcp) :: ls')).log := by
  obtain ⟨b, hb⟩ : ∃ b, AuthClient.packed env val (AuthClient.credentials md5 "hello2222") = .ok b := by
    obtain ⟨bb, h1, _⟩ := hc.decodes (AuthClient.credentials md5 "hello2222")
    obtain ⟨hb, h2⟩ := Option.isSome_iff_exists.1 hc.json.nil_ok
    simp [AuthClient.packed, packWithMarshaller, h1, h2, orErr]
  have e : ∀ w, AuthClient.secret w = "hello2222" := by intro w; cases w <;> rfl
  refine ⟨⟨b, by rw [e]; exact hb, fun hs => ?_⟩, ?_, ?_⟩
  · rw [(auth_message env val auth hc noAuth text _ b hb hs).2]
    exact if_pos (fun h => hmd5 h.symm)
  · unfold AuthClient.sends
    rw [e, hb]
  · intro max r hr d life g ls ls' c hc' hg hp hlate
    refine C150_silent env val auth hc noAuth text md5 [] ?_ max r hr d life g ls ls' c hc' hg hp hlate
    unfold AuthClient.sends
    rw [e, hb]

/-! Examples for C150. -/

/-- Credentials in bytes, used in the examples in place of JSON. -/
private def authEnv : Env Auth :=
  { json := Demo.env.json
    enc := fun _ a => some (Demo.encMap [(a.f1, a.f2), (a.signature, "")])
    dec := fun _ t _ => match Demo.decMap t with
      | [(f1, f2), (s, _)] => some ⟨f1, f2, s⟩
      | _ => none }

private theorem authEnv_codec : AuthCodec authEnv id id := by
  refine ⟨Demo.json_lawful, fun a => ⟨_, rfl, ?_, fun d => ?_⟩, fun _ => rfl⟩
  · intro h
    have := congrArg Demo.decMap h
    rw [Demo.decMap_encMap] at this
    exact absurd this (by simp [Demo.decMap, Demo.nums, Demo.strs, Demo.pairs])
  · show (match Demo.decMap (Demo.encMap [(a.f1, a.f2), (a.signature, "")]) with
      | [(f1, f2), (s, _)] => some ⟨f1, f2, s⟩
      | _ => none) = some a
    rw [Demo.decMap_encMap]

/-- A hash for the examples. -/
private def authMd5 (s : String) : String := if s = "ftfjhello" then "A" else "B"

private def authFrame (a : Auth) : Bytes := Tcpx.frame 1393 (Demo.encHeader none) (Demo.encMap [(a.f1, a.f2), (a.signature, "")])

private theorem auth_packed (a : Auth) : AuthClient.packed authEnv id a = .ok (authFrame a) := by
  simp [AuthClient.packed, packWithMarshaller, authFrame, authEnv, Demo.env, Demo.json, orErr, Env.builtin, defaultAuthMessageID]

-- the goroutines of `Demo.gor` have the message sent over the connection
private theorem authEnv_onConn (a : Auth) (hs : (authFrame a).length < 2^31) :
    OnConn authEnv (AuthClient.bound authEnv id ⟨"", "", ""⟩ fun _ => "") 0 (connLoop authEnv.json 0 [.chunk (authFrame a)]).1 (Demo.gor a) := by
  intro i m hi hm
  have hx : (⟨⟨1393, none, some a⟩, none, authFrame a⟩ : Sent Auth).Ok authEnv (0 : Int32).toInt :=
    ⟨auth_packed a, hs, fun h => absurd h (by decide), rfl⟩
  rw [C81_one_task_each authEnv authEnv_codec.json 0 [⟨⟨1393, none, some a⟩, none, authFrame a⟩] (by simpa using hx) [] (.inl (by decide)) .stillOpen
    trivial _ (by simp [stream])]
  have hnone : ∀ k, Header.get? none k = none := fun _ => rfl
  cases i with
  | zero => cases hi
  | succ i =>
    cases hi
    exact ⟨authFrame a, by simp, (hello_routed authEnv authEnv_codec.json _ _ hx ⟨(fun s h => by rw [hnone] at h; cases h), hnone _⟩).1,
      ((auth_message authEnv id id authEnv_codec ⟨"", "", ""⟩ (fun _ => "") a _ (auth_packed a) hs).2).symm⟩

set_option maxRecDepth 100000 in
private theorem authFrame_small : (authFrame (AuthClient.credentials authMd5 "hello2222")).length < 2^31 ∧
    (authFrame (AuthClient.credentials authMd5 "hello")).length < 2^31 := by decide

-- the hypotheses of C150_refused can be met: the message refused after 5 s, the connection closed
example : let a := AuthClient.credentials authMd5 "hello2222"
    let ls' : List TLabel := [.delay 5000000000, .act (.user 1), .act (.user 1), .delay 1, .act (.au 0 .recv), .act (.au 0 .go), .delay 9]
    let jobs := fun i => (Demo.gor a i).calls authMd5
    authMd5 "ftfjhello2222" ≠ authMd5 "ftfjhello" ∧ AuthClient.sends authEnv id authMd5 .invalid = .ok [authFrame a] ∧
    (authFrame a).length < 2^31 ∧ stream [.chunk (authFrame a)] = ([authFrame a].flatten, .stillOpen) ∧
    OnConn authEnv (AuthClient.bound authEnv id ⟨"", "", ""⟩ fun _ => "") 0 (connLoop authEnv.json 0 [.chunk (authFrame a)]).1 (Demo.gor a) ∧
    Throughout AuthExample.cfg (.start Demo.wlife jobs) ([] ++ .act (.accept .tcp) :: ls') (PromptAuth AuthExample.cfg 1 0) ∧
    (trun AuthExample.cfg Demo.wlife jobs ([] ++ .act (.accept .tcp) :: ls')).log =
      [(5000000001, .closed 0 .denied), (5000000001, .authTaken 0 (-1)), (5000000000, .ret 1 (.auth 0 (-1))),
       (5000000000, .invoke 1 (.auth 0 (-1))), (0, .newConn 0)] ∧
    5000000000 + 3 * 1 < (trun AuthExample.cfg Demo.wlife jobs ([] ++ .act (.accept .tcp) :: ls')).now :=
  ⟨by decide, by unfold AuthClient.sends; rw [auth_packed]; rfl, authFrame_small.1, by simp [stream], authEnv_onConn _ authFrame_small.1,
    throughout_of _ _ _ _ (by decide), by decide, by decide⟩

-- and those of C150_right_partial: the message lets in after 5 s, the connection is open after 31 s
example : let a := AuthClient.credentials authMd5 "hello"
    let ls : List TLabel := [.act (.accept .tcp), .delay 5000000000, .act (.user 1), .act (.user 1), .act (.au 0 .recv), .delay 26000000000]
    let jobs := fun i => (Demo.gor a i).calls authMd5
    AuthClient.packed authEnv id a = .ok (authFrame a) ∧ (authFrame a).length < 2^31 ∧
    OnConn authEnv (AuthClient.bound authEnv id ⟨"", "", ""⟩ fun _ => "") 0 (connLoop authEnv.json 0 [.chunk (authFrame a)]).1 (Demo.gor a) ∧
    Throughout AuthExample.cfg (.start Demo.wlife jobs) ls (PromptAuth AuthExample.cfg 1 0) ∧
    acceptedAt 0 (trun AuthExample.cfg Demo.wlife jobs ls).log = some 0 ∧
    (5000000000, .ret 1 (.auth 0 1)) ∈ (trun AuthExample.cfg Demo.wlife jobs ls).log ∧ 5000000000 + 2 * 1 < 0 + 30000000000 :=
  ⟨auth_packed _, authFrame_small.2, authEnv_onConn _ authFrame_small.2, throughout_of _ _ _ _ (by decide), by decide, by decide, by decide⟩

-- and those of C150_silent and C150_valid_violated: nothing comes, the connection is closed after 30 s
example : let g : Nat → Gor := fun _ => .conn 0
    let ls' : List TLabel := [.delay 30000000000, .act (.au 0 .timer), .act (.au 0 .go), .delay 9]
    let jobs := fun i => (g i).calls authMd5
    AuthClient.sends authEnv id authMd5 .timeout = .ok [] ∧ AuthCodec authEnv id id ∧
    OnConn authEnv (AuthClient.bound authEnv id ⟨"", "", ""⟩ fun _ => "") 0 (connLoop authEnv.json 0 []).1 g ∧
    Throughout AuthExample.cfg (.start Demo.wlife jobs) ([] ++ .act (.accept .tcp) :: ls') (PromptAuth AuthExample.cfg 1 0) ∧
    (trun AuthExample.cfg Demo.wlife jobs ([] ++ .act (.accept .tcp) :: ls')).log =
      [(30000000000, .closed 0 .deadline), (30000000000, .deadline 0), (0, .newConn 0)] ∧
    0 + 30000000000 + 3 * 1 < (trun AuthExample.cfg Demo.wlife jobs ([] ++ .act (.accept .tcp) :: ls')).now :=
  ⟨by unfold AuthClient.sends; rw [auth_packed], authEnv_codec, fun _ _ h => (by cases h), throughout_of _ _ _ _ (by decide), by decide, by decide⟩

end Tcpx
