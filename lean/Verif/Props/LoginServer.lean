import Verif.Model.LoginServer
import Verif.Props.LoginClient
import Verif.Props.Answer
import Verif.Spec.Programs
/-!
# Property C160: the guarded login, from the client's message to what the client shows
-/
namespace Tcpx
open Spec
variable {V : Type}

/-- The answer a message to the guarded login is to get, by the header and the body its sender packed. -/
inductive Spec.LoginAnswer (env : Env V) (v : Login.Vals V) (x : Sent V) : Int32 → V → Prop where
  | noKey : x.msg.header.get? "Authorization" = none → LoginAnswer env v x 403 v.notFound
  | wrongKey (a) : x.msg.header.get? "Authorization" = some a → a ≠ .str "a client secret key" → LoginAnswer env v x 403 v.invalid
  | welcome : x.msg.header.get? "Authorization" = some (.str "a client secret key") → Readable env v.noUser x →
      LoginAnswer env v x 2 v.welcome
  | unreadable (e) : x.msg.header.get? "Authorization" = some (.str "a client secret key") → ¬ Readable env v.noUser x →
      LoginAnswer env v x 2 (v.bindError e)

/-- `pk id body` is the frame of the answer, for those that can be given, and a `Write` takes it. -/
structure Spec.LoginFrames (env : Env V) (v : Login.Vals V) (room : Nat) (pk : Int32 → V → Bytes) : Prop where
  packed : ∀ id body, (id = 403 ∧ (body = v.notFound ∨ body = v.invalid)) ∨ (id = 2 ∧ (body = v.welcome ∨ ∃ e, body = v.bindError e)) →
    packWithMarshaller env ⟨id, some [], some body⟩ (some (env.builtin .json)) = .ok (pk id body) ∧ (pk id body).length ≤ room

/-- A message to the login: its id is 1, and its header says nothing of routing. -/
structure Spec.ToLogin (x : Sent V) : Prop where
  id : x.msg.id = 1
  type : x.msg.header.get? "Router-Type" = none
  pattern : x.msg.header.get? "Router-Pattern-Value" = none

theorem login_say (env : Env V) (v : Login.Vals V) (room : Nat) (pk : Int32 → V → Bytes) (hf : LoginFrames env v room pk) (id : Int32) (body : V)
    (h : (id = 403 ∧ (body = v.notFound ∨ body = v.invalid)) ∨ (id = 2 ∧ (body = v.welcome ∨ ∃ e, body = v.bindError e))) (k : Code) :
    Login.say env room id body k = .call (.send (pk id body)) fun _ => k := by
  obtain ⟨h1, h2⟩ := hf.packed id body h
  have n1 : (env.builtin .json).name = "json" := rfl
  simp only [Login.say, ctxFormat, commonReply, n1, ne_eq, not_true_eq_false, if_false, packxPack, if_true, h1, sendPacked, replyBuf, writeOnce]
  exact ofSend_one _ room h2 _

theorem absent_of_same {h' h : Header} {k : String} (hs : (h'.get? k).map Any.asString = (h.get? k).map Any.asString) (hn : h.get? k = none) :
    h'.get? k = none := by
  rw [hn] at hs
  cases hg : Header.get? h' k with
  | none => rfl
  | some v => rw [hg] at hs; cases hs

theorem login_code (env : Env V) (hj : env.json.Lawful) (max : Int) (room : Nat) (v : Login.Vals V) (pk : Int32 → V → Bytes)
    (hf : LoginFrames env v room pk) (x : Sent V) (hx : x.Ok env max) :
    ∃ id body, LoginAnswer env v x id body ∧
      Login.code env room v x.bytes (.chain [Login.beforeLogin, Login.login]) = .call (.send (pk id body)) fun _ => .done := by
  have hc : Login.code env room v x.bytes (.chain [Login.beforeLogin, Login.login]) =
      Login.guardBody env room v x.bytes (Login.loginBody env room v x.bytes .done) := rfl
  obtain ⟨h', h1, -, h2⟩ := (C81_handler_reads env hj max x hx []).2.1
  have h1 : headerOf env.json { live := x.bytes } = .ok h' := h1
  have hk := h2 "Authorization"
  rw [hc]
  unfold Login.guardBody
  rw [h1]
  simp only
  cases ha : x.msg.header.get? "Authorization" with
  | none =>
    rw [absent_of_same hk ha]
    exact ⟨403, v.notFound, .noKey ha, login_say env v room pk hf _ _ (.inl ⟨rfl, .inl rfl⟩) _⟩
  | some a =>
    rw [ha] at hk
    cases ha' : h'.get? "Authorization" with
    | none => rw [ha'] at hk; cases hk
    | some a' =>
      rw [ha'] at hk
      have hk : a'.asString = a.asString := by simpa using hk
      have hiff : a' = .str "a client secret key" ↔ a = .str "a client secret key" := by
        have : ∀ b : Any, b = .str "a client secret key" ↔ b.asString = some "a client secret key" := by
          intro b; cases b <;> simp [Any.asString]
        rw [this, this, hk]
      simp only
      by_cases hw : a = .str "a client secret key"
      · rw [if_neg (by simpa using hiff.2 hw)]
        subst hw
        obtain ⟨g1, g2⟩ := bind_readable env hj max x hx v.noUser
        unfold Login.loginBody
        by_cases hread : Readable env v.noUser x
        · obtain ⟨m, hm⟩ := g1 hread
          rw [hm]
          exact ⟨2, v.welcome, .welcome ha hread, login_say env v room pk hf _ _ (.inr ⟨rfl, .inl rfl⟩) _⟩
        · obtain ⟨e, he⟩ := g2 hread
          rw [he]
          exact ⟨2, v.bindError e, .unreadable e ha hread, login_say env v room pk hf _ _ (.inr ⟨rfl, .inr ⟨e, rfl⟩⟩) _⟩
      · rw [if_pos (by simpa using fun h => hw (hiff.1 h))]
        exact ⟨403, v.invalid, .wrongKey a ha hw, login_say env v room pk hf _ _ (.inl ⟨rfl, .inr rfl⟩) _⟩

theorem login_avoids (env : Env V) (room : Nat) (v : Login.Vals V) (stream : Bytes) (d : Dispatch) (bad : Call → Prop)
    (hb : ∀ b, ¬ bad (.send b)) : Avoids bad (Login.code env room v stream d) := by
  have hsay : ∀ id body k, Avoids bad k → Avoids bad (Login.say env room id body k) := by
    intro id body k hk
    unfold Login.say Code.ofSend
    generalize (ctxFormat env (env.builtin .json) .json .conn (.accept room) id (some body) []).calls = l
    induction l with
    | nil => simp only [List.foldr_nil]; split; exact .panic; exact hk
    | cons a l ih => exact .call _ _ (hb _) (fun _ => ih)
  cases d with
  | chain hs =>
    show Avoids bad (List.foldr _ _ hs)
    induction hs with
    | nil => exact .done
    | cons h hs ih =>
      rw [List.foldr_cons]
      generalize List.foldr _ _ hs = k at ih ⊢
      split
      · unfold Login.guardBody
        split
        · split
          · exact hsay _ _ _ .done
          · split
            · exact hsay _ _ _ .done
            · exact ih
        · exact hsay _ _ _ .done
        · exact .panic
        · exact .panic
      · split
        · unfold Login.loginBody
          split
          · exact hsay _ _ _ ih
          · exact hsay _ _ _ ih
          · exact .panic
          · exact .panic
        · exact ih
  | _ => exact .done

/-- C160: clients send any messages to the login of either example over a connection, with any header entries (but none on routing), bodies
and marshallers; they arrive in any pieces and are handled along any schedule, beside those of other connections.  Then no handling
panics, what goes out over the connection are the answers of distinct messages, whole, each the one that its own header and body
deserve; and when all are finished, every message has been answered. -/
theorem C160_answered (env : Env V) (hj : env.json.Lawful) (max : Int32) (room : Nat) (v : Login.Vals V) (pk : Int32 → V → Bytes)
    (hf : LoginFrames env v room pk) (ops : List RegOp) (hops : ops = Login.anchored ∨ ops = Login.routed)
    (xs : List (Sent V)) (hx : ∀ x ∈ xs, x.Ok env max.toInt ∧ ToLogin x) (tail : Bytes) (ht : Incomplete max.toInt tail)
    (e : Ending) (he : e.plain) (r : Reader) (hr : stream r = ((xs.map Sent.bytes).flatten ++ tail, e)) (c : Nat) (arr : Nat → Arrival)
    (hrec : ReceivedOn c (connLoop env.json max r).1 arr)
    (hcode : ∀ i, (arr i).tcp = some c → ∀ d, (arr i).code d = Login.code env room v (arr i).stream d) (sched : List Nat) :
    let y := (Sys.start (runOps .new ops) env.json arr).run sched
    (∀ i < xs.length, (y.threads i).prog ≠ .panic) ∧
    ∃ (is : List Nat) (out : Nat → Bytes), is.Nodup ∧ (∀ i ∈ is, i < xs.length) ∧ sentOn arr c y.trace = is.map out ∧
      (∀ i x, xs[i]? = some x → ∃ id body, LoginAnswer env v x id body ∧ out i = pk id body) ∧
      ((∀ i < xs.length, ∀ a k, (y.threads i).prog ≠ .act a k) → ∀ i < xs.length, i ∈ is) := by
  intro y
  rw [C81_one_task_each env hj max xs (fun x h => (hx x h).1) tail ht e he r hr] at hrec
  have hget : ∀ i, (arr i).tcp = some c → ∃ x, xs[i]? = some x ∧ (arr i).stream = x.bytes ∧ x.Ok env max.toInt ∧ ToLogin x := by
    intro i hi
    obtain ⟨x, hm, h1, h2⟩ := received_getElem hrec hi
    exact ⟨x, h1, h2, (hx x hm).1, (hx x hm).2⟩
  have hfr : ∀ x : Sent V, x.Ok env max.toInt → ToLogin x →
      declaredHeaderLen x.bytes < 2^31 - 16 ∧ headerType env.json x.bytes = MESSAGEID ∧ RoutedOf env.json x.bytes (.byId 1) ∧
      urlPatternOf env.json { live := x.bytes } = .ok "" := by
    intro x hx ⟨hi, ht, hp⟩
    obtain ⟨h8, hid, hl, h', hh, hk⟩ := packed_frame env hj x.msg x.m x.bytes hx.packed hx.small
    have hn := absent_of_same (hk "Router-Type") ht
    refine ⟨hl, by rw [headerType_eq hh, typeIn, hn]; rfl, ?_, ?_⟩
    · have : Int32.ofInt (declaredId x.bytes) = 1 := by rw [hid, hi]; rfl
      rw [← this]
      exact .plain h' hh (fun s hs => by rw [hn] at hs; cases hs) h8
    · obtain ⟨h'', h4, -, h5⟩ := (C81_handler_reads env hj max.toInt x hx []).2.1
      have h4 : headerOf env.json { live := x.bytes } = .ok h'' := h4
      have hn2 : h''.get? HEADER_ROUTER_VALUE = none := absent_of_same (h5 "Router-Pattern-Value") hp
      simp [urlPatternOf, h4, headerGetString, hn2]
  have hal : Alike env.json arr c MESSAGEID (.ok "") := by
    refine ⟨fun i hi => ?_, fun i hi => ?_, fun i hi => ?_, fun i hi d => ?_⟩
    · obtain ⟨x, _, h2, h3, h4⟩ := hget i hi
      rw [h2]; exact (hfr x h3 h4).1
    · obtain ⟨x, _, h2, h3, h4⟩ := hget i hi
      rw [h2]; exact (hfr x h3 h4).2.1
    · obtain ⟨x, _, h2, h3, h4⟩ := hget i hi
      rw [h2]; exact (hfr x h3 h4).2.2.2
    · rw [hcode i hi d]
      refine login_avoids env room v _ _ _ ?_
      rintro b (h | h) <;> simp [StoresKey] at h
  have hd : (runOps .new ops).handle (.byId 1) = .chain [Login.beforeLogin, Login.login] := by
    rcases hops with rfl | rfl <;> decide
  have hch : ∀ i : Nat, ∃ b : Bytes, ∀ x, xs[i]? = some x → ∃ id body, LoginAnswer env v x id body ∧ b = pk id body ∧
      Login.code env room v x.bytes (.chain [Login.beforeLogin, Login.login]) = .call (.send b) fun _ => .done := by
    intro i
    cases h : xs[i]? with
    | none => exact ⟨[], fun x hx => by cases hx⟩
    | some x =>
      obtain ⟨id, body, h1, h2⟩ := login_code env hj max.toInt room v pk hf x (hx x (List.mem_of_getElem? h)).1
      refine ⟨pk id body, fun x' hx' => ?_⟩
      injection hx' with hx'
      subst hx'
      exact ⟨id, body, h1, rfl, h2⟩
  obtain ⟨out, hout⟩ := Classical.axiomOfChoice hch
  have hstate : ∀ i, (arr i).tcp = some c → SendState False MESSAGEID (.ok "") (out i) true i y := by
    intro i hi
    obtain ⟨x, h1, h2, h3, h4⟩ := hget i hi
    obtain ⟨id, body, _, _, k2⟩ := hout i x h1
    refine sendState_run _ env.json arr c hal i hi (out i) true (Owes.request _ env.json _ _ (.byId 1)
      (by rw [h2]; exact (hfr x h3 h4).2.2.1) (hal.small i hi) (hal.type i hi)
      (by rw [hd]; simp) (.inr (by rw [hd]; simp)) _ ?_) sched
    rw [hd, hcode i hi, h2, k2]
    exact .send _ (fun _ => .ret _ _ rfl)
  have htcp : ∀ i < xs.length, (arr i).tcp = some c := fun i hi => (hrec.1 i xs[i].bytes (by simp [hi])).1
  have hnp : ∀ i < xs.length, (y.threads i).prog ≠ .panic := by
    intro i hi h
    obtain ⟨o, ho, _⟩ := hstate i (htcp i hi)
    rw [h] at ho
    cases ho with
    | panic _ h => exact h
  obtain ⟨is, n1, n2, n3, n4⟩ := answered_of_states arr c out (fun _ => true) y hstate
  refine ⟨hnp, is, out, n1, fun i hi => ?_, n3, fun i x h => ?_, fun hfin i hi => ?_⟩
  · obtain ⟨x, h, _⟩ := hget i (n2 i hi).1
    exact (List.getElem?_eq_some_iff.1 h).1
  · obtain ⟨id, body, k1, k2, _⟩ := hout i x h
    exact ⟨id, body, k1, k2⟩
  · refine n4 i (htcp i hi) rfl ?_
    cases hp : (y.threads i).prog with
    | ret a => rfl
    | panic => exact absurd hp (hnp i hi)
    | act a k => exact absurd hp (hfin i hi a k)

/-- C160: the client of the examples writes its message and reads.  If its user can be bound, then along every schedule the server has sent
nothing on this connection or the welcome, once, and has sent it when the request is finished; the request does not panic; and the client, in
whatever pieces the welcome reaches it, shows the token and nothing else. -/
theorem C160_client (env : Env V) (hj : env.json.Lawful) (max : Int32) (room : Nat) (v : Login.Vals V) (pk : Int32 → V → Bytes)
    (hf : LoginFrames env v room pk) (ops : List RegOp) (hops : ops = Login.anchored ∨ ops = Login.routed)
    (user : V) (hu : ∃ text u, env.enc .json user = some text ∧ env.dec .json text v.noUser = some u)
    (b : Bytes) (hb : Login.clientSends env user = .ok b) (hne : b ≠ []) (hs : b.length < 2^31)
    (hfit : 0 < max.toInt → (b.length : Int) ≤ 4 + max.toInt) (e : Ending) (he : e.plain) (r : Reader) (hr : stream r = (b, e))
    (c : Nat) (arr : Nat → Arrival) (hrec : ReceivedOn c (connLoop env.json max r).1 arr)
    (hcode : ∀ i, (arr i).tcp = some c → ∀ d, (arr i).code d = Login.code env room v (arr i).stream d)
    (obj : Bytes → Option (List (String × String))) (tok : Bytes → Option String) (t : String)
    (ht : ∃ text, env.enc .json v.welcome = some text ∧ tok text = some t) (hws : (pk 2 v.welcome).length < 2^31) :
    (∀ sched, let y := (Sys.start (runOps .new ops) env.json arr).run sched
      (y.threads 0).prog ≠ .panic ∧ (sentOn arr c y.trace = [] ∨ sentOn arr c y.trace = [pk 2 v.welcome]) ∧
      ((∀ a k, (y.threads 0).prog ≠ .act a k) → sentOn arr c y.trace = [pk 2 v.welcome])) ∧
    ∀ (e' : Ending) (r' : Reader), e'.plain → stream r' = (pk 2 v.welcome, e') →
      LoginClient.recv obj tok r' = ([.token t], if e' = .stillOpen then .waits else .exits) := by
  have hpk : packWithMarshaller env ⟨1, some [("Authorization", .str "a client secret key")], some user⟩ (some (env.builtin .json)) = .ok b := by
    unfold Login.clientSends at hb
    split at hb
    · rename_i b' h
      injection hb with hb
      rw [← hb]; exact h
    · injection hb with hb; exact absurd hb.symm hne
    · cases hb
    · cases hb
  let x : Sent V := ⟨⟨1, some [("Authorization", .str "a client secret key")], some user⟩, some (env.builtin .json), b⟩
  have hx : x.Ok env max.toInt := ⟨hpk, hs, hfit, by simp [x, Header.get?, GoMap.get?]⟩
  have hto : ToLogin x := ⟨rfl, by simp [x, Header.get?, GoMap.get?], by simp [x, Header.get?, GoMap.get?]⟩
  have hauth : x.msg.header.get? "Authorization" = some (.str "a client secret key") := by simp [x, Header.get?, GoMap.get?]
  have hread : Readable env v.noUser x := by
    obtain ⟨text, u, h1, h2⟩ := hu
    exact ⟨text, .inr ⟨user, rfl, .inr ⟨_, rfl, h1⟩⟩, .inr ⟨u, h2⟩⟩
  constructor
  · intro sched y
    obtain ⟨h1, is, out, h2, h3, h4, h5, h6⟩ := C160_answered env hj max room v pk hf ops hops [x] (by simpa using ⟨hx, hto⟩) []
      (.inl (by decide)) e he r (by simp [hr, x]) c arr hrec hcode sched
    have hout : out 0 = pk 2 v.welcome := by
      obtain ⟨id, body, k1, k2⟩ := h5 0 x rfl
      rw [k2]
      cases k1 with
      | noKey h => rw [hauth] at h; cases h
      | wrongKey a h hw => rw [hauth] at h; injection h with h; exact absurd h.symm hw
      | welcome _ _ => rfl
      | unreadable _ _ h => exact absurd hread h
    have hz : ∀ i ∈ is, i = 0 := fun i hi => by have := h3 i hi; simp at this; exact this
    have his : is = [] ∨ is = [0] := by
      match is, h2, hz with
      | [], _, _ => exact .inl rfl
      | [i], _, hz => right; rw [hz i (by simp)]
      | i :: j :: l, h2, hz =>
        have a := hz i (by simp); have b := hz j (by simp)
        subst a; subst b; simp at h2
    have h4 : sentOn arr c y.trace = is.map out := h4
    refine ⟨h1 0 (by simp), ?_, fun hfin => ?_⟩
    · rcases his with rfl | rfl
      · exact .inl h4
      · right; rw [h4, List.map_singleton, hout]
    · have hm : 0 ∈ is := h6 (fun i hi => by
        obtain rfl : i = 0 := by simpa using hi
        exact hfin) 0 (by simp)
      rcases his with rfl | rfl
      · cases hm
      · rw [h4, List.map_singleton, hout]
  · intro e' r' he' hr'
    obtain ⟨hp, _⟩ := hf.packed 2 v.welcome (.inr ⟨rfl, .inl rfl⟩)
    let w : Sent V := ⟨⟨2, some [], some v.welcome⟩, some (env.builtin .json), pk 2 v.welcome⟩
    obtain ⟨hb2, bb, _, k2, k3, k4, _⟩ := sent_frame (x := w) (max := 0) ⟨hp, hws, fun h => by omega, rfl⟩
    obtain ⟨text, t1, t2⟩ := ht
    have hbb : bb = text := by
      rcases k2 with ⟨h, _⟩ | ⟨u, h, h'⟩
      · cases h
      · injection h with h; subst h
        rcases h' with ⟨h, _⟩ | ⟨m, h, h'⟩
        · cases h
        · injection h with h; subst h
          have h' : env.enc .json v.welcome = some bb := h'
          rw [t1] at h'; injection h' with h'; exact h'.symm
    subst hbb
    have k4 : pk 2 v.welcome = Spec.frame (2 : Int32).toInt hb2 bb := k4
    obtain ⟨r2, s1, s2⟩ := login_recv (obj := obj) (tok := tok) 2 hb2 bb [] e' r' k3 (by rw [hr', k4, List.append_nil])
      (l := [.token t]) (by rw [LoginClient.display, if_neg (by decide), if_pos rfl, t2])
    have s3 := login_end (obj := obj) (tok := tok) (r := r2) (by rw [s1]; exact .inl (by simp)) (by rw [s1]; exact he')
    rw [s2, s3, s1]
    rfl

/-! Examples for C160: a message with the key, one without, one with another key and one with the key whose body cannot be bound, in two
pieces; and the message of the client. -/

private def logEnv : Env Bytes := { Demo.env with dec := fun b t d => if t = [9] then none else Demo.env.dec b t d }

private def logVals : Login.Vals Bytes := ⟨[], fun _ => [1], [2], [3], fun _ => [4], [5]⟩

private def logPk (id : Int32) (body : Bytes) : Bytes := Tcpx.frame id (Demo.encHeader (some [])) body

private theorem log_packed (id : Int32) (h : Header) (body : Bytes) :
    packWithMarshaller logEnv ⟨id, h, some body⟩ (some (logEnv.builtin .json)) = .ok (Tcpx.frame id (Demo.encHeader h) body) := by
  simp [packWithMarshaller, logEnv, Demo.env, Demo.json, orErr, Env.builtin]

private theorem logFrames : LoginFrames logEnv logVals 1000 logPk := by
  refine ⟨fun id body h => ⟨log_packed _ _ _, ?_⟩⟩
  rcases h with ⟨rfl, rfl | rfl⟩ | ⟨rfl, rfl | ⟨e, rfl⟩⟩
  · decide
  · decide
  · decide
  · show (logPk 2 [4]).length ≤ 1000
    decide

private def logSent (h : Header) (body : Bytes) : Sent Bytes :=
  ⟨⟨1, h, some body⟩, some (logEnv.builtin .json), Tcpx.frame 1 (Demo.encHeader h) body⟩

private theorem logSent_ok (h : Header) (body : Bytes) (hb : body.length = 1) (hh : (Demo.encHeader h).length < 2^20)
    (hm : h.get? "[tcpx-buffer-in-serial]" = none) : (logSent h body).Ok logEnv (0 : Int32).toInt := by
  refine ⟨log_packed 1 h body, ?_, (by intro h; exact absurd h (by decide)), hm⟩
  have : (logSent h body).bytes.length = 16 + (Demo.encHeader h).length + body.length := by
    simp [logSent, Tcpx.frame, putUint32]; omega
  omega

private def logArr (tasks : List Task) : Nat → Arrival := fun i =>
  match tasks[i]? with
  | some (.single b) => ⟨some 4, b, Login.code logEnv 1000 logVals b⟩
  | _ => ⟨none, [], fun _ => .done⟩

private theorem logArr_ok (tasks : List Task) : ReceivedOn 4 tasks (logArr tasks) ∧
    ∀ i, (logArr tasks i).tcp = some 4 → ∀ d, (logArr tasks i).code d = Login.code logEnv 1000 logVals (logArr tasks i).stream d := by
  refine ⟨⟨?_, ?_⟩, ?_⟩
  · intro i b h
    simp only [logArr, h]
    exact ⟨trivial, trivial⟩
  · intro i h
    simp only [logArr, List.getElem?_eq_none h]
    simp
  · intro i h d
    simp only [logArr] at h ⊢
    split
    · rfl
    · rename_i h'
      split at h
      · rename_i b hb; exact absurd hb (h' b)
      · cases h

private def logMsgs : List (Sent Bytes) :=
  [logSent (some [("Authorization", .str "a client secret key")]) [7], logSent none [7], logSent (some [("Authorization", .num 3)]) [7],
   logSent (some [("Authorization", .str "a client secret key"), ("x", .null)]) [9]]

set_option maxRecDepth 100000 in
example : logEnv.json.Lawful ∧ LoginFrames logEnv logVals 1000 logPk ∧ (∀ x ∈ logMsgs, x.Ok logEnv (0 : Int32).toInt ∧ ToLogin x) ∧
    ∃ (r : Reader) (arr : Nat → Arrival), stream r = ((logMsgs.map Sent.bytes).flatten ++ [0, 0], .closed) ∧
      ReceivedOn 4 (connLoop logEnv.json 0 r).1 arr ∧
      ∀ i, (arr i).tcp = some 4 → ∀ d, (arr i).code d = Login.code logEnv 1000 logVals (arr i).stream d := by
  refine ⟨Demo.json_lawful, logFrames, ?_, ?_⟩
  · intro x hx
    simp only [logMsgs, List.mem_cons, List.not_mem_nil, or_false] at hx
    rcases hx with rfl | rfl | rfl | rfl <;>
      exact ⟨logSent_ok _ _ rfl (by decide) (by decide), ⟨rfl, by decide, by decide⟩⟩
  · let bs := (logMsgs.map Sent.bytes).flatten
    refine ⟨[.chunk (bs.take 9), .chunk (bs.drop 9), .chunk [0, 0], .eof], _, ?_, logArr_ok _⟩
    simp only [stream]
    have : bs.take 9 ++ (bs.drop 9 ++ ([0, 0] ++ [])) = bs ++ [0, 0] := by rw [← List.append_assoc, List.take_append_drop]; simp
    rw [this]

/-- Each of the four answers is the one to one of these messages. -/
example : let m := fun h b => logSent h b
    LoginAnswer logEnv logVals (m (some [("Authorization", .str "a client secret key")]) [7]) 2 [5] ∧
    LoginAnswer logEnv logVals (m none [7]) 403 [2] ∧
    LoginAnswer logEnv logVals (m (some [("Authorization", .num 3)]) [7]) 403 [3] ∧
    LoginAnswer logEnv logVals (m (some [("Authorization", .str "a client secret key")]) [9]) 2 [4] := by
  refine ⟨.welcome (by decide) ⟨[7], .inr ⟨_, rfl, .inr ⟨_, rfl, rfl⟩⟩, .inr ⟨_, rfl⟩⟩, .noKey rfl, .wrongKey _ rfl (by decide),
    .unreadable .marshal (by decide) ?_⟩
  rintro ⟨t, h1, h2⟩
  rcases h1 with ⟨h, _⟩ | ⟨w, h, h'⟩
  · cases h
  · injection h with h; subst h
    rcases h' with ⟨h, _⟩ | ⟨m, h, h'⟩
    · cases h
    · injection h with h; subst h
      have h' : some [9] = some t := h'
      injection h' with h'; subst h'
      rcases h2 with h | ⟨u, h⟩
      · cases h
      · have h : none = some u := h
        cases h

set_option maxRecDepth 100000 in
example : ∃ b, Login.clientSends logEnv [7] = .ok b ∧ b ≠ [] ∧ b.length < 2^31 ∧
    (∃ text u, logEnv.enc .json [7] = some text ∧ logEnv.dec .json text logVals.noUser = some u) ∧
    (∃ text, logEnv.enc .json logVals.welcome = some text ∧ (fun _ => some "token") text = some "token") ∧ (logPk 2 logVals.welcome).length < 2^31 ∧
    ∃ (r : Reader) (arr : Nat → Arrival), stream r = (b, .stillOpen) ∧ ReceivedOn 4 (connLoop logEnv.json 0 r).1 arr :=
  ⟨_, rfl, by decide, by decide, ⟨_, _, rfl, rfl⟩, ⟨_, rfl, rfl⟩, by decide,
    [.chunk ((Tcpx.frame 1 (Demo.encHeader (some [("Authorization", .str "a client secret key")])) [7]).take 5),
     .chunk ((Tcpx.frame 1 (Demo.encHeader (some [("Authorization", .str "a client secret key")])) [7]).drop 5)], _,
    by simp only [stream]; rw [List.append_nil, List.take_append_drop], (logArr_ok _).1⟩

end Tcpx
