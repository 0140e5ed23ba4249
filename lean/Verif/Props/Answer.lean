import Verif.Lemmas.Answer
import Verif.Props.EndToEnd
import Verif.Spec.Programs
/-!
# C119: every message that asks for an answer gets exactly one
-/
namespace Tcpx
open Spec
variable {V : Type}

/-- Full claim of C119: what has been sent over connection `c` along a schedule are the answers of distinct requests of that
connection that owe one, whole and one after the other; and every such request that has returned is among them. -/
def Spec.AnsweredOnce (s : Srv) (json : JSONCodec) (arr : Nat → Arrival) (c : Nat) (ans : Nat → Bytes) (owed : Nat → Bool) : Prop :=
  ∀ sched, let y := (Sys.start s json arr).run sched
    ∃ is : List Nat, is.Nodup ∧ (∀ i ∈ is, (arr i).tcp = some c ∧ owed i = true) ∧ sentOn arr c y.trace = is.map ans ∧
      ∀ i, (arr i).tcp = some c → owed i = true → (y.threads i).prog = .ret () → i ∈ is

theorem sentWith_of_states (arr : Nat → Arrival) (c : Nat) (ans : Nat → Bytes) (owed : Nat → Bool) {pan : Prop} {rt : Nat → String}
    {q : Nat → Res String} (y : Sys) (h : ∀ i, (arr i).tcp = some c → SendState pan (rt i) (q i) (ans i) (owed i) i y) :
    ∃ is : List Nat, is.Nodup ∧ (∀ i ∈ is, (arr i).tcp = some c ∧ owed i = true) ∧
      (sentWith arr c y.trace).reverse = is.map (fun i => (i, ans i)) ∧
      ∀ i, (arr i).tcp = some c → owed i = true → (y.threads i).prog = .ret () → i ∈ is := by
  have hby : ∀ i, (arr i).tcp = some c → sentBy i y.trace = [] ∨ sentBy i y.trace = [ans i] ∧ owed i = true := by
    intro i hi
    obtain ⟨o, _, _, hs⟩ := h i hi
    split at hs
    · rename_i h; exact .inr ⟨hs, h.1⟩
    · exact .inl hs
  have hmem : ∀ x ∈ sentWith arr c y.trace, x.2 = ans x.1 ∧ owed x.1 = true := by
    intro x hx
    have hi := sentWith_tcp hx
    have hin : x.2 ∈ sentBy x.1 y.trace := by
      rw [sentBy_eq arr c x.1 hi]
      exact List.mem_map.2 ⟨x, List.mem_filter.2 ⟨hx, by simp⟩, rfl⟩
    rcases hby x.1 hi with h0 | ⟨h1, h2⟩
    · rw [h0] at hin; cases hin
    · rw [h1] at hin; exact ⟨List.mem_singleton.1 hin, h2⟩
  refine ⟨((sentWith arr c y.trace).map (·.1)).reverse, ?_, ?_, ?_, ?_⟩
  · refine List.pairwise_reverse.2 ((nodup_of_filter (fun i => ?_)).imp Ne.symm)
    by_cases hi : (arr i).tcp = some c
    · have hl : ((sentWith arr c y.trace).filter (·.1 = i)).length = (sentBy i y.trace).length := by
        rw [sentBy_eq arr c i hi, List.length_map]
      rw [hl]
      rcases hby i hi with h0 | ⟨h1, _⟩
      · rw [h0]; simp
      · rw [h1]; simp
    · have : (sentWith arr c y.trace).filter (·.1 = i) = [] := by
        rw [List.filter_eq_nil_iff]
        intro x hx he
        simp only [decide_eq_true_eq] at he
        exact hi (he ▸ sentWith_tcp hx)
      rw [this]; simp
  · intro i hi
    rw [List.mem_reverse] at hi
    obtain ⟨x, hx, rfl⟩ := List.mem_map.1 hi
    exact ⟨sentWith_tcp hx, (hmem x hx).2⟩
  · rw [List.map_reverse, List.map_map]
    congr 1
    conv => lhs; rw [← List.map_id (sentWith arr c y.trace)]
    refine List.map_congr_left (fun x hx => ?_)
    rw [Function.comp_apply, ← (hmem x hx).1]
    rfl
  · intro i hi ho hr
    obtain ⟨o, hp, _, hs⟩ := h i hi
    rw [hr] at hp
    cases hp with
    | ret _ _ hf =>
      rw [if_pos ⟨ho, hf⟩, sentBy_eq arr c i hi] at hs
      have : ans i ∈ ((sentWith arr c y.trace).filter (·.1 = i)).map (·.2) := by rw [hs]; simp
      obtain ⟨x, hx, _⟩ := List.mem_map.1 this
      have := List.mem_filter.1 hx
      rw [List.mem_reverse]
      exact List.mem_map.2 ⟨x, this.1, by simpa using this.2⟩

theorem answered_of_states (arr : Nat → Arrival) (c : Nat) (ans : Nat → Bytes) (owed : Nat → Bool) {pan : Prop} {rt : String}
    {q : Res String} (y : Sys) (h : ∀ i, (arr i).tcp = some c → SendState pan rt q (ans i) (owed i) i y) :
    ∃ is : List Nat, is.Nodup ∧ (∀ i ∈ is, (arr i).tcp = some c ∧ owed i = true) ∧ sentOn arr c y.trace = is.map ans ∧
      ∀ i, (arr i).tcp = some c → owed i = true → (y.threads i).prog = .ret () → i ∈ is := by
  obtain ⟨is, h1, h2, h3, h4⟩ := sentWith_of_states (rt := fun _ => rt) (q := fun _ => q) arr c ans owed y h
  refine ⟨is, h1, h2, ?_, h4⟩
  rw [sentOn_eq, ← List.map_reverse, h3, List.map_map]
  rfl

/-- C119: if the messages of a connection are routed alike and carry the same pattern, and the handlers of each send one
answer (on every path they can take, whatever the calls they make return), then along every schedule, with any other connections
running beside, what goes out over the connection are the answers of distinct requests, whole, and each request that returned is
answered.
(With messages of several kinds, handlers can be given the routing of another message: C81, C37.) -/
theorem C119_answered (s : Srv) (json : JSONCodec) (arr : Nat → Arrival) (c : Nat) (rt : String) (p : Res String)
    (hal : Alike json arr c rt p) (ans : Nat → Bytes) (owed : Nat → Bool)
    (ha : ∀ i, (arr i).tcp = some c → Answered s json arr p ans owed i) : AnsweredOnce s json arr c ans owed := by
  intro sched
  refine answered_of_states (pan := True) (rt := rt) (q := p) arr c ans owed _ (fun i hi => ?_)
  obtain ⟨r, hr, hd, hc⟩ := ha i hi
  exact sendState_run s json arr c hal i hi (ans i) (owed i)
    (Owes.request s json _ _ r hr (hal.small i hi) (hal.type i hi) hd (.inl trivial) _ (Owes.code json _ (hal.pattern i hi) trivial hc)) sched

/-- C119: requests never wait for each other: however far they have come, all of any number of them can be brought to their end. -/
theorem C119_can_finish (s : Srv) (json : JSONCodec) (arr : Nat → Arrival) (sched : List Nat) (n : Nat) :
    ∃ sched', ∀ i < n, ∀ a k, (((Sys.start s json arr).run (sched ++ sched')).threads i).prog ≠ .act a k := by
  obtain ⟨sched', h⟩ := finish_all ((Sys.start s json arr).run sched) n
  exact ⟨sched', fun i hi => by rw [Sys.run_append]; exact h i hi⟩

/-! ## The example -/

/-- The body text of the message is empty, or the json decoder takes it into `dest`. -/
def Spec.Readable (env : Env V) (dest : V) (x : Sent V) : Prop :=
  ∃ t, BodyEnc env x.m x.msg.body t ∧ (t = [] ∨ ∃ u, env.dec .json t dest = some u)

theorem bind_readable (env : Env V) (hj : env.json.Lawful) (max : Int) (x : Sent V) (hx : x.Ok env max) (dest : V) :
    (Readable env dest x → ∃ msg, ctxBind env (env.builtin .json) { live := x.bytes } dest = .ok msg) ∧
    (¬ Readable env dest x → ∃ e, ctxBind env (env.builtin .json) { live := x.bytes } dest = .err e) := by
  obtain ⟨hb, bb, h1, h2, hp, he, _⟩ := sent_frame hx
  obtain ⟨hne, h', hd, _, _⟩ := hj.roundtrip _ _ h1
  have hun : ctxBind env (env.builtin .json) { live := x.bytes } dest =
      (do let dest ← (if bb = [] then .ok dest else orErr (env.dec .json bb dest) .marshal)
          .ok { id := x.msg.id, header := h', body := some dest }) := by
    unfold ctxBind packxUnpack
    rw [unpack_frame env { live := x.bytes } dest _ x.msg.id.toInt hb bb [] (by simp [he]) (by omega), if_neg hne, hd, id_of_pattern]
    simp [orErr, Env.builtin]
  have huniq : ∀ t, BodyEnc env x.m x.msg.body t → t = bb := by
    intro t ht
    rcases ht with ⟨h, rfl⟩ | ⟨w, hw, h⟩
    · rcases h2 with ⟨_, rfl⟩ | ⟨w, hw, _⟩
      · rfl
      · rw [h] at hw; cases hw
    · rcases h2 with ⟨h', _⟩ | ⟨w', hw', h'⟩
      · rw [h'] at hw; cases hw
      · rw [hw] at hw'
        injection hw' with hw'
        subst hw'
        rcases h with ⟨hm, h⟩ | ⟨m, hm, h⟩ <;> rcases h' with ⟨hm', h'⟩ | ⟨m', hm', h'⟩ <;> rw [hm] at hm' <;> cases hm' <;>
          (have := h.symm.trans h'; injection this)
  rw [hun]
  constructor
  · rintro ⟨t, ht, hr⟩
    obtain rfl := huniq t ht
    by_cases ht0 : t = []
    · simp [ht0]
    · obtain ⟨u, hu⟩ := hr.resolve_left ht0
      simp [ht0, hu, orErr]
  · intro hn
    have h0 : bb ≠ [] := fun h => hn ⟨bb, h2, .inl h⟩
    have h1 : env.dec .json bb dest = none := by
      cases hdec : env.dec .json bb dest with
      | none => rfl
      | some u => exact absurd ⟨bb, h2, .inr ⟨u, hdec⟩⟩ hn
    simp [h0, h1, orErr]

/-- The messages of the example's connection `c`: messages for "/login/", handled by the example's handler. -/
structure Spec.Logins (env : Env V) (max : Int32) (room : Nat) (token user : V) (xs : List (Sent V)) (c : Nat) (arr : Nat → Arrival)
    (tasks : List Task) : Prop where
  ok : ∀ x ∈ xs, x.Ok env max.toInt ∧ ∃ body, x.msg = newURLPatternMessage "/login/" body
  received : ReceivedOn c tasks arr
  code : ∀ i, (arr i).tcp = some c → ∀ d, (arr i).code d = UrlExample.loginCode env room token user (arr i).stream

theorem login_pattern (env : Env V) (hj : env.json.Lawful) (max : Int) (x : Sent V) (hx : x.Ok env max) (p : String) (body : Option V)
    (hm : x.msg = newURLPatternMessage p body) : urlPatternOf env.json { live := x.bytes } = .ok p := by
  have h := (C82_packType_reads env hj max x hx []).2.2.2.1 p (by rw [hm]; rfl)
  unfold packTypeURLPattern at h
  split at h
  · injection h with h; subst h; assumption
  all_goals cases h

theorem ofSend_one (buf : Bytes) (room : Nat) (h : buf.length ≤ room) (k : Code) :
    Code.ofSend ⟨[⟨buf, min room buf.length⟩], .ok ()⟩ k = .call (.send buf) fun _ => k := by
  have : buf.take (min room buf.length) = buf := by
    rw [Nat.min_eq_right h]; exact List.take_length
  simp only [Code.ofSend, List.foldr, this]

open UrlExample in
/-- What the handler does with a message, given the reply. -/
theorem loginCode_eq (env : Env V) (hj : env.json.Lawful) (max : Int) (room : Nat) (token user : V) (b : Bytes)
    (hb : (newURLPatternMessage "/login/" (some token)).pack env (some (env.builtin .json)) = .ok b) (hroom : b.length ≤ room)
    (x : Sent V) (hx : x.Ok env max) :
    (Readable env user x → ∃ k, loginCode env room token user x.bytes = .call .urlPattern k ∧
      k (.pattern (.ok "/login/")) = .call (.send b) fun _ => .done) ∧
    (¬ Readable env user x → loginCode env room token user x.bytes = .done) := by
  obtain ⟨h1, h2⟩ := bind_readable env hj max x hx user
  constructor
  · intro h
    obtain ⟨msg, hm⟩ := h1 h
    unfold loginCode
    rw [hm]
    refine ⟨_, rfl, ?_⟩
    simp only [ctxURLPatternReply, hb, sendPacked, replyBuf, writeOnce]
    exact ofSend_one b room hroom _
  · intro h
    obtain ⟨e, he⟩ := h2 h
    unfold loginCode
    rw [he]

open UrlExample in
theorem loginCode_avoids (env : Env V) (room : Nat) (token user : V) (stream : Bytes) (bad : Call → Prop) (h1 : ¬ bad .urlPattern)
    (h2 : ∀ b, ¬ bad (.send b)) : Avoids bad (loginCode env room token user stream) := by
  have hs : ∀ (l : List WCall) (k : Code), Avoids bad k →
      Avoids bad (l.foldr (fun c k => .call (.send (c.buf.take c.n)) fun _ => k) k) := by
    intro l k hk
    induction l with
    | nil => exact hk
    | cons c l ih => exact .call _ _ (h2 _) (fun _ => ih)
  unfold loginCode
  split
  · refine .call _ _ h1 (fun r => ?_)
    split
    · unfold Code.ofSend
      refine hs _ _ ?_
      split
      · exact .panic
      · exact .done
    · exact .done
  · exact .panic
  · exact .done

open UrlExample in
/-- C119: a client of the example sends any number of messages for "/login/" over its connection, with any bodies and marshallers; they
arrive in any pieces and are handled along any schedule beside those of other connections.  Then neither the registration nor a
handling panics, what goes out
over the connection is the token's frame, whole, at most once for every message whose body can be bound and never for another; and
when all are finished, exactly once for each. -/
theorem C119_login (env : Env V) (hj : env.json.Lawful) (max : Int32) (room : Nat) (token user : V) (b : Bytes)
    (hb : (newURLPatternMessage "/login/" (some token)).pack env (some (env.builtin .json)) = .ok b) (hroom : b.length ≤ room)
    (xs : List (Sent V)) (tail : Bytes) (ht : Incomplete max.toInt tail) (e : Ending) (he : e.plain) (r : Reader)
    (hr : stream r = ((xs.map Sent.bytes).flatten ++ tail, e)) (c : Nat) (arr : Nat → Arrival)
    (hl : Logins env max room token user xs c arr (connLoop env.json max r).1) (sched : List Nat) :
    let y := (Sys.start (runOps .new ops) env.json arr).run sched
    Registers .new ops = true ∧ (∀ i < xs.length, (y.threads i).prog ≠ .panic) ∧
    ∃ is : List Nat, is.Nodup ∧ (∀ i ∈ is, ∃ x, xs[i]? = some x ∧ Readable env user x) ∧
      sentOn arr c y.trace = List.replicate is.length b ∧
      ((∀ i < xs.length, ∀ a k, (y.threads i).prog ≠ .act a k) → ∀ i x, xs[i]? = some x → Readable env user x → i ∈ is) := by
  classical
  intro y
  obtain ⟨hx, harr, hcode⟩ := hl
  have hx1 : ∀ x ∈ xs, x.Ok env max.toInt := fun x h => (hx x h).1
  rw [C81_one_task_each env hj max xs hx1 tail ht e he r hr] at harr
  have hget : ∀ i, (arr i).tcp = some c → ∃ x, xs[i]? = some x ∧ (arr i).stream = x.bytes ∧ x.Ok env max.toInt ∧
      ∃ body, x.msg = newURLPatternMessage "/login/" body := by
    intro i hi
    obtain ⟨x, hm, h1, h2⟩ := received_getElem harr hi
    exact ⟨x, h1, h2, hx x hm⟩
  have hpk : ∀ i (hi : (arr i).tcp = some c), ∃ body m, (newURLPatternMessage "/login/" body).pack env m = .ok (arr i).stream ∧
      (arr i).stream.length < 2^31 := by
    intro i hi
    obtain ⟨x, _, h2, h3, body, h4⟩ := hget i hi
    refine ⟨body, x.m, ?_, ?_⟩
    · rw [h2, ← h4]; exact h3.packed
    · rw [h2]; exact h3.small
  have hal : Alike env.json arr c URLPATTERN (.ok "/login/") := by
    refine ⟨fun i hi => ?_, fun i hi => ?_, fun i hi => ?_, fun i hi d => ?_⟩
    · obtain ⟨body, m, h1, h2⟩ := hpk i hi
      exact (packed_frame env hj _ _ _ h1 h2).2.2.1
    · obtain ⟨body, m, h1, h2⟩ := hpk i hi
      exact headerType_pattern env hj _ _ _ _ h1 h2
    · obtain ⟨x, _, h2, h3, body, h4⟩ := hget i hi
      rw [h2]
      exact login_pattern env hj _ x h3 _ body h4
    · rw [hcode i hi d]
      refine loginCode_avoids env room token user _ _ ?_ ?_
      · rintro (h | h) <;> simp [StoresKey] at h
      · rintro b (h | h) <;> simp [StoresKey] at h
  let owed : Nat → Bool := fun i => decide (∃ x, xs[i]? = some x ∧ Readable env user x)
  have hstate : ∀ i, (arr i).tcp = some c → SendState False URLPATTERN (.ok "/login/") b (owed i) i y := by
    intro i hi
    obtain ⟨x, h1, h2, h3, body, h4⟩ := hget i hi
    obtain ⟨body', m, hp1, hp2⟩ := hpk i hi
    have hroute := C72_pattern_route env hj _ _ _ _ hp1 hp2
    have hd : (runOps .new ops).handle (.byUrl "/login/") = .chain [login] := by decide
    refine sendState_run _ env.json arr c hal i hi b (owed i) (Owes.request _ env.json _ _ _ hroute (hal.small i hi) (hal.type i hi)
      (by rw [hd]; simp) (.inr (by rw [hd]; simp)) _ ?_) sched
    rw [hcode i hi]
    obtain ⟨g1, g2⟩ := loginCode_eq env hj max.toInt room token user b hb hroom x h3
    rw [h2]
    by_cases hread : Readable env user x
    · have : owed i = true := by simp only [owed, decide_eq_true_eq]; exact ⟨x, h1, hread⟩
      obtain ⟨k, k1, k2⟩ := g1 hread
      rw [this, k1]
      refine Owes.bind (Owes.call env.json _ true (by rw [← h2]; exact hal.pattern i hi) .urlPattern (by simp) (.inr ⟨rfl, _, rfl⟩)) ?_
      rintro r o ⟨hr, rfl⟩
      rw [hr rfl, k2]
      exact .send _ (fun _ => .ret _ _ rfl)
    · have : owed i = false := by
        simp only [owed, decide_eq_false_iff_not]
        rintro ⟨x', h1', hr'⟩
        rw [h1] at h1'
        injection h1' with h1'
        exact hread (h1' ▸ hr')
      rw [this, g2 hread]
      exact .ret _ _ rfl
  have htcp : ∀ i < xs.length, (arr i).tcp = some c := fun i hi => (harr.1 i xs[i].bytes (by simp [hi])).1
  have hnp : ∀ i < xs.length, (y.threads i).prog ≠ .panic := by
    intro i hi h
    obtain ⟨o, ho, _⟩ := hstate i (htcp i hi)
    rw [h] at ho
    cases ho with
    | panic _ h => exact h
  refine ⟨by decide, hnp, ?_⟩
  obtain ⟨is, n1, n2, n3, n4⟩ := answered_of_states arr c (fun _ => b) owed y hstate
  refine ⟨is, n1, fun i hi => ?_, by rw [n3, List.map_const'], ?_⟩
  · have := (n2 i hi).2
    simpa only [owed, decide_eq_true_eq] using this
  · intro hfin i x hix hread
    have hi : i < xs.length := by
      by_cases h : i < xs.length
      · exact h
      · rw [List.getElem?_eq_none (by omega)] at hix; cases hix
    refine n4 i (htcp i hi) (by simp only [owed, decide_eq_true_eq]; exact ⟨x, hix, hread⟩) ?_
    cases hp : (y.threads i).prog with
    | ret a => rfl
    | panic => exact absurd hp (hnp i hi)
    | act a k => exact absurd hp (hfin i hi a k)

open UrlExample in
/-- C119: the client of the example, reading what it has been sent in whatever pieces it arrives, gets these frames one by one and
prints the token for each, as its json decoder reads it. -/
theorem C119_client (env : Env V) (hj : env.json.Lawful) (token dest t : V) (b : Bytes)
    (hb : (newURLPatternMessage "/login/" (some token)).pack env (some (env.builtin .json)) = .ok b) (hs : b.length < 2^31)
    (hdec : ∃ text, env.enc .json token = some text ∧ env.dec .json text dest = some t)
    (n : Nat) (tail : Bytes) (e : Ending) (r : Reader) (hr : stream r = ((List.replicate n b).flatten ++ tail, e)) :
    (∃ r', recvMany n r = .ok (List.replicate n b) r' ∧ stream r' = (tail, e)) ∧ shown env dest b = .token t := by
  let x : Sent V := ⟨newURLPatternMessage "/login/" (some token), some (env.builtin .json), b⟩
  have hx : x.Ok env 0 := ⟨hb, hs, fun h => by omega, rfl⟩
  constructor
  · have := C82_recv_each (List.replicate n b) (fun f hf => by rw [List.eq_of_mem_replicate hf]; exact sent_acceptable hx) tail e r hr
    rwa [List.length_replicate] at this
  · have h1 := (C82_packType_reads env hj 0 x hx []).2.2.2.1 "/login/" rfl
    have h1 : packTypeURLPattern env.json { live := b } = .ok "/login/" := h1
    obtain ⟨_, _, ⟨u, h2, h3⟩, _⟩ := C81_handler_reads env hj 0 x hx []
    have h2 : bodyBytesOf { live := b } = .ok u := h2
    obtain ⟨text, d1, d2⟩ := hdec
    have h4 : u.live = text := by
      rcases h3 with ⟨h, _⟩ | ⟨w, hw, h⟩
      · cases h
      · have hw : token = w := by injection hw
        subst hw
        rcases h with ⟨hm, _⟩ | ⟨m', hm, h⟩
        · cases hm
        · have hm : env.builtin .json = m' := by injection hm
          subst hm
          have : env.enc .json token = some u.live := h
          rw [d1] at this
          injection this with this
          exact this.symm
    unfold shown
    rw [h1]
    simp only [if_true, packTypeBind, h2, h4, d2, orErr]

/-! Examples for C119: two messages for "/login/" arriving in two pieces, the second with a body that cannot be bound. -/

/-- The example codec, except that the text `[9]` cannot be decoded. -/
private def demoEnv : Env Bytes := { Demo.env with dec := fun b t d => if t = [9] then none else Demo.env.dec b t d }

private def demoLogin (body : Bytes) : Sent Bytes :=
  ⟨newURLPatternMessage "/login/" (some body), none, Tcpx.frame 0 (Demo.encHeader (newURLPatternMessage "/login/" (some body)).header) body⟩

private theorem demoLogin_packed (body : Bytes) : (newURLPatternMessage "/login/" (some body)).pack demoEnv (some (demoEnv.builtin .json)) =
    .ok (demoLogin body).bytes := by
  simp [Message.pack, packWithMarshaller, demoLogin, demoEnv, Demo.env, Demo.json, orErr, Env.builtin, newURLPatternMessage]

set_option maxRecDepth 100000 in
private theorem demoLogin_ok (body : Bytes) (h : body.length = 1) : (demoLogin body).Ok demoEnv 0 := by
  refine ⟨demoLogin_packed body, ?_, by intro h; omega, rfl⟩
  have : (demoLogin body).bytes.length = 16 + (Demo.encHeader (newURLPatternMessage "/login/" (some body)).header).length + body.length := by
    simp [demoLogin, Tcpx.frame, putUint32]; omega
  have h2 : (Demo.encHeader (newURLPatternMessage "/login/" (some body)).header).length < 2^20 := by
    simp only [newURLPatternMessage]
    decide
  omega

example : let xs := [demoLogin [1], demoLogin [9]]
    demoEnv.json.Lawful ∧
    (newURLPatternMessage "/login/" (some [7])).pack demoEnv (some (demoEnv.builtin .json)) = .ok (demoLogin [7]).bytes ∧
    Incomplete (0 : Int32).toInt [] ∧ Ending.plain .stillOpen ∧
    (∃ (r : Reader) (arr : Nat → Arrival), stream r = ((xs.map Sent.bytes).flatten ++ [], .stillOpen) ∧
      Logins demoEnv 0 (demoLogin [7]).bytes.length [7] [] xs 4 arr (connLoop demoEnv.json 0 r).1) ∧
    Readable demoEnv [] (demoLogin [1]) ∧ ¬ Readable demoEnv [] (demoLogin [9]) := by
  intro xs
  have hok : ∀ x ∈ xs, x.Ok demoEnv (0 : Int32).toInt ∧ ∃ body, x.msg = newURLPatternMessage "/login/" body := by
    intro x hx
    simp only [xs, List.mem_cons, List.not_mem_nil, or_false] at hx
    rcases hx with rfl | rfl
    · exact ⟨demoLogin_ok _ rfl, _, rfl⟩
    · exact ⟨demoLogin_ok _ rfl, _, rfl⟩
  refine ⟨Demo.json_lawful, demoLogin_packed [7], .inl (by decide), trivial, ?_, ?_, ?_⟩
  · let r : Reader := [.chunk (demoLogin [1]).bytes, .chunk (demoLogin [9]).bytes]
    let tasks := (connLoop demoEnv.json 0 r).1
    refine ⟨r, fun i => match tasks[i]? with
      | some (.single b) => ⟨some 4, b, fun _ => UrlExample.loginCode demoEnv (demoLogin [7]).bytes.length [7] [] b⟩
      | _ => ⟨none, [], fun _ => .done⟩, by simp [r, xs, stream], hok, ⟨?_, ?_⟩, ?_⟩
    · intro i b h; have h : tasks[i]? = _ := h; simp only [h]; exact ⟨trivial, trivial⟩
    · intro i h; have h : tasks.length ≤ i := h; simp [List.getElem?_eq_none h]
    · intro i hi d
      split at hi
      · simp only
      · cases hi
  · exact ⟨[1], .inr ⟨_, rfl, .inl ⟨rfl, rfl⟩⟩, .inr ⟨[1], rfl⟩⟩
  · rintro ⟨t, ht | ⟨w, hw, ⟨_, ht⟩ | ⟨m, hm, _⟩⟩, h⟩
    · cases ht.1
    · have hw : [9] = w := by injection hw
      subst hw
      have ht : t = [9] := by injection ht with ht; exact ht.symm
      subst ht
      rcases h with h | ⟨u, h⟩
      · cases h
      · cases h
    · cases hm

example : (demoLogin [7]).bytes.length < 2^31 ∧ ∃ text, demoEnv.enc .json [7] = some text ∧ demoEnv.dec .json text [] = some [7] :=
  ⟨(demoLogin_ok [7] rfl).small, [7], rfl, rfl⟩

-- a handler that answers if it gets a pattern, which it does (an empty one)
private def demoCode : Code := .call .urlPattern fun r =>
  match r with
  | .pattern (.ok _) => .call (.send [5]) fun _ => .done
  | _ => .done

set_option maxRecDepth 100000 in
example : let arr : Nat → Arrival := fun _ => ⟨some 2, [0,0,0,13, 0,0,0,7, 0,0,0,1, 0,0,0,0, 110], fun _ => demoCode⟩
    Alike Demo.json arr 2 "MESSAGE_ID" (.ok "") ∧
    ∀ i, (arr i).tcp = some 2 → Answered { onMessage := some 3 } Demo.json arr (.ok "") (fun _ => [5]) (fun _ => true) i := by
  intro arr
  refine ⟨⟨fun _ _ => by decide, fun _ _ => by decide, fun _ _ => by decide, fun _ _ _ => ?_⟩, fun _ _ =>
    ⟨_, .plain none (by decide) (by intro s h; cases h) (by decide), by decide, .other _ _ _ (by simp) ?_⟩⟩
  · refine .call _ _ (by simp [StoresKey]) (fun r => ?_)
    split
    · exact .call _ _ (by simp [StoresKey]) (fun _ => .done)
    · exact .done
  · intro r hr
    rw [hr rfl]
    exact .send _ (fun _ => .done)

end Tcpx
