import Verif.Lemmas.Client
import Verif.Lemmas.DemoCodec
/-!
# C16, C18, C19, C20: what is sent, and that a group sent is received
-/
namespace Tcpx
open Spec
variable {V : Type}

/-! ## C16 -/

/-- The name under which a format is known. -/
def Spec.formatName : Builtin → String
  | .json => "json" | .xml => "xml" | .toml => "toml" | .yaml => "yaml" | .protobuf => "protobuf"

/-- C16: a format reply is encoded by a marshaller `m'` with the requested name (the server's own if it has that name, else the
built-in one).  If the source can be encoded, exactly one buffer is handed to the connection, the frame with the requested id,
and an error of the connection is returned; otherwise nothing is written and an error is returned. -/
theorem C16_format_reply (env : Env V) (m : Marshaller V) (b : Builtin) (link : Link) (hl : link ≠ .none) (ev : WEv) (id : Int32)
    (src : Option V) (headers : List Header) (hp : ∀ h ∈ headers, ProperMap h) :
    ∃ (m' : Marshaller V) (merged : HMap), m'.name = formatName b ∧ (m.name = formatName b → m' = m) ∧
      (m.name ≠ formatName b → m' = env.builtin b) ∧ (∀ k, Header.get? (some merged) k = lastWins headers k) ∧
      (∀ hb bb, env.json.marshal (some merged) = some hb →
        ((src = none ∧ bb = []) ∨ ∃ v, src = some v ∧ m'.marshal v = some bb) → payload hb bb < 2^32 →
        ∃ n, (ctxFormat env m b link ev id src headers).calls = [⟨Spec.frame id.toInt hb bb, n⟩] ∧
          (∀ k, ev = .accept k → n = min k (Spec.frame id.toInt hb bb).length ∧
            (ctxFormat env m b link ev id src headers).res = .ok ()) ∧
          (∀ k, ev = .fail k → n = min k (Spec.frame id.toInt hb bb).length ∧
            ∃ e, (ctxFormat env m b link ev id src headers).res = .err e)) ∧
      ((env.json.marshal (some merged) = none ∨ ∃ v, src = some v ∧ m'.marshal v = none) →
        (ctxFormat env m b link ev id src headers).calls = [] ∧ ∃ e, (ctxFormat env m b link ev id src headers).res = .err e) := by
  have hm' : ∃ m' : Marshaller V, m'.name = formatName b ∧ (m.name = formatName b → m' = m) ∧
      (m.name ≠ formatName b → m' = env.builtin b) ∧
      ctxFormat env m b link ev id src headers = sendPacked (packxPack env m' id src headers) (replyBuf link ev) := by
    by_cases h : m.name = formatName b
    · refine ⟨m, h, fun _ => rfl, fun h' => absurd h h', ?_⟩
      cases b <;> simp only [formatName] at h <;> simp [ctxFormat, commonReply, h]
    · refine ⟨env.builtin b, by cases b <;> rfl, fun h' => absurd h' h, fun _ => rfl, ?_⟩
      cases b <;> simp only [formatName] at h <;> simp [ctxFormat, commonReply, h] <;> rfl
  obtain ⟨m', n1, n2, n3, heq⟩ := hm'
  have hpk : packxPack env m' id src headers =
      packWithMarshaller env { id := id, header := some (mergeHeaders headers), body := src } (some m') := by
    unfold packxPack
    split
    · rename_i h; subst h; rfl
    · rfl
  refine ⟨m', mergeHeaders headers, n1, n2, n3, ?_, ?_, ?_⟩
  · intro k
    have := get?_mergeHeaders headers hp [] k
    simpa [Header.get?, mergeHeaders] using this
  · intro hb bb h1 h2 hs
    have hrep : ∀ buf, replyBuf link ev buf = writeOnce ev buf := by
      intro buf; cases link
      · rfl
      · rfl
      · exact absurd rfl hl
    rw [heq, hpk, pack_spec env id _ src m' hb bb h1 h2 hs]
    simp only [sendPacked, hrep]
    cases ev with
    | accept k => exact ⟨_, rfl, fun j hj => (by cases hj; exact ⟨rfl, rfl⟩), fun j hj => (by cases hj)⟩
    | fail k => exact ⟨_, rfl, fun j hj => (by cases hj), fun j hj => (by cases hj; exact ⟨rfl, _, rfl⟩)⟩
  · intro hbad
    rw [heq, hpk]
    rcases pack_cases env id (some (mergeHeaders headers)) src m' with ⟨hb, bb, h1, h2, _⟩ | ⟨_, e, he⟩
    · rcases hbad with h | ⟨v, hv, h⟩
      · rw [h1] at h; cases h
      · rcases h2 with ⟨h2, _⟩ | ⟨w, hw, h2⟩
        · rw [h2] at hv; cases hv
        · rw [hw] at hv; cases hv; rw [h2] at h; cases h
    · rw [he]; exact ⟨rfl, _, rfl⟩

-- a server with its own marshaller replies in xml, and one whose own marshaller is called "xml" uses that one
example : (ctxFormat Demo.env ⟨"own", fun _ => none, fun _ _ => none⟩ .xml .conn (.accept 1000) 7 (some [1,2]) []).res = .ok () := by
  decide
example : (ctxFormat Demo.env ⟨"xml", fun _ => none, fun _ _ => none⟩ .xml .conn (.accept 1000) 7 (some [1,2]) []).calls = [] := by
  decide

/-! ## C18 -/

/-- Full claim of C18: with a nil error the connection has received exactly the buffer. -/
def Spec.TransmitsOnce (buf : Bytes) (script : List WEv) : Prop :=
  (writeConn buf 0 script).res = .ok () → transmitted (writeConn buf 0 script).calls = buf

/-- C18 is violated by every connection that takes only a proper non-empty part of the buffer and then the rest: the whole buffer
is sent again. -/
theorem C18_short_write_violated (buf : Bytes) (k : Nat) (h0 : 0 < k) (hk : k < buf.length) (w : List WEv) :
    (writeConn buf 0 (.accept k :: .accept buf.length :: w)).res = .ok () ∧
    transmitted (writeConn buf 0 (.accept k :: .accept buf.length :: w)).calls = buf.take k ++ buf ∧
    ¬ TransmitsOnce buf (.accept k :: .accept buf.length :: w) := by
  have e : writeConn buf 0 (.accept k :: .accept buf.length :: w) = ⟨[⟨buf, k⟩, ⟨buf, buf.length⟩], .ok ()⟩ := by
    simp only [writeConn]
    rw [if_neg (by omega), if_pos (by omega)]
    simp [Nat.min_eq_left (Nat.le_of_lt hk)]
  have t : transmitted [⟨buf, k⟩, ⟨buf, buf.length⟩] = buf.take k ++ buf := by simp [transmitted]
  rw [TransmitsOnce, e]
  refine ⟨rfl, t, fun h => ?_⟩
  have := h rfl
  rw [t] at this
  have := congrArg List.length this
  rw [List.length_append, List.length_take] at this
  omega

example : transmitted (writeConn [1,2,3] 0 [.accept 2, .accept 3]).calls = [1,2,1,2,3] := by decide

/-- A nil error means the last call did not fail and every call was given the whole buffer. -/
theorem writeConn_ok (buf : Bytes) (script : List WEv) : ∀ sum, (writeConn buf sum script).res = .ok () →
    (∀ c ∈ (writeConn buf sum script).calls, c.buf = buf ∧ c.n ≤ buf.length) ∧
    buf.length ≤ sum + ((writeConn buf sum script).calls.map WCall.n).sum := by
  induction script with
  | nil => intro sum h; simp [writeConn] at h
  | cons e w ih =>
    intro sum h
    cases e with
    | fail k => simp [writeConn] at h
    | accept k =>
      simp only [writeConn] at h ⊢
      by_cases hc : buf.length ≤ sum + min k buf.length
      · rw [if_pos hc]
        refine ⟨?_, ?_⟩
        · intro c hc'
          simp only [List.mem_cons, List.not_mem_nil, or_false] at hc'
          subst hc'
          exact ⟨rfl, Nat.min_le_right _ _⟩
        · simpa using hc
      · rw [if_neg hc] at h ⊢
        have ⟨i1, i2⟩ := ih _ h
        refine ⟨?_, ?_⟩
        · intro c hc'
          rcases List.mem_cons.1 hc' with rfl | hc'
          · exact ⟨rfl, Nat.min_le_right _ _⟩
          · exact i1 c hc'
        · simp only [List.map_cons, List.sum_cons]; omega

theorem transmitted_length (cs : List WCall) (h : ∀ c ∈ cs, c.n ≤ c.buf.length) :
    (transmitted cs).length = (cs.map WCall.n).sum := by
  induction cs with
  | nil => rfl
  | cons c cs ih =>
    simp only [transmitted, List.flatMap_cons, List.length_append, List.length_take, List.map_cons, List.sum_cons]
    have := h c (List.mem_cons_self)
    have i := ih (fun d hd => h d (List.mem_cons_of_mem _ hd))
    rw [transmitted] at i
    rw [i]; omega

/-- C18: `WriteConn` with nil error transmits exactly the buffer if every call took all of it or nothing (in particular under the
`io.Writer` contract, where a nil error means everything was taken).
Missing for the full claim: connections with short writes (`C18_short_write_violated`). -/
theorem C18_transmits_once_partial (buf : Bytes) (script : List WEv) (hs : ∀ k, .accept k ∈ script → k = 0 ∨ buf.length ≤ k) :
    TransmitsOnce buf script := by
  unfold TransmitsOnce
  induction script with
  | nil => intro h; simp [writeConn] at h
  | cons e w ih =>
    intro h
    cases e with
    | fail k => simp [writeConn] at h
    | accept k =>
      simp only [writeConn] at h ⊢
      rcases hs k (List.mem_cons_self) with rfl | hk
      · by_cases hc : buf.length ≤ 0 + min 0 buf.length
        · rw [if_pos hc]
          have : buf = [] := List.eq_nil_of_length_eq_zero (by omega)
          subst this; rfl
        · rw [if_neg hc] at h ⊢
          rw [Nat.zero_min, Nat.add_zero] at h ⊢
          have := ih (fun k hk => hs k (List.mem_cons_of_mem _ hk)) h
          simpa [transmitted] using this
      · rw [if_pos (by omega)]
        have : min k buf.length = buf.length := by omega
        simp [transmitted, this]

/-- C18: and if every `Write` takes everything, `WriteConn` succeeds with a single call. -/
theorem C18_contract_one_call (buf : Bytes) (k : Nat) (hk : buf.length ≤ k) (w : List WEv) :
    writeConn buf 0 (.accept k :: w) = ⟨[⟨buf, buf.length⟩], .ok ()⟩ := by
  simp only [writeConn]
  rw [if_pos (by omega), Nat.min_eq_right hk]

/-- C18: on no connection does a nil error mean that fewer bytes went out than the buffer has. -/
theorem C18_not_fewer (buf : Bytes) (script : List WEv) (h : (writeConn buf 0 script).res = .ok ()) :
    buf.length ≤ (transmitted (writeConn buf 0 script).calls).length := by
  have ⟨h1, h2⟩ := writeConn_ok buf script 0 h
  rw [transmitted_length _ (fun c hc => by have := h1 c hc; rw [this.1]; exact this.2)]
  omega

/-- C18: a failing `Write` makes `WriteConn` fail, if no earlier call has completed the buffer. -/
theorem C18_failure_reported (buf : Bytes) (pre : List WEv) (k : Nat) (w : List WEv)
    (hpre : ∀ e ∈ pre, e = .accept 0) (hne : buf ≠ []) :
    (writeConn buf 0 (pre ++ .fail k :: w)).res = .err .io := by
  induction pre with
  | nil => rfl
  | cons e pre ih =>
    have he := hpre e (List.mem_cons_self)
    subst he
    have : buf.length ≠ 0 := fun h => hne (List.eq_nil_of_length_eq_zero h)
    simp only [List.cons_append, writeConn]
    rw [if_neg (by omega), Nat.zero_min, Nat.add_zero]
    exact ih (fun e he => hpre e (List.mem_cons_of_mem _ he))

example : ∀ k, WEv.accept k ∈ [WEv.accept 0, .accept 9] → k = 0 ∨ [1,2,3].length ≤ k := by
  intro k h; simp at h; simp; omega
example : (writeConn [1,2,3] 0 [.accept 0, .accept 9]).res = .ok () := by decide

/-! ## C19 -/

theorem flatten_ne_nil {env : Env V} {num : Nat} {first : Bool} {ps : List (Int × Option V)} {fs : List Bytes}
    (h : Frames env num first ps fs) (hp : ps ≠ []) : fs.flatten.length ≠ 0 := by
  cases h with
  | nil => exact absurd rfl hp
  | cons _ _ _ _ hb bb fs =>
    rw [List.flatten_cons, List.length_append, frame_length]
    omega

/-- C19: with well-typed, encodable arguments (frames below 4 GiB) the `n` frames are written in order in one call; the first frame
carries the marker `enable;n`, the others a nil header (see `Spec.Frames`). -/
theorem C19_group_written (env : Env V) (ev : WEv) (args : List (PArg V)) (ps : List (Int × Option V)) (fs : List Bytes)
    (hne : args ≠ []) (hw : WellTyped args ps) (hf : Frames env ps.length true ps fs) (hs : ∀ f ∈ fs, f.length < 4 + 2^32) :
    ∃ n, (pipeJSON env ev args).calls = [⟨fs.flatten, n⟩] ∧
      (∀ k, ev = .accept k → n = min k fs.flatten.length ∧ (pipeJSON env ev args).res = .ok ()) ∧
      (∀ k, ev = .fail k → n = min k fs.flatten.length ∧ ∃ e, (pipeJSON env ev args).res = .err e) := by
  have hl := wellTyped_length hw
  have h0 : args.length ≠ 0 := fun h => hne (List.eq_nil_of_length_eq_zero h)
  have hp : ps ≠ [] := by rintro rfl; exact h0 (by simpa using hl)
  have e : pipeJSON env ev args = writeOnce ev fs.flatten := by
    unfold pipeJSON
    rw [if_neg h0, if_neg (by omega), show args.length / 2 = ps.length by omega, pipeLoop_ok env _ args ps hw true fs hf hs]
    exact if_pos (flatten_ne_nil hf hp)
  rw [e]
  cases ev with
  | accept k => exact ⟨_, rfl, fun j hj => (by cases hj; exact ⟨rfl, rfl⟩), fun j hj => (by cases hj)⟩
  | fail k => exact ⟨_, rfl, fun j hj => (by cases hj), fun j hj => (by cases hj; exact ⟨rfl, _, rfl⟩)⟩

/-- C19: with no arguments nothing is written. -/
theorem C19_empty (env : Env V) (ev : WEv) : pipeJSON env ev [] = ⟨[], .ok ()⟩ := rfl

/-- Full claim of C19 for bad argument lists: nothing is written and an error is returned. -/
def Spec.RefusesBad (env : Env V) (ev : WEv) (args : List (PArg V)) : Prop :=
  (¬ ∃ ps fs, WellTyped args ps ∧ Frames env ps.length true ps fs) →
    (pipeJSON env ev args).calls = [] ∧ ∃ e, (pipeJSON env ev args).res = .err e

/-- C19: a bad argument list never causes a write, and yields an error except when an id is nil (then `PipeJSON` may panic).
Missing for the full claim: nil ids (`C19_nil_id_violated`). -/
theorem C19_bad_arguments_partial (env : Env V) (ev : WEv) (args : List (PArg V))
    (hbad : ¬ ∃ ps fs, WellTyped args ps ∧ Frames env ps.length true ps fs) :
    (pipeJSON env ev args).calls = [] ∧
      ((∃ e, (pipeJSON env ev args).res = .err e) ∨ (NilId args ∧ (pipeJSON env ev args).res = .panic)) := by
  have h0 : args.length ≠ 0 := by
    intro h
    have := List.eq_nil_of_length_eq_zero h
    subst this
    exact hbad ⟨[], [], .nil, .nil _⟩
  unfold pipeJSON
  rw [if_neg h0]
  by_cases he : args.length % 2 ≠ 0
  · rw [if_pos he]; exact ⟨rfl, .inl ⟨_, rfl⟩⟩
  · rw [if_neg he]
    rcases pipeLoop_bad env (args.length / 2) (args.length / 2) args true (by omega) with ⟨ps, fs, h1, h2⟩ | ⟨e, h⟩ | ⟨h, h'⟩
    · refine absurd ⟨ps, fs, h1, ?_⟩ hbad
      have := wellTyped_length h1
      rwa [show args.length / 2 = ps.length by omega] at h2
    · rw [h]; exact ⟨rfl, .inl ⟨_, rfl⟩⟩
    · rw [h]; exact ⟨rfl, .inr ⟨h', rfl⟩⟩

/-- C19: without nil ids the full claim holds.
Missing: nil ids (`C19_nil_id_violated`). -/
theorem C19_refuses_bad_partial (env : Env V) (ev : WEv) (args : List (PArg V)) (hn : ¬ NilId args) : RefusesBad env ev args := by
  intro hbad
  have ⟨h1, h2⟩ := C19_bad_arguments_partial env ev args hbad
  rcases h2 with h2 | ⟨h2, _⟩
  · exact ⟨h1, h2⟩
  · exact absurd h2 hn

/-- C19 is violated: a nil id makes `PipeJSON` panic instead of returning an error. -/
theorem C19_nil_id_violated (env : Env V) (ev : WEv) (msg : PArg V) :
    (pipeJSON env ev [.nil, msg]).res = .panic ∧ ¬ RefusesBad env ev [.nil, msg] := by
  have : (pipeJSON env ev [.nil, msg]).res = .panic := by simp [pipeJSON, pipeLoop]
  refine ⟨this, fun h => ?_⟩
  have ⟨_, e, he⟩ := h (by rintro ⟨ps, fs, hw, _⟩; cases hw)
  rw [this] at he
  cases he

/-- C19, a caveat: an id outside the range of `int32` is silently reduced to 32 bits (utils.go:170, 184). -/
theorem C19_id_truncated_limit (env : Env V) (ev : WEv) (v : V) (msg : PArg V) (rest : List (PArg V)) (z : Int) :
    pipeJSON env ev (.int (z + 2^32) v :: msg :: rest) = pipeJSON env ev (.int z v :: msg :: rest) := by
  simp [pipeJSON, pipeLoop]

-- the hypotheses are met by a two-message call, the second message being nil
example : ∃ fs, WellTyped [.int 5 [5], .val [1,2], .int 6 [6], .nil] [(5, some [1,2]), (6, none)] ∧
    Frames Demo.env 2 true [(5, some [1,2]), (6, none)] fs ∧ fs.length = 2 :=
  ⟨_, .cons _ _ _ _ _ (.cons _ _ _ _ _ .nil),
    .cons _ _ _ _ _ _ _ rfl (.inr ⟨_, rfl, rfl⟩) (.cons _ _ _ _ _ _ _ rfl (.inl ⟨rfl, rfl⟩) (.nil _)), rfl⟩
-- a bad list without nil id: a string where the second id should be
example : ¬ NilId [PArg.int 5 [5], .val [1], .val [6], .nil] ∧
    ¬ ∃ ps fs, WellTyped [PArg.int 5 [5], .val [1], .val [6], .nil] ps ∧ Frames Demo.env ps.length true ps fs := by
  refine ⟨?_, ?_⟩
  · intro h; cases h with | later _ _ _ h => cases h with | later _ _ _ h => cases h
  · rintro ⟨ps, fs, h, _⟩; cases h with | cons _ _ _ _ _ h => cases h

/-! ## C20 -/

theorem frames_acceptable {env : Env V} {num : Nat} {first : Bool} {ps : List (Int × Option V)} {fs : List Bytes} (max : Int)
    (h : Frames env num first ps fs) (hs : ∀ f ∈ fs, f.length < 2^31) (hm : 0 < max → ∀ f ∈ fs, (f.length : Int) ≤ 4 + max) :
    ∀ f ∈ fs, Acceptable max f := by
  induction h with
  | nil => intro f hf; cases hf
  | cons first z body ps hb bb fs h1 h2 _ ih =>
    intro f hf
    rcases List.mem_cons.1 hf with rfl | hf
    · have a := hs _ (List.mem_cons_self)
      rw [frame_length] at a
      refine frame_acceptable _ _ _ _ (by omega) (fun h0 => ?_)
      have b := hm h0 _ (List.mem_cons_self)
      rw [frame_length] at b
      omega
    · exact ih (fun f hf => hs f (List.mem_cons_of_mem _ hf)) (fun h0 f hf => hm h0 f (List.mem_cons_of_mem _ hf)) f hf

/-- The first frame of a group of `n` is recognised as such. -/
theorem group_kind {env : Env V} (hj : env.json.Lawful) (num : Nat) (hn : num < 2^63) (hb bb : Bytes) (id : Int)
    (h1 : env.json.marshal (groupHeader num true) = some hb) (hs : payload hb bb < 2^31 - 4) :
    KindOf env.json (Spec.frame id hb bb) (.pipe num) := by
  obtain ⟨_, h', hu, _, hk⟩ := hj.roundtrip _ _ h1
  have hf := frameHeader_frame env.json id hb bb hs
  rw [hu] at hf
  have hg := hk PIPED
  have : Header.get? (groupHeader num true) PIPED = some (.str ("enable;" ++ num.repr)) := by
    simp [groupHeader, Header.get?, GoMap.get?]
  rw [this] at hg
  have hg' : Header.get? h' PIPED = some (.str ("enable;" ++ num.repr)) := by
    cases hx : Header.get? h' PIPED with
    | none => rw [hx] at hg; cases hg
    | some a =>
      rw [hx] at hg
      cases a with
      | str t => simp [Any.asString] at hg; rw [hg]
      | _ => simp [Any.asString] at hg
  exact .pipe _ _ hf (.enable _ _ _ _ hg' (by rw [String.toList_append]) (repr_numeral num hn))

/-- C20: the server's connection loop, reading the bytes transmitted by a `PipeJSON` call (frames of at most `2^31` bytes and
within the server's limit) in any fragmentation and followed by anything, starts one goroutine for the group of exactly those
messages in order, and goes on with exactly the following bytes. -/
theorem C20_group_received (env : Env V) (hj : env.json.Lawful) (max : Int32) (args : List (PArg V)) (ps : List (Int × Option V))
    (fs : List Bytes) (hne : args ≠ []) (hw : WellTyped args ps) (hf : Frames env ps.length true ps fs)
    (hs : ∀ f ∈ fs, f.length < 2^31) (hm : 0 < max.toInt → ∀ f ∈ fs, (f.length : Int) ≤ 4 + max.toInt)
    (hn : (ps.length : Int) ≤ maxGroup) (k : Nat) (hk : fs.flatten.length ≤ k) (rest : Bytes) (e : Ending) (r : Reader)
    (hr : stream r = (transmitted (pipeJSON env (.accept k) args).calls ++ rest, e)) :
    ∃ r', stream r' = (rest, e) ∧
      connLoop env.json max r = (.group (fs.map some) :: (connLoop env.json max r').1, (connLoop env.json max r').2) := by
  obtain ⟨n, hc, hn'⟩ := C19_group_written env (.accept k) args ps fs hne hw hf (fun f hf => by have := hs f hf; omega)
  have hnn := (hn'.1 k rfl).1
  rw [Nat.min_eq_right hk] at hnn
  rw [hc, hnn] at hr
  have ht : transmitted [⟨fs.flatten, fs.flatten.length⟩] = fs.flatten := by
    simp only [transmitted, List.flatMap_cons, List.flatMap_nil, List.append_nil, List.take_length]
  rw [ht] at hr
  have hacc := frames_acceptable max.toInt hf hs hm
  have hpne : ps ≠ [] := by
    rintro rfl
    have := wellTyped_length hw
    exact hne (List.eq_nil_of_length_eq_zero (by simpa using this))
  have hfl := frames_length hf
  classical
  -- a kind function: every frame has a kind
  have hex : ∀ f, ∃ q, KindOf env.json f q := fun f => kind_total env.json f
  let kind : Bytes → Kind := fun f => Classical.choose (hex f)
  have hkind : ∀ f, KindOf env.json f (kind f) := fun f => Classical.choose_spec (hex f)
  have hexp : expected kind .between fs = ([.group (fs.map some)], .between) := by
    cases hf with
    | nil => exact absurd rfl hpne
    | cons _ z body ps' hb bb fs' h1 h2 h3 =>
      have hlen := hs _ (List.mem_cons_self)
      rw [frame_length] at hlen
      have hpk := group_kind hj _ (by unfold maxGroup at hn; omega) hb bb (Int32.ofInt z).toInt h1 (by omega)
      have hq := kind_unique (hkind (Spec.frame (Int32.ofInt z).toInt hb bb)) hpk
      simp only [List.length_cons] at hq hfl hn ⊢
      simp only [expected, hq]
      rw [if_neg (by omega)]
      cases hps : ps' with
      | nil =>
        subst hps
        have : fs' = [] := List.eq_nil_of_length_eq_zero (by simpa using hfl)
        subst this
        simp [expected]
      | cons p qs =>
        subst hps
        simp only [List.length_cons] at hfl ⊢
        rw [if_neg (by omega), show (((qs.length + 1 + 1 : Nat) : Int).toNat - 1) = qs.length + 1 by omega,
          expected_group kind fs' qs.length [_] (by omega)]
        simp
  have key := loop_expected env.json max kind rest e fs .between r (by simp) (by simp) hr hacc (fun f _ => hkind f)
  rw [hexp] at key
  rcases key with ⟨h, _⟩ | ⟨_, _, r', h1, h2⟩
  · cases h
  · exact ⟨r', h1, by simpa [runFrom] using h2⟩

set_option maxRecDepth 100000 in
-- a two-message group, its hypotheses, and a connection delivering it in two pieces followed by two more bytes
example : ∃ fs, WellTyped [.int 5 [5], .val [1,2], .int 6 [6], .nil] [(5, some [1,2]), (6, none)] ∧
    Frames Demo.env 2 true [(5, some [1,2]), (6, none)] fs ∧ (∀ f ∈ fs, f.length < 2^31) ∧ fs.flatten.length ≤ 5000 :=
  ⟨_, .cons _ _ _ _ _ (.cons _ _ _ _ _ .nil),
    .cons _ _ _ _ _ _ _ rfl (.inr ⟨_, rfl, rfl⟩) (.cons _ _ _ _ _ _ _ rfl (.inl ⟨rfl, rfl⟩) (.nil _)), by decide, by decide⟩
example (sent : Bytes) : stream [.chunk (sent.take 3), .chunk (sent.drop 3 ++ [7,7]), .eof] = (sent ++ [7,7], .closed) := by
  simp [stream, ← List.append_assoc]

end Tcpx
