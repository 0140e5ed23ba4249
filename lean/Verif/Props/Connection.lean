import Verif.Lemmas.ConnLoop
import Verif.Lemmas.Routing
/-!
# C22–C24, C55–C57, C59: the connection goroutine

`Spec.stream r` is what the connection delivers; `Spec.expected` says, frame by frame, which goroutines a stream of complete
frames should start.
-/
namespace Tcpx
open Spec

/-! ## A small header codec for the examples -/

/-- Header bytes `[n]` mean `{PIPED: "enable;n"}` for `n < 4`, `[9]` a null marker, `[10]` a marker without ';',
`[11]` a well-formed marker that is not "enable", no bytes mean no header. -/
def tinyJson : JSONCodec where
  marshal _ := none
  unmarshal
    | [] => some none
    | [0] => some (some [(PIPED, .str "enable;0")])
    | [1] => some (some [(PIPED, .str "enable;1")])
    | [2] => some (some [(PIPED, .str "enable;2")])
    | [3] => some (some [(PIPED, .str "enable;3")])
    | [9] => some (some [(PIPED, .null)])
    | [10] => some (some [(PIPED, .str "enable")])
    | [11] => some (some [(PIPED, .str "disable;3")])
    | _ => none

/-- Frame without header, with id `i` and body `b`. -/
def plainFrame (i b : UInt8) : Bytes := [0,0,0,13, 0,0,0,i, 0,0,0,0, 0,0,0,1, b]
/-- Frame with one header byte. -/
def markedFrame (h b : UInt8) : Bytes := [0,0,0,14, 0,0,0,1, 0,0,0,1, 0,0,0,1, h, b]

theorem tiny_pipe2 : KindOf tinyJson (markedFrame 2 7) (.pipe 2) :=
  .pipe (some [(PIPED, .str "enable;2")]) 2 (by decide) (.enable _ "enable;2" ['2'] 2 rfl (by decide)
    ⟨by decide, by decide, 2, ['2'], ⟨by decide, by decide, by decide⟩, .inl ⟨rfl, rfl⟩⟩)
theorem tiny_pipe0 : KindOf tinyJson (markedFrame 0 7) (.pipe 0) :=
  .pipe (some [(PIPED, .str "enable;0")]) 0 (by decide) (.enable _ "enable;0" ['0'] 0 rfl (by decide)
    ⟨by decide, by decide, 0, ['0'], ⟨by decide, by decide, by decide⟩, .inl ⟨rfl, rfl⟩⟩)
theorem tiny_plain (i b : UInt8) : KindOf tinyJson (plainFrame i b) .ordinary := by
  have h : declaredHeaderLen (plainFrame i b) = 0 := by simp [declaredHeaderLen, fieldAt, plainFrame, value4]
  refine .ordinary none ?_ (.absent _ rfl)
  simp only [frameHeader, declaredHeader, h]
  rw [if_neg (by simp [plainFrame])]
  simp [Spec.range, plainFrame, tinyJson]
theorem tiny_accept (h b : UInt8) (max : Int) (hm : max ≤ 0) : Acceptable max (markedFrame h b) := by
  have hd : declaredLength (markedFrame h b) = 14 := by simp [declaredLength, fieldAt, markedFrame, value4]
  exact ⟨by simp [markedFrame], by rw [hd]; simp [markedFrame], by omega, by omega⟩
theorem tiny_accept' (i b : UInt8) (max : Int) (hm : max ≤ 0) : Acceptable max (plainFrame i b) := by
  have hd : declaredLength (plainFrame i b) = 13 := by simp [declaredLength, fieldAt, plainFrame, value4]
  exact ⟨by simp [plainFrame], by rw [hd]; simp [plainFrame], by omega, by omega⟩

/-! ## C55 -/

/-- C55: whatever arrives and however the read loop ends (break or panic, `OnClose` panicking or not), once the goroutine has
finished it has run `OnClose` exactly once (if set), after everything else, then `CloseConn` exactly once; the panic does not
leave the goroutine.  It does not finish only while waiting for the peer. -/
theorem C55_close_sequence (json : JSONCodec) (max : Int32) (hasOnClose onClosePanics : Bool) (r : Reader) :
    let g := connGoroutine json max hasOnClose onClosePanics r
    g.escaped = false ∧
    (g.finished = true → ∃ ts : List Task, g.trace = ts.map .go ++ (if hasOnClose then [.onClose] else []) ++ [.closeConn]) ∧
    (g.finished = false → (connLoop json max r).2 = .blocked ∧ ∀ ev ∈ g.trace, ∃ t, ev = .go t) := by
  simp only [connGoroutine]
  cases h : (connLoop json max r).2 with
  | blocked =>
    refine ⟨rfl, by simp, fun _ => ⟨rfl, ?_⟩⟩
    intro ev hev
    obtain ⟨t, _, rfl⟩ := List.mem_map.1 hev
    exact ⟨t, rfl⟩
  | ended => cases hasOnClose <;> cases onClosePanics <;> simp [runDeferred, deferOrder] <;> exact ⟨_, rfl⟩
  | panicked => cases hasOnClose <;> cases onClosePanics <;> simp [runDeferred, deferOrder] <;> exact ⟨_, rfl⟩

/-- C55: in particular `OnClose` occurs once in the whole run, before the only `CloseConn`. -/
theorem C55_exactly_once (json : JSONCodec) (max : Int32) (onClosePanics : Bool) (r : Reader)
    (hf : (connGoroutine json max true onClosePanics r).finished = true) :
    (connGoroutine json max true onClosePanics r).trace.count .onClose = 1 ∧
    (connGoroutine json max true onClosePanics r).trace.count .closeConn = 1 ∧
    (connGoroutine json max true onClosePanics r).trace.getLast? = some .closeConn := by
  obtain ⟨ts, ht⟩ := (C55_close_sequence json max true onClosePanics r).2.1 hf
  have c1 : ∀ ts : List Task, (ts.map ConnEv.go).count .onClose = 0 := by
    intro ts; rw [List.count_eq_zero]; simp
  have c2 : ∀ ts : List Task, (ts.map ConnEv.go).count .closeConn = 0 := by
    intro ts; rw [List.count_eq_zero]; simp
  rw [ht]
  simp [List.count_append, c1, c2]

example : (connGoroutine tinyJson 0 true true [.chunk [255,255,255,255]]).finished = true ∧
    (connGoroutine tinyJson 0 true true [.chunk [255,255,255,255]]).trace = [.onClose, .closeConn] := by
  have h : connLoop tinyJson 0 [.chunk [255,255,255,255]] = ([], .panicked) :=
    connLoop_panic (by decide)
  simp [connGoroutine, h, runDeferred, deferOrder]

/-! ## C56 -/

/-- C56: every byte string is a sequence of complete acceptable frames followed by an incomplete frame, an oversized one or one
with a negative length; so the theorems below, which start from such a decomposition, cover every stream. -/
theorem C56_every_stream_splits (max : Int) (l : Bytes) : ∃ (fs : List Bytes) (tail : Bytes), l = fs.flatten ++ tail ∧
    (∀ f ∈ fs, Acceptable max f) ∧ (Incomplete max tail ∨ Oversized max tail ∨ NegativeLength tail) :=
  splits max l

/-- C56: every frame has exactly one kind. -/
theorem C56_kind_exists_unique (json : JSONCodec) (f : Bytes) : ∃ k, KindOf json f k ∧ ∀ k', KindOf json f k' → k' = k := by
  obtain ⟨k, hk⟩ := kind_total json f
  exact ⟨k, hk, fun k' hk' => kind_unique hk' hk⟩

/-- Frames received but not yet handed on. -/
def pending : Pos → List Bytes
  | .inGroup _ got => got
  | _ => []

theorem expected_order (kind : Bytes → Kind) (fs : List Bytes) : ∀ p : Pos, p ≠ .refused →
    ∃ n ≤ fs.length, ((expected kind p fs).1.flatMap Task.contexts) ++ (pending (expected kind p fs).2).map some =
      (pending p ++ fs.take n).map some ∧ ((expected kind p fs).2 ≠ .refused → n = fs.length) ∧
      ((expected kind p fs).2 = .refused → ∃ f, fs[n]? = some f ∧ (kind f = .bad ∨ ∃ k, kind f = .pipe k ∧ (k ≤ 0 ∨ maxGroup < k))) := by
  induction fs with
  | nil =>
    intro p hp
    have he : expected kind p [] = ([], p) := by cases p <;> rfl
    rw [he]
    exact ⟨0, Nat.le_refl _, by simp, fun _ => rfl, fun h => absurd h hp⟩
  | cons f fs ih =>
    intro p hp
    cases p with
    | refused => exact absurd rfl hp
    | between =>
      obtain ⟨n, hn, h1, h2, h3⟩ := ih .between (by simp)
      cases hk : kind f with
      | bad =>
        refine ⟨0, by simp, ?_, ?_, ?_⟩ <;> simp [expected, hk, pending]
      | ordinary =>
        refine ⟨n + 1, by simp; omega, ?_, ?_, ?_⟩
        · simp only [expected, hk, List.flatMap_cons, Task.contexts, List.append_assoc]
          rw [h1]; simp [pending]
        · simp only [expected, hk]; intro hx; rw [h2 hx]; rfl
        · simp only [expected, hk]; intro hx; simpa using h3 hx
      | pipe k =>
        by_cases hb : k ≤ 0 ∨ maxGroup < k
        · refine ⟨0, by simp, ?_, ?_, ?_⟩
          · simp [expected, hk, pending, hb]
          · simp [expected, hk, hb]
          · intro _; exact ⟨f, by simp, .inr ⟨k, hk, hb⟩⟩
        · by_cases h11 : k = 1
          · refine ⟨n + 1, by simp; omega, ?_, ?_, ?_⟩
            · simp only [expected, hk, if_neg hb, if_pos h11, List.flatMap_cons, Task.contexts, List.append_assoc]
              rw [h1]; simp [pending]
            · simp only [expected, hk, if_neg hb, if_pos h11]; intro hx; rw [h2 hx]; rfl
            · simp only [expected, hk, if_neg hb, if_pos h11]; intro hx; simpa using h3 hx
          · obtain ⟨n, hn, h1, h2, h3⟩ := ih (.inGroup (k.toNat - 1) [f]) (by simp)
            have hy : expected kind .between (f :: fs) = expected kind (.inGroup (k.toNat - 1) [f]) fs := by
              simp only [expected, hk, if_neg hb, if_neg h11]
            rw [hy]
            refine ⟨n + 1, by simp; omega, ?_, fun hx => by rw [h2 hx]; rfl, fun hx => by simpa using h3 hx⟩
            rw [h1]; simp [pending]
    | inGroup m got =>
      by_cases hm : m ≤ 1
      · obtain ⟨n, hn, h1, h2, h3⟩ := ih .between (by simp)
        have hy : expected kind (.inGroup m got) (f :: fs) =
            (.group ((got ++ [f]).map some) :: (expected kind .between fs).1, (expected kind .between fs).2) := by
          simp only [expected, if_pos hm]
        rw [hy]
        refine ⟨n + 1, by simp; omega, ?_, fun hx => by rw [h2 hx]; rfl, fun hx => by simpa using h3 hx⟩
        simp only [List.flatMap_cons, Task.contexts, List.append_assoc]
        rw [h1]; simp [pending]
      · obtain ⟨n, hn, h1, h2, h3⟩ := ih (.inGroup (m - 1) (got ++ [f])) (by simp)
        have hy : expected kind (.inGroup m got) (f :: fs) = expected kind (.inGroup (m - 1) (got ++ [f])) fs := by
          simp only [expected, if_neg hm]
        rw [hy]
        refine ⟨n + 1, by simp; omega, ?_, fun hx => by rw [h2 hx]; rfl, fun hx => by simpa using h3 hx⟩
        rw [h1]; simp [pending]

/-- C56 (partial): for every stream and fragmentation, the goroutines started are exactly those expected for the complete frames;
then the loop waits (only if the peer has neither closed nor failed), or ends or panics.
Missing: a group that is interrupted by the end or failure of the stream or by an oversized frame, where the claim is false
(`C56_interrupted_group_violated`, `C56_smuggled_violated`). -/
theorem C56_dispatch_partial (json : JSONCodec) (max : Int32) (r : Reader) (fs : List Bytes) (tail : Bytes) (e : Ending)
    (kind : Bytes → Kind) (hr : stream r = (fs.flatten ++ tail, e)) (ha : ∀ f ∈ fs, Acceptable max.toInt f)
    (hk : ∀ f ∈ fs, KindOf json f (kind f)) (he : e.plain)
    (ht : Incomplete max.toInt tail ∨ Oversized max.toInt tail ∨ NegativeLength tail) :
    match (expected kind .between fs).2 with
    | .refused => ∃ last, connLoop json max r = ((expected kind .between fs).1, last) ∧ last ≠ .blocked
    | .between => ∃ last, connLoop json max r = ((expected kind .between fs).1, last) ∧
        (last = .blocked ↔ Incomplete max.toInt tail ∧ e = .stillOpen)
    | .inGroup _ _ =>
        (Incomplete max.toInt tail → e = .stillOpen → connLoop json max r = ((expected kind .between fs).1, .blocked)) ∧
        (NegativeLength tail → connLoop json max r = ((expected kind .between fs).1, .panicked)) := by
  have key := loop_expected json max kind tail e fs .between r (by simp) (by simp) hr ha hk
  rw [show runFrom json max .between r = connLoop json max r from rfl] at key
  have excl1 : Incomplete max.toInt tail → ¬ NegativeLength tail := by
    rintro (h | ⟨h, _⟩) ⟨h4, hn⟩ <;> omega
  have excl2 : Incomplete max.toInt tail → ¬ Oversized max.toInt tail := by
    rintro (h | ⟨_, h, _⟩) ⟨h4, _, h5, h6⟩
    · omega
    · have := h h5; omega
  cases hp : (expected kind .between fs).2 with
  | refused =>
    rw [hp] at key
    rcases key with ⟨_, h⟩ | ⟨h, _⟩
    · exact h
    · exact absurd rfl h
  | between =>
    rw [hp] at key
    rcases key with ⟨h, _⟩ | ⟨_, _, r', h1, h2⟩
    · cases h
    · simp only
      rw [h2]
      simp only [runFrom]
      have h1' : (stream r').1 = tail := by rw [h1]
      have h1'' : (stream r').2 = e := by rw [h1]
      rcases ht with ht | ht | ht
      · have hsh := incomplete_step r' max (by rw [h1']; exact ht)
        rw [h1''] at hsh
        cases e with
        | stillOpen =>
          rw [connLoop_block hsh]
          exact ⟨_, by simp; rfl, by simp [ht]⟩
        | closed =>
          obtain ⟨_, hsh⟩ := hsh
          rw [connLoop_err hsh]
          exact ⟨_, by simp; rfl, by simp⟩
        | failed =>
          obtain ⟨_, hsh⟩ := hsh
          rw [connLoop_err hsh]
          exact ⟨_, by simp; rfl, by simp⟩
        | closedWith l => exact he.elim
      · obtain ⟨_, hsh, _⟩ := oversized_step r' max (by rw [h1']; exact ht)
        rw [connLoop_err hsh]
        exact ⟨_, by simp; rfl, by simp; intro hi; exact absurd ht (excl2 hi)⟩
      · rw [connLoop_panic (negative_step r' max (by rw [h1']; exact ht))]
        exact ⟨_, by simp; rfl, by simp; intro hi; exact absurd ht (excl1 hi)⟩
  | inGroup m got =>
    rw [hp] at key
    rcases key with ⟨h, _⟩ | ⟨_, h0, r', h1, h2⟩
    · cases h
    · obtain ⟨k, rfl⟩ : ∃ k, m = k + 1 := ⟨m - 1, by
        have : m ≠ 0 := fun hz => h0 got (by rw [hz])
        omega⟩
      have h1' : (stream r').1 = tail := by rw [h1]
      have h1'' : (stream r').2 = e := by rw [h1]
      refine ⟨?_, ?_⟩
      · intro hi ho
        have hsh := incomplete_step r' max (by rw [h1']; exact hi)
        rw [h1'', ho] at hsh
        rw [h2, runFrom_group_block hsh, List.append_nil]
      · intro hn
        rw [h2, runFrom_group_panic (negative_step r' max (by rw [h1']; exact hn)), List.append_nil]

/-- C56: in what is expected, the messages of the goroutines, taken in the order the goroutines are started, are the frames in
arrival order, each exactly once, up to the first bad one; inside an unfinished group the frames received so far are kept back. -/
theorem C56_expected_order (kind : Bytes → Kind) (fs : List Bytes) :
    ∃ n ≤ fs.length, ((expected kind .between fs).1.flatMap Task.contexts) ++ (pending (expected kind .between fs).2).map some =
      (fs.take n).map some ∧ ((expected kind .between fs).2 ≠ .refused → n = fs.length) ∧
      ((expected kind .between fs).2 = .refused → ∃ f, fs[n]? = some f ∧ (kind f = .bad ∨ ∃ k, kind f = .pipe k ∧ (k ≤ 0 ∨ maxGroup < k))) := by
  simpa [pending] using expected_order kind fs .between (by simp)

/-- C56: how the bytes are cut into reads makes no difference at all to what is dispatched or how the loop ends, also for
interrupted groups (for streams that stay open or are closed). -/
theorem C56_fragmentation_independent (json : JSONCodec) (max : Int32) (r1 r2 : Reader) (h : stream r1 = stream r2)
    (he : (stream r1).2 = .stillOpen ∨ (stream r1).2 = .closed) : connLoop json max r1 = connLoop json max r2 :=
  connLoop_same json max _ r1 r2 (Nat.le_refl _) h he

/-- C56 is false: a group that is cut off by the end of the stream is dispatched, with nil contexts for the messages that never
arrived. -/
theorem C56_interrupted_group_violated (json : JSONCodec) (max : Int32) (r : Reader) (fs : List Bytes) (tail : Bytes)
    (kind : Bytes → Kind) (hr : stream r = (fs.flatten ++ tail, .closed)) (ha : ∀ f ∈ fs, Acceptable max.toInt f)
    (hk : ∀ f ∈ fs, KindOf json f (kind f)) (ht : Incomplete max.toInt tail) (missing : Nat) (got : List Bytes)
    (hp : (expected kind .between fs).2 = .inGroup missing got) :
    0 < missing ∧
    connLoop json max r = ((expected kind .between fs).1 ++ [.group (got.map some ++ List.replicate missing none)], .ended) := by
  have key := loop_expected json max kind tail .closed fs .between r (by simp) (by simp) hr ha hk
  rw [show runFrom json max .between r = connLoop json max r from rfl, hp] at key
  rcases key with ⟨h, _⟩ | ⟨_, h0, r', h1, h2⟩
  · cases h
  · obtain ⟨k, rfl⟩ : ∃ k, missing = k + 1 := ⟨missing - 1, by
      have : missing ≠ 0 := fun hz => h0 got (by rw [hz])
      omega⟩
    refine ⟨by omega, ?_⟩
    obtain ⟨r'', h3, h4⟩ := incomplete_closed r' max (by rw [h1]; exact ht) (by rw [h1])
    rw [h2, runFrom_group_err h3, connLoop_closed_nil h4]

/-- C56 is false: after an oversized frame inside a group, the payload of that rejected frame is read as the next frames:
the loop goes on 4 bytes after the start of the oversized frame. -/
theorem C56_smuggled_violated (json : JSONCodec) (max : Int32) (r : Reader) (fs : List Bytes) (tail : Bytes) (e : Ending)
    (kind : Bytes → Kind) (hr : stream r = (fs.flatten ++ tail, e)) (ha : ∀ f ∈ fs, Acceptable max.toInt f)
    (hk : ∀ f ∈ fs, KindOf json f (kind f)) (ht : Oversized max.toInt tail) (missing : Nat) (got : List Bytes)
    (hp : (expected kind .between fs).2 = .inGroup missing got) :
    ∃ r', stream r' = (tail.drop 4, e) ∧
      connLoop json max r = ((expected kind .between fs).1 ++
        .group (got.map some ++ List.replicate missing none) :: (connLoop json max r').1, (connLoop json max r').2) := by
  have key := loop_expected json max kind tail e fs .between r (by simp) (by simp) hr ha hk
  rw [show runFrom json max .between r = connLoop json max r from rfl, hp] at key
  rcases key with ⟨h, _⟩ | ⟨_, h0, r', h1, h2⟩
  · cases h
  · obtain ⟨k, rfl⟩ : ∃ k, missing = k + 1 := ⟨missing - 1, by
      have : missing ≠ 0 := fun hz => h0 got (by rw [hz])
      omega⟩
    obtain ⟨r'', h3, h4⟩ := oversized_step r' max (by rw [h1]; exact ht)
    rw [h1] at h4
    exact ⟨r'', h4, by rw [h2, runFrom_group_err h3]⟩

/-- A kind function for the examples. -/
def tinyKind (f : Bytes) : Kind := if f = markedFrame 2 7 then .pipe 2 else .ordinary

theorem tinyKind_ok : ∀ f ∈ [plainFrame 1 5, markedFrame 2 7, plainFrame 2 6, plainFrame 3 8], KindOf tinyJson f (tinyKind f) := by
  intro f hf
  simp only [List.mem_cons, List.not_mem_nil, or_false] at hf
  rcases hf with rfl | rfl | rfl | rfl
  · exact tiny_plain 1 5
  · exact tiny_pipe2
  · exact tiny_plain 2 6
  · exact tiny_plain 3 8

example : expected tinyKind .between [plainFrame 1 5, markedFrame 2 7, plainFrame 2 6, plainFrame 3 8] =
    ([.single (plainFrame 1 5), .group [some (markedFrame 2 7), some (plainFrame 2 6)], .single (plainFrame 3 8)], .between) := by
  decide
example : (∀ f ∈ [plainFrame 1 5, markedFrame 2 7, plainFrame 2 6, plainFrame 3 8], Acceptable 0 f) ∧ Incomplete 0 [] ∧
    (expected tinyKind .between [plainFrame 1 5, markedFrame 2 7]).2 = .inGroup 1 [markedFrame 2 7] := by
  refine ⟨?_, .inl (by decide), by decide⟩
  intro f hf
  simp only [List.mem_cons, List.not_mem_nil, or_false] at hf
  rcases hf with rfl | rfl | rfl | rfl
  · exact tiny_accept' 1 5 0 (by omega)
  · exact tiny_accept 2 7 0 (by omega)
  · exact tiny_accept' 2 6 0 (by omega)
  · exact tiny_accept' 3 8 0 (by omega)
example : Oversized 20 ([0,0,1,0] ++ plainFrame 3 8) ∧ Acceptable 20 (markedFrame 2 7) :=
  ⟨⟨by decide, by decide, by decide, by decide⟩, ⟨by decide, rfl, by decide, by decide⟩⟩
example : stream [.chunk [0,0], .chunk [0], .chunk [], .chunk [7]] = stream [.chunk [0,0,0,7]] := by decide

/-! ## C22 -/

theorem taskPanics_none (s : Srv) (json : JSONCodec) (c : Nat → Nat → Option Any) (hp : Nat → Dispatch → Bool) :
    ∀ (l : List (Option Bytes)) (i : Nat), none ∈ l → taskPanics s json c hp i l = true := by
  intro l
  induction l with
  | nil => intro i h; simp at h
  | cons b bs ih =>
    intro i h
    rcases List.mem_cons.1 h with rfl | h
    · simp [taskPanics, handleMiddleware]
    · simp [taskPanics, ih (i + 1) h]

/-- C22 is false: a client that announces a group of at least two and closes the connection after any proper prefix of it
terminates the server process, whatever handlers are registered and whatever was sent before. -/
theorem C22_disconnect_violated (json : JSONCodec) (max : Int32) (r : Reader) (before : List Bytes) (f : Bytes) (n : Int)
    (prefix_ : List Bytes) (tail : Bytes) (kind : Bytes → Kind)
    (hr : stream r = ((before ++ f :: prefix_).flatten ++ tail, .closed))
    (ha : ∀ g ∈ before ++ f :: prefix_, Acceptable max.toInt g) (hk : ∀ g ∈ before ++ f :: prefix_, KindOf json g (kind g))
    (hb : (expected kind .between before).2 = .between) (hf : kind f = .pipe n) (hn : n ≤ maxGroup)
    (hshort : (prefix_.length : Int) + 1 < n) (ht : Incomplete max.toInt tail) :
    ∃ t ∈ (connLoop json max r).1, ∀ s c hp, t.killsProcess s json c hp = true := by
  have app : ∀ (fs gs : List Bytes) (p : Pos), expected kind p (fs ++ gs) =
      ((expected kind p fs).1 ++ (expected kind (expected kind p fs).2 gs).1, (expected kind (expected kind p fs).2 gs).2) := by
    intro fs gs
    induction fs with
    | nil => intro p; cases p <;> simp [expected]
    | cons x xs ih =>
      intro p
      cases p with
      | refused => cases gs <;> simp [expected]
      | between =>
        simp only [List.cons_append, expected]
        cases kind x with
        | bad => cases gs <;> simp [expected]
        | ordinary => simp [ih]
        | pipe k =>
          simp only
          by_cases h1 : k ≤ 0 ∨ maxGroup < k
          · simp only [if_pos h1]; cases gs <;> simp [expected]
          · simp only [if_neg h1]
            by_cases h2 : k = 1
            · simp only [if_pos h2]; simp [ih]
            · simp only [if_neg h2]; exact ih _
      | inGroup m got =>
        simp only [List.cons_append, expected]
        by_cases hm : m ≤ 1
        · simp only [if_pos hm]; simp [ih]
        · simp only [if_neg hm]; exact ih _
  have grp : ∀ (gs : List Bytes) (m : Nat) (got : List Bytes), gs.length < m →
      expected kind (.inGroup m got) gs = ([], .inGroup (m - gs.length) (got ++ gs)) := by
    intro gs
    induction gs with
    | nil => intro m got h; simp [expected]
    | cons x xs ih =>
      intro m got h
      simp only [List.length_cons] at h
      simp only [expected]
      rw [if_neg (by omega), ih (m - 1) (got ++ [x]) (by omega)]
      simp only [List.length_cons, List.append_assoc, List.cons_append, List.nil_append]
      rw [show m - 1 - xs.length = m - (xs.length + 1) by omega]
  have hp : (expected kind .between (before ++ f :: prefix_)).2 = .inGroup (n.toNat - 1 - prefix_.length) (f :: prefix_) := by
    rw [app, hb]
    simp only [expected, hf]
    rw [if_neg (by omega), if_neg (by omega), grp _ _ _ (by omega)]
    rfl
  obtain ⟨h0, h1⟩ := C56_interrupted_group_violated json max r _ tail kind hr ha hk ht _ _ hp
  refine ⟨_, by rw [h1]; exact List.mem_append_right _ (List.mem_singleton.2 rfl), ?_⟩
  intro s c hp
  refine taskPanics_none s json c hp _ 0 ?_
  simp only [Task.contexts]
  refine List.mem_append_right _ (List.mem_replicate.2 ⟨by omega, rfl⟩)

/-- C22 is false also without disconnecting: a complete group containing a frame that announces a header of 2^32 - 1 bytes
terminates the process (no global `OnMessage`, router type not cached): unlike the first frame of a group, the others are not
checked by the read loop. -/
theorem C22_garbage_violated (json : JSONCodec) (s : Srv) (f : Bytes) (ho : s.onMessage = none) (c : Nat → Nat → Option Any)
    (hc : ∀ i, c 1 i = none) (hp : Nat → Dispatch → Bool) :
    (Task.group [some f, some [0,0,0,12, 0,0,0,1, 255,255,255,255, 0,0,0,0]]).killsProcess s json c hp = true := by
  have hb : headerBytesOf { live := [0,0,0,12, 0,0,0,1, 255,255,255,255, 0,0,0,0] } = .panic := by decide
  have hh : headerOf json { live := [0,0,0,12, 0,0,0,1, 255,255,255,255, 0,0,0,0] } = .panic := by simp [headerOf, hb]
  have : handleMiddleware s json (c 1) (some [0,0,0,12, 0,0,0,1, 255,255,255,255, 0,0,0,0]) = .panic := by
    simp only [handleMiddleware, ho]
    have : routerTypeWith json (c 1 0) [0,0,0,12, 0,0,0,1, 255,255,255,255, 0,0,0,0] = .panic := by
      simp only [routerTypeWith, hc 1 |> fun _ => hc 0, Option.bind_none, hh]
      simp
    rw [this]
  simp [Task.killsProcess, taskPanics, Task.contexts, this]

/-- C22 (partial): a client that stalls inside a group, or sends a frame with a negative length there, starts no goroutine for the
group; the goroutines are those of the messages before it, and no panic leaves the connection goroutine.
Missing: disconnecting and complete garbage frames (`C22_disconnect_violated`, `C22_garbage_violated`). -/
theorem C22_stall_partial (json : JSONCodec) (max : Int32) (r : Reader) (fs : List Bytes) (tail : Bytes) (e : Ending)
    (kind : Bytes → Kind) (hr : stream r = (fs.flatten ++ tail, e)) (ha : ∀ f ∈ fs, Acceptable max.toInt f)
    (hk : ∀ f ∈ fs, KindOf json f (kind f)) (missing : Nat) (got : List Bytes)
    (hp : (expected kind .between fs).2 = .inGroup missing got)
    (ht : (Incomplete max.toInt tail ∧ e = .stillOpen) ∨ (NegativeLength tail ∧ e.plain)) (hasOnClose onClosePanics : Bool) :
    (connLoop json max r).1 = (expected kind .between fs).1 ∧ (connGoroutine json max hasOnClose onClosePanics r).escaped = false := by
  refine ⟨?_, (C55_close_sequence json max hasOnClose onClosePanics r).1⟩
  rcases ht with ⟨ht, he⟩ | ⟨ht, he⟩
  · have := C56_dispatch_partial json max r fs tail e kind hr ha hk (by rw [he]; trivial) (.inl ht)
    rw [hp] at this
    rw [this.1 ht he]
  · have := C56_dispatch_partial json max r fs tail e kind hr ha hk he (.inr (.inr ht))
    rw [hp] at this
    rw [this.2 ht]

example : stream [.chunk (markedFrame 2 7), .chunk [0,0], .eof] = (([] ++ markedFrame 2 7 :: []).flatten ++ [0,0], .closed) ∧
    Incomplete 0 [0,0] ∧ ((([] : List Bytes).length : Int) + 1 < 2) ∧ tinyKind (markedFrame 2 7) = .pipe 2 :=
  ⟨by decide, .inl (by decide), by decide, by decide⟩
example : NegativeLength [255,0,0,0] := ⟨by decide, by decide⟩

/-! ## C23, C24 -/

/-- A frame that must be refused ends the connection: nothing is dispatched for it or anything after it, the connection is closed
after `OnClose`, and no panic leaves the goroutine. -/
theorem refused_closes (json : JSONCodec) (max : Int32) (r : Reader) (fs : List Bytes) (f rest : Bytes) (e : Ending)
    (kind : Bytes → Kind) (hr : stream r = (fs.flatten ++ (f ++ rest), e)) (ha : ∀ g ∈ fs, Acceptable max.toInt g)
    (hk : ∀ g ∈ fs, KindOf json g (kind g)) (hb : (expected kind .between fs).2 = .between)
    (hfa : Acceptable max.toInt f)
    (hbad : KindOf json f .bad ∨ ∃ n, KindOf json f (.pipe n) ∧ (n ≤ 0 ∨ maxGroup < n)) (hasOnClose onClosePanics : Bool) :
    connGoroutine json max hasOnClose onClosePanics r =
      ⟨(expected kind .between fs).1.map .go ++ ((if hasOnClose then [.onClose] else []) ++ [.closeConn]), true, false⟩ := by
  have key := loop_expected json max kind (f ++ rest) e fs .between r (by simp) (by simp) hr ha hk
  rw [show runFrom json max .between r = connLoop json max r from rfl, hb] at key
  rcases key with ⟨h, _⟩ | ⟨_, _, r', h1, h2⟩
  · cases h
  · obtain ⟨r1, e1, e2⟩ := frame_step r' max f rest e h1 hfa
    have hl : ∃ last, last ≠ .blocked ∧ connLoop json max r' = ([], last) := by
      rw [connLoop_ok e1]
      rcases hbad with hbad | ⟨n, hbad, hn⟩
      · rcases kind_result hbad with ⟨er, hx⟩ | hx
        · rw [hx]; exact ⟨_, by simp, rfl⟩
        · rw [hx]; exact ⟨_, by simp, rfl⟩
      · have hx : isPipe json f = .ok (true, n) := kind_result hbad
        rw [hx]
        have hn' : n ≤ 0 ∨ maxPointers < n := hn
        simp only [if_pos hn']
        exact ⟨_, by simp, rfl⟩
    obtain ⟨last, hl1, hl2⟩ := hl
    have hc : connLoop json max r = ((expected kind .between fs).1, last) := by
      rw [h2]; simp only [runFrom, hl2, List.append_nil]
    simp only [connGoroutine, hc]
    cases last with
    | blocked => exact absurd rfl hl1
    | ended => cases hasOnClose <;> cases onClosePanics <;> simp [runDeferred, deferOrder]
    | panicked => cases hasOnClose <;> cases onClosePanics <;> simp [runDeferred, deferOrder]

/-- C23: a message whose marker announces a count of zero or less, after any traffic and whatever follows it, is not dispatched:
the goroutines started are those of the messages before it, then the connection is closed.  No panic leaves the goroutine. -/
theorem C23_nonpositive_refused (json : JSONCodec) (max : Int32) (r : Reader) (fs : List Bytes) (f rest : Bytes) (e : Ending)
    (kind : Bytes → Kind) (hr : stream r = (fs.flatten ++ (f ++ rest), e)) (ha : ∀ g ∈ fs, Acceptable max.toInt g)
    (hk : ∀ g ∈ fs, KindOf json g (kind g)) (hb : (expected kind .between fs).2 = .between)
    (hfa : Acceptable max.toInt f) (h : Header) (n : Int) (hh : frameHeader json f = some h) (hm : MarkerOf h (.group n))
    (hn : n ≤ 0) (hasOnClose onClosePanics : Bool) :
    connGoroutine json max hasOnClose onClosePanics r =
      ⟨(expected kind .between fs).1.map .go ++ ((if hasOnClose then [.onClose] else []) ++ [.closeConn]), true, false⟩ :=
  refused_closes json max r fs f rest e kind hr ha hk hb hfa (.inr ⟨n, .pipe h n hh hm, .inl hn⟩) _ _

/-- C24: a message whose marker is not a string, not of the form a;b, or whose count is not a decimal integer is not dispatched and
its connection is closed. -/
theorem C24_malformed_refused (json : JSONCodec) (max : Int32) (r : Reader) (fs : List Bytes) (f rest : Bytes) (e : Ending)
    (kind : Bytes → Kind) (hr : stream r = (fs.flatten ++ (f ++ rest), e)) (ha : ∀ g ∈ fs, Acceptable max.toInt g)
    (hk : ∀ g ∈ fs, KindOf json g (kind g)) (hb : (expected kind .between fs).2 = .between)
    (hfa : Acceptable max.toInt f) (h : Header) (hh : frameHeader json f = some h) (hm : MarkerOf h .bad)
    (hasOnClose onClosePanics : Bool) :
    connGoroutine json max hasOnClose onClosePanics r =
      ⟨(expected kind .between fs).1.map .go ++ ((if hasOnClose then [.onClose] else []) ++ [.closeConn]), true, false⟩ :=
  refused_closes json max r fs f rest e kind hr ha hk hb hfa (.inl (.badMarker h hh hm)) _ _

/-- C24: a well-formed marker whose first part is not "enable" is ignored: the message is handed on alone and the loop goes on
with what follows. -/
theorem C24_other_marker_ignored (json : JSONCodec) (max : Int32) (r : Reader) (f rest : Bytes) (e : Ending)
    (hr : stream r = (f ++ rest, e)) (hfa : Acceptable max.toInt f) (h : Header) (hh : frameHeader json f = some h)
    (s : String) (a b : List Char) (n : Int) (hg : h.get? PIPED = some (.str s)) (hs : s.toList = a ++ ';' :: b) (hna : ';' ∉ a)
    (hne : a ≠ "enable".toList) (hn : Numeral b n) :
    ∃ r', stream r' = (rest, e) ∧
      connLoop json max r = (.single f :: (connLoop json max r').1, (connLoop json max r').2) := by
  obtain ⟨r1, e1, e2⟩ := frame_step r max f rest e hr hfa
  have hk : KindOf json f .ordinary := .ordinary h hh (.other h s a b n hg hs hna hne hn)
  have hx : isPipe json f = .ok (false, 0) := kind_result hk
  exact ⟨r1, e2, by rw [connLoop_ok e1, hx]⟩

example : frameHeader tinyJson (markedFrame 0 7) = some (some [(PIPED, .str "enable;0")]) ∧ Acceptable 0 (markedFrame 0 7) :=
  ⟨by decide, tiny_accept 0 7 0 (by omega)⟩
example : MarkerOf (some [(PIPED, .null)]) .bad := .notString _ _ rfl (by simp)
example : MarkerOf (some [(PIPED, .str "enable")]) .bad := .noSemicolon _ "enable" rfl (by decide)
example : frameHeader tinyJson (markedFrame 11 7) = some (some [(PIPED, .str "disable;3")]) ∧
    "disable;3".toList = "disable".toList ++ ';' :: ['3'] ∧ ';' ∉ "disable".toList ∧ Numeral ['3'] 3 :=
  ⟨by decide, by decide, by decide, by decide, by decide, 3, ['3'], ⟨by decide, by decide, by decide⟩, .inl ⟨rfl, rfl⟩⟩

/-! ## C57, C59 -/

/-- C57: whatever arrives and whatever was registered, the framework code run for a message that is handed on alone does not
panic, whatever the request store holds under "router_type". -/
theorem C57_single_no_panic (h : List RegEv) (json : JSONCodec) (max : Int32) (r : Reader) (b : Bytes)
    (hb : Task.single b ∈ (connLoop json max r).1) (c : Nat → Option Any) :
    handleMiddleware (runHist h) json c (some b) ≠ .panic := by
  obtain ⟨hd, hh⟩ := single_header_ok json max b _ r (Nat.le_refl _) hb
  have d1 : ∀ id, (runHist h).dispatchId id ≠ .panic := by
    intro id
    have := dispatchId_eq h id
    cases hr : registration id h with
    | none => rw [hr] at this; simp only at this; rw [this]; simp
    | some p =>
      obtain ⟨pre, hs⟩ := p
      rw [hr] at this
      obtain ⟨f, post, _, _, t1, t2⟩ := this
      by_cases hbp : bypasses h id
      · rw [t1 hbp]; simp
      · rw [t2 hbp]; simp
  have d2 : ∀ p, (runHist h).dispatchUrl p ≠ .panic := by
    intro p
    have := dispatchUrl_eq h p
    cases hr : urlRegistration p h with
    | none => rw [hr] at this; simp only at this; rw [this]; simp
    | some q =>
      rw [hr] at this
      obtain ⟨post, _, hx⟩ := this
      rw [hx]
      cases (runHist h).mux.urlMux.get? p <;> simp
  have m1 : handleMessageID (runHist h) b ≠ .panic := by
    unfold handleMessageID
    rw [messageIDOf_eq]
    split
    · rename_i id hx; exact d1 id
    · simp
    · rename_i hx; split at hx <;> cases hx
    · simp
  have m2 : handleURLPattern (runHist h) json b ≠ .panic := by
    unfold handleURLPattern urlPatternOf
    rw [hh]
    simp only [Res.bind_ok]
    cases hg : headerGetString hd HEADER_ROUTER_VALUE with
    | ok v => simp only [Res.bind_ok]; exact d2 _
    | err e => simp
    | block => simp
    | panic =>
      unfold headerGetString at hg
      split at hg
      · cases hg
      · split at hg
        · cases hg
        · split at hg <;> cases hg
  obtain ⟨t0, h0⟩ := routerTypeWith_no_panic json (c 0) b hd hh
  obtain ⟨t1, h1⟩ := routerTypeWith_no_panic json (c 1) b hd hh
  obtain ⟨t2, h2⟩ := routerTypeWith_no_panic json (c 2) b hd hh
  simp only [handleMiddleware]
  cases (runHist h).onMessage with
  | some f => simp [Srv.dispatchOnMessage]
  | none =>
    simp only [h0, h1, h2]
    split
    · exact m1
    · split
      · exact m2
      · simp

/-- C57: so such a message terminates the process only if one of its handlers panics. -/
theorem C57_single_survives (h : List RegEv) (json : JSONCodec) (max : Int32) (r : Reader) (b : Bytes)
    (hb : Task.single b ∈ (connLoop json max r).1) (c : Nat → Nat → Option Any) :
    (Task.single b).killsProcess (runHist h) json c (fun _ _ => false) = false := by
  simp [Task.killsProcess, taskPanics, Task.contexts, C57_single_no_panic h json max r b hb (c 0)]

example : Task.single (plainFrame 1 5) ∈ (connLoop tinyJson 0 [.chunk (plainFrame 1 5), .eof]).1 := by
  have e1 : firstBlockOfLimitMaxByte (some [.chunk (plainFrame 1 5), .eof]) 0 = .ok (plainFrame 1 5) [.eof] := by decide
  rw [connLoop_ok e1]
  have : isPipe tinyJson (plainFrame 1 5) = .ok (false, 0) := kind_result (tiny_plain 1 5)
  rw [this]; simp

/-- C59 is false: for every ordinary message received by a server, if a handler run for it panics, the process terminates. -/
theorem C59_handler_panic_violated (s : Srv) (json : JSONCodec) (max : Int32) (r : Reader) (f rest : Bytes) (e : Ending)
    (hr : stream r = (f ++ rest, e)) (hfa : Acceptable max.toInt f) (hk : KindOf json f .ordinary) :
    ∃ t ∈ (connLoop json max r).1, ∀ c hp, hp 0 (handleMiddleware s json (c 0) (some f)) = true →
      t.killsProcess s json c hp = true := by
  obtain ⟨r1, e1, e2⟩ := frame_step r max f rest e hr hfa
  have hx : isPipe json f = .ok (false, 0) := kind_result hk
  refine ⟨.single f, by rw [connLoop_ok e1, hx]; simp, ?_⟩
  intro c hp h
  simp [Task.killsProcess, taskPanics, Task.contexts, h]

/-- C59 (partial): a message handed on alone, none of whose handlers panics, does not terminate the process.
Missing: handlers that panic, where the claim is false. -/
theorem C59_no_handler_panic_partial (h : List RegEv) (json : JSONCodec) (max : Int32) (r : Reader) (b : Bytes)
    (hb : Task.single b ∈ (connLoop json max r).1) (c : Nat → Nat → Option Any) (hp : Nat → Dispatch → Bool)
    (hnp : hp 0 (handleMiddleware (runHist h) json (c 0) (some b)) = false) :
    (Task.single b).killsProcess (runHist h) json c hp = false := by
  simp [Task.killsProcess, taskPanics, Task.contexts, C57_single_no_panic h json max r b hb (c 0), hnp]

example : handleMiddleware (runHist [.addHandler 1 [10]]) tinyJson (fun _ => none) (some (plainFrame 1 5)) = .chain [10] := by decide

end Tcpx
