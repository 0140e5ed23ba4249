import Verif.Model.Reader
import Verif.Model.Mux
/-!
# Model of the TCP connection goroutine (tcpx.go:552-606), of the pipe marker (tcpx.go:1230-1264) and of the goroutines it
starts (tcpx.go:853-999)

The connection is a `Reader` script; the result is the list of goroutines started, in order, and how the loop ends.
Memory exhaustion is not modelled.
-/
namespace Tcpx

/-! ## String functions of the standard library, on characters

JSON strings are valid UTF-8 and the separator and digits are ASCII, so working on characters instead of bytes makes no
difference. -/

/-- `strings.Split(s, sep)` for a separator of one ASCII character. Package strings, used at tcpx.go:1251. -/
def splitChar (sep : Char) : List Char → List (List Char)
  | [] => [[]]
  | c :: cs =>
    if c = sep then [] :: splitChar sep cs
    else match splitChar sep cs with
      | [] => [[c]]
      | w :: ws => (c :: w) :: ws

/-- Value of one decimal digit. Part of package strconv, used at tcpx.go:1256. -/
def digitVal (c : Char) : Option Nat := if '0' ≤ c ∧ c ≤ '9' then some (c.toNat - '0'.toNat) else none

/-- The value of a string of digits, continuing from `acc`; `none` if some character is not a digit.
Part of package strconv, used at tcpx.go:1256. -/
def digitsVal : Nat → List Char → Option Nat
  | acc, [] => some acc
  | acc, c :: cs =>
    match digitVal c with
    | none => none
    | some d => digitsVal (acc * 10 + d) cs

/-- `strconv.Atoi` on a 64-bit platform: an optional sign and at least one digit, in the range of `int`. Used at tcpx.go:1256. -/
def atoi (s : List Char) : Option Int :=
  let neg := s.head? = some '-'
  let ds := if s.head? = some '-' ∨ s.head? = some '+' then s.drop 1 else s
  if ds = [] then none
  else match digitsVal 0 ds with
    | none => none
    | some n =>
      if neg then (if n ≤ 2^63 then some (-(n : Int)) else none)
      else (if n < 2^63 then some (n : Int) else none)

/-! ## The pipe marker -/

/-- tcpx.go:1230-1264 `isPipe`: whether the block starts a group, and the announced number of blocks of the group
(`restN + 1` in the caller; the code returns `length - 1`).  `reflect.TypeOf(nil).Name()` (line 1248) panics for a null value. -/
def isPipe (json : JSONCodec) (block : Bytes) : Res (Bool × Int) :=
  match headerOf json { live := block } with
  | .err e => .err (wrapErr e)
  | .panic => .panic
  | .block => .block
  | .ok header =>
    if header.len = 0 then .ok (false, 0)
    else match header.get? PIPED with
      | none => .ok (false, 0)
      | some v =>
        match v.asString with
        | none => if v = .null then .panic else .err .badPipe
        | some pipeArgs =>
          match splitChar ';' pipeArgs.toList with
          | [a, b] =>
            match atoi b with
            | none => .err .badPipe
            | some length => if a = "enable".toList then .ok (true, length) else .ok (false, 0)
          | _ => .err .badPipe

/-! ## The loop -/

/-- A goroutine started for received messages: tcpx.go:602 and 600.  A nil context in the group is `none`. -/
inductive Task where
  | single (b : Bytes)
  | group (bs : List (Option Bytes))
deriving DecidableEq, Repr

/-- How the loop ends: `break`, a run-time panic, or not (waiting for the peer). tcpx.go:565-605. -/
inductive LoopEnd where
  | ended | panicked | blocked
deriving DecidableEq, Repr

/-- Largest `n` for which `make([]*Context, n)` does not panic: 2^48 bytes of address space, 8 bytes each.
The Go run time (amd64); used for tcpx.go:585. -/
def maxPointers : Int := 2^45

/-- tcpx.go:587-598: read up to `n` further blocks; after an error the remaining contexts stay nil. -/
def readGroup (max : Int32) : Nat → Reader → ReadOut (List (Option Bytes))
  | 0, r => .ok [] r
  | n + 1, r =>
    match firstBlockOfLimitMaxByte (some r) max with
    | .ok b r' => (readGroup max n r').bind fun l r'' => .ok (some b :: l) r''
    | .err _ r' => .ok (List.replicate (n + 1) none) r'
    | .panic => .panic
    | .block => .block

/-- Size of a reader script, for termination. No counterpart in the code. -/
def Reader.size : Reader → Nat
  | [] => 0
  | .chunk bs :: r => bs.length + 1 + Reader.size r
  | .chunkEOF bs :: r => bs.length + 2 + Reader.size r
  | .eof :: r => 1 + Reader.size r
  | .fail :: r => 1 + Reader.size r

theorem readUntil_size (r : Reader) (n : Nat) :
    (∀ b r', readUntil r n = .ok b r' → r'.size + n ≤ r.size + b.length ∧ r'.size ≤ r.size ∧ (0 < n → r'.size < r.size)) ∧
    (∀ e r', readUntil r n = .err e r' → r'.size ≤ r.size) := by
  induction r generalizing n with
  | nil =>
    cases n with
    | zero => simp [readUntil]
    | succ n => simp [readUntil]
  | cons ev r ih =>
    cases n with
    | zero => simp [readUntil]
    | succ n =>
      cases ev with
      | chunk bs =>
        simp only [readUntil]
        by_cases h1 : bs.length < n + 1
        · simp only [h1, if_true]
          obtain ⟨i1, i2⟩ := ih (n + 1 - bs.length)
          refine ⟨?_, ?_⟩
          · intro b r' h
            cases hr : readUntil r (n + 1 - bs.length) with
            | ok a ra =>
              rw [hr] at h
              simp only [ReadOut.prepend, ReadOut.ok.injEq] at h
              obtain ⟨ha, hb⟩ := h
              subst ha; subst hb
              have := i1 a ra hr
              simp only [Reader.size, List.length_append]
              omega
            | err e ra => rw [hr] at h; simp [ReadOut.prepend] at h
            | panic => rw [hr] at h; simp [ReadOut.prepend] at h
            | block => rw [hr] at h; simp [ReadOut.prepend] at h
          · intro e r' h
            cases hr : readUntil r (n + 1 - bs.length) with
            | ok a ra => rw [hr] at h; simp [ReadOut.prepend] at h
            | err e' ra =>
              rw [hr] at h
              simp only [ReadOut.prepend, ReadOut.err.injEq] at h
              obtain ⟨_, hb⟩ := h
              subst hb
              have := i2 e' ra hr
              simp only [Reader.size]; omega
            | panic => rw [hr] at h; simp [ReadOut.prepend] at h
            | block => rw [hr] at h; simp [ReadOut.prepend] at h
        · simp only [h1, if_false]
          by_cases h2 : bs.length = n + 1
          · simp only [h2, if_true]
            refine ⟨?_, by simp⟩
            intro b r' h
            simp only [ReadOut.ok.injEq] at h
            obtain ⟨ha, hb⟩ := h
            subst ha; subst hb
            simp only [Reader.size]; omega
          · simp only [h2, if_false]
            refine ⟨?_, by simp⟩
            intro b r' h
            simp only [ReadOut.ok.injEq] at h
            obtain ⟨ha, hb⟩ := h
            subst ha; subst hb
            simp only [Reader.size, List.length_take, List.length_drop]; omega
      | chunkEOF bs =>
        simp only [readUntil]
        by_cases h1 : bs.length ≤ n + 1
        · simp only [h1, if_true]
          refine ⟨by simp, ?_⟩
          intro e r' h
          simp only [ReadOut.err.injEq] at h
          obtain ⟨_, hb⟩ := h
          subst hb
          simp only [Reader.size]; omega
        · simp only [h1, if_false]
          refine ⟨?_, by simp⟩
          intro b r' h
          simp only [ReadOut.ok.injEq] at h
          obtain ⟨ha, hb⟩ := h
          subst ha; subst hb
          simp only [Reader.size, List.length_take, List.length_drop]; omega
      | eof =>
        simp only [readUntil]
        refine ⟨by simp, ?_⟩
        intro e r' h
        simp only [ReadOut.err.injEq] at h
        rw [← h.2]; exact Nat.le_refl _
      | fail =>
        simp only [readUntil]
        refine ⟨by simp, ?_⟩
        intro e r' h
        simp only [ReadOut.err.injEq] at h
        rw [← h.2]; simp only [Reader.size]; omega

theorem readContent_size (r : Reader) (n : Int32) :
    (∀ b r', readContent r n = .ok b r' → r'.size ≤ r.size) ∧ (∀ e r', readContent r n = .err e r' → r'.size ≤ r.size) := by
  unfold readContent
  split
  · simp
  · exact ⟨fun b r' h => ((readUntil_size r _).1 b r' h).2.1, fun e r' h => (readUntil_size r _).2 e r' h⟩

theorem afterInfo_size (r : Reader) (info : Bytes) (length : Int32) :
    (∀ b r', ((readContent r length).bind fun content r => ReadOut.ok (info ++ content) r) = .ok b r' → r'.size ≤ r.size) ∧
    (∀ e r', ((readContent r length).bind fun content r => ReadOut.ok (info ++ content) r) = .err e r' → r'.size ≤ r.size) := by
  have hc := readContent_size r length
  cases h : readContent r length with
  | ok a ra =>
    refine ⟨?_, by simp⟩
    intro b r' hb
    simp only [ReadOut.bind_ok, ReadOut.ok.injEq] at hb
    rw [← hb.2]; exact hc.1 a ra h
  | err e ra =>
    refine ⟨by simp, ?_⟩
    intro e' r' hb
    simp only [ReadOut.bind_err, ReadOut.err.injEq] at hb
    rw [← hb.2]; exact hc.2 e ra h
  | panic => simp
  | block => simp

/-- Reading a block makes the script smaller; a failed read does not make it larger. -/
theorem firstBlock_size (r : Reader) (max : Int32) :
    (∀ b r', firstBlockOfLimitMaxByte (some r) max = .ok b r' → r'.size < r.size) ∧
    (∀ e r', firstBlockOfLimitMaxByte (some r) max = .err e r' → r'.size ≤ r.size) := by
  have h4 := readUntil_size r 4
  simp only [firstBlockOfLimitMaxByte, unpackToBlockFromReader, unpackToBlockFromReaderLimit]
  cases hr : readUntil r 4 with
  | ok info r1 =>
    have hs := ((h4.1 info r1 hr).2.2 (by omega))
    simp only [ReadOut.bind_ok]
    cases ha : announcedLength info with
    | ok length =>
      have := afterInfo_size r1 info length
      simp only
      split
      · exact ⟨fun b r' h => Nat.lt_of_le_of_lt (this.1 b r' h) hs, fun e r' h => Nat.le_trans (this.2 e r' h) (Nat.le_of_lt hs)⟩
      · split
        · refine ⟨by simp, ?_⟩
          intro e r' h
          simp only [ReadOut.err.injEq] at h
          rw [← h.2]; exact Nat.le_of_lt hs
        · exact ⟨fun b r' h => Nat.lt_of_le_of_lt (this.1 b r' h) hs, fun e r' h => Nat.le_trans (this.2 e r' h) (Nat.le_of_lt hs)⟩
    | err e =>
      simp only [ite_self]
      refine ⟨by simp, ?_⟩
      intro e r' h
      simp only [ReadOut.err.injEq] at h
      rw [← h.2]; exact Nat.le_of_lt hs
    | panic => simp
    | block => simp
  | err e r1 =>
    simp only [ReadOut.bind_err, ite_self]
    refine ⟨by simp, ?_⟩
    intro e r' h
    simp only [ReadOut.err.injEq] at h
    rw [← h.2]; exact h4.2 _ r1 hr
  | panic => simp
  | block => simp

theorem readGroup_size (max : Int32) (n : Nat) : ∀ (r : Reader) l r', readGroup max n r = .ok l r' → r'.size ≤ r.size := by
  induction n with
  | zero => intro r l r' h; simp only [readGroup, ReadOut.ok.injEq] at h; rw [h.2]; exact Nat.le_refl _
  | succ n ih =>
    intro r l r' h
    have hs := firstBlock_size r max
    simp only [readGroup] at h
    cases hr : firstBlockOfLimitMaxByte (some r) max with
    | ok b r1 =>
      rw [hr] at h
      simp only at h
      cases hg : readGroup max n r1 with
      | ok l2 r2 =>
        rw [hg] at h
        simp only [ReadOut.bind_ok, ReadOut.ok.injEq] at h
        have h1 := ih r1 l2 r2 hg
        have h2 := hs.1 b r1 hr
        rw [← h.2]; omega
      | err e r2 => rw [hg] at h; simp at h
      | panic => rw [hg] at h; simp at h
      | block => rw [hg] at h; simp at h
    | err e r1 =>
      rw [hr] at h
      simp only [ReadOut.ok.injEq] at h
      rw [← h.2]; exact hs.2 e r1 hr
    | panic => rw [hr] at h; simp at h
    | block => rw [hr] at h; simp at h

/-- tcpx.go:565-605: the read loop of a connection.  `make([]*Context, n)` panics for a negative or absurd `n`,
`ctxs[0] = ...` for `n = 0` (lines 585, 586). -/
def connLoop (json : JSONCodec) (max : Int32) (r : Reader) : List Task × LoopEnd :=
  match _h1 : firstBlockOfLimitMaxByte (some r) max with
  | .err _ _ => ([], .ended)
  | .panic => ([], .panicked)
  | .block => ([], .blocked)
  | .ok b r' =>
    match isPipe json b with
    | .err _ => ([], .ended)
    | .panic => ([], .panicked)
    | .block => ([], .blocked)
    | .ok (false, _) =>
      let rest := connLoop json max r'
      (.single b :: rest.1, rest.2)
    | .ok (true, n) =>
      if n ≤ 0 ∨ maxPointers < n then ([], .panicked)
      else match _h2 : readGroup max (n.toNat - 1) r' with
        | .ok l r'' =>
          let rest := connLoop json max r''
          (.group (some b :: l) :: rest.1, rest.2)
        | .err _ _ => ([], .ended)
        | .panic => ([], .panicked)
        | .block => ([], .blocked)
termination_by r.size
decreasing_by
  · exact (firstBlock_size r max).1 _ _ _h1
  · exact Nat.lt_of_le_of_lt (readGroup_size _ _ _ _ _ _h2) ((firstBlock_size r max).1 _ _ _h1)

/-! ## The connection goroutine with its deferred calls -/

/-- Observable actions of the connection goroutine. tcpx.go:552-606. -/
inductive ConnEv where
  | go (t : Task)
  | onClose
  | closeConn
deriving DecidableEq, Repr

/-- The deferred calls of tcpx.go:553-563. -/
inductive Deferred where
  | recover | closeConn | onClose
deriving DecidableEq, Repr

/-- tcpx.go:553-563 in order of registration; `OnClose` only if it is set. -/
def deferOrder (hasOnClose : Bool) : List Deferred :=
  [.recover, .closeConn] ++ (if hasOnClose then [.onClose] else [])

/-- Deferred calls are run last to first, also while panicking; `OnClose` is user code and may panic itself;
`recover()` stops the panic.  The result says whether the panic goes on. The Go language; used for tcpx.go:553-563. -/
def runDeferred (onClosePanics : Bool) : List Deferred → Bool → List ConnEv × Bool
  | [], p => ([], p)
  | .recover :: ds, _ => let rest := runDeferred onClosePanics ds false; (rest.1, rest.2)
  | .closeConn :: ds, p => let rest := runDeferred onClosePanics ds p; (.closeConn :: rest.1, rest.2)
  | .onClose :: ds, p => let rest := runDeferred onClosePanics ds (p || onClosePanics); (.onClose :: rest.1, rest.2)

/-- What the connection goroutine does, whether it has finished, and whether a panic escaped from it.
No counterpart in the code: a record. -/
structure ConnRun where
  trace    : List ConnEv
  finished : Bool
  escaped  : Bool
deriving DecidableEq, Repr

/-- tcpx.go:552-606. -/
def connGoroutine (json : JSONCodec) (max : Int32) (hasOnClose onClosePanics : Bool) (r : Reader) : ConnRun :=
  let body := connLoop json max r
  let gos := body.1.map ConnEv.go
  match body.2 with
  | .blocked => ⟨gos, false, false⟩
  | e =>
    let d := runDeferred onClosePanics (deferOrder hasOnClose).reverse (e = .panicked)
    ⟨gos ++ d.1, true, d.2⟩

/-! ## What the started goroutines do -/

/-- context.go:691-730 `routerType`, given what the look-up of "router_type" in the request store returned. -/
def routerTypeWith (json : JSONCodec) (cached : Option Any) (stream : Bytes) : Res String :=
  match cached.bind Any.asString with
  | some rt => .ok rt
  | none =>
    if stream = [] then .ok MESSAGEID
    else match headerOf json { live := stream } with
      | .err _ => .ok MESSAGEID
      | .panic => .panic
      | .block => .block
      | .ok header =>
        if header.len = 0 then .ok MESSAGEID
        else match header.get? HEADER_ROUTER_KEY with
          | none => .ok MESSAGEID
          | some v =>
            match v.asString with
            | none => .ok MESSAGEID
            | some s => if s = MESSAGEID then .ok MESSAGEID else .ok s

/-- tcpx.go:890-895 and 897-944 `handleMessageIDHandlers`. -/
def handleMessageID (s : Srv) (stream : Bytes) : Dispatch :=
  match messageIDOf { live := stream } with
  | .ok id => s.dispatchId id
  | .err _ => .nothing
  | .panic => .panic
  | .block => .nothing

/-- tcpx.go:948-991 `handleURLPatternHandlers`. -/
def handleURLPattern (s : Srv) (json : JSONCodec) (stream : Bytes) : Dispatch :=
  match urlPatternOf json { live := stream } with
  | .ok p => s.dispatchUrl p
  | .err _ => .nothing
  | .panic => .panic
  | .block => .nothing

/-- tcpx.go:853-871 `handleMiddleware`; `c 0`, `c 1`, `c 2` are what the request store held under "router_type" at the three
calls of `RouterType` (lines 859, 864, 869).  A nil context (`none`) is dereferenced in either branch: tcpx.go:875 or
context.go:682 (value receiver). -/
def handleMiddleware (s : Srv) (json : JSONCodec) (c : Nat → Option Any) : Option Bytes → Dispatch
  | none => .panic
  | some stream =>
    match s.onMessage with
    | some f => s.dispatchOnMessage f
    | none =>
      match routerTypeWith json (c 0) stream with
      | .err _ => .nothing
      | .panic => .panic
      | .block => .nothing
      | .ok rt =>
        if rt = MESSAGEID then handleMessageID s stream
        else match routerTypeWith json (c 1) stream with
          | .err _ => .nothing
          | .panic => .panic
          | .block => .nothing
          | .ok rt =>
            if rt = URLPATTERN then handleURLPattern s json stream
            else match routerTypeWith json (c 2) stream with
              | .panic => .panic
              | _ => .nothing

/-- The contexts of a task, in the order handled: tcpx.go:602, 994-999. -/
def Task.contexts : Task → List (Option Bytes)
  | .single b => [some b]
  | .group bs => bs

/-- Does the goroutine of a task panic?  `c i` is what the `i`-th message found cached, `hp i d` whether one of the handlers
run for it panics.  A panic ends the goroutine; it panics iff some message makes it panic. The goroutines of tcpx.go:600, 602. -/
def taskPanics (s : Srv) (json : JSONCodec) (c : Nat → Nat → Option Any) (hp : Nat → Dispatch → Bool) : Nat →
    List (Option Bytes) → Bool
  | _, [] => false
  | i, b :: bs =>
    let d := handleMiddleware s json (c i) b
    decide (d = .panic) || hp i d || taskPanics s json c hp (i + 1) bs

/-- There is no `recover` in the goroutines started at tcpx.go:600 and 602 (nor 703 for UDP), so a panic in one of them
terminates the process. -/
def Task.killsProcess (s : Srv) (json : JSONCodec) (c : Nat → Nat → Option Any) (hp : Nat → Dispatch → Bool) (t : Task) :
    Bool := taskPanics s json c hp 0 t.contexts

end Tcpx
