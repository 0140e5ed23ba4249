/-!
# Model of the handler chain (context.go:551-590) and of `handlePipe` (tcpx.go:994-999)

A goroutine executing a chain is a small-step machine with an explicit call stack.  Handlers are arbitrary: at each of
its steps a running handler may do anything (`Act`), so "for all executions" covers all handlers, including ones whose
behaviour depends on shared state.  Calls to the exported `Reset`/`ResetOffset` inside a handler are not modelled.
-/
namespace Tcpx.Chain

/-- context.go:17 `ABORT`. -/
def ABORT : Int := 2019

/-- Frames of the call stack. context.go:559-569. -/
inductive Frame where
  /-- a `Next` call about to evaluate the loop condition (context.go:562) -/
  | loop
  /-- a `Next` call whose handler has been called: on return `ctx.offset++` runs (context.go:562) -/
  | post
  /-- handler number `i` running; it will perform at most `budget` further calls/actions before returning -/
  | hnd (i : Nat) (budget : Nat)
deriving DecidableEq, Repr

/-- State of a goroutine executing a chain of `s` handlers. The fields of context.go:73-74 concerned, and history. -/
structure State where
  s       : Nat                -- len(ctx.handlers)
  offset  : Int                -- ctx.offset
  stack   : List Frame
  started : List Nat := []     -- history: handlers started, in order
  aborted : Bool := false      -- history: some handler called Abort
  panicked : Bool := false     -- history: a handler panicked
deriving DecidableEq, Repr

/-- The call `ctx.Next()` made by handleMiddleware et al. on a fresh context (`offset = -1`, tcpx.go:884, 941, 988). -/
def init (s : Nat) : State := { s := s, offset := -1 + 1, stack := [.loop] }

/-- One step. context.go:559-569, and what handlers do. -/
inductive Step : State → State → Prop where
  /-- context.go:562-564: `offset < s`, not aborted: call the handler `ctx.handlers[offset]` (the offset of a reachable
  state is never negative, `Chain.offset_nonneg`) -/
  | start (st : State) (K : List Frame) (n : Nat)
      (hs : st.stack = .loop :: K) (h1 : st.offset < st.s) (h2 : ¬ st.offset ≥ ABORT) :
      Step st { st with stack := .hnd st.offset.toNat n :: .post :: K, started := st.started ++ [st.offset.toNat] }
  /-- context.go:565-567: aborted: `return` -/
  | abortReturn (st : State) (K : List Frame)
      (hs : st.stack = .loop :: K) (h1 : st.offset < st.s) (h2 : st.offset ≥ ABORT) :
      Step st { st with stack := K }
  /-- context.go:562: loop condition false, `Next` returns -/
  | loopEnd (st : State) (K : List Frame) (hs : st.stack = .loop :: K) (h1 : ¬ st.offset < st.s) :
      Step st { st with stack := K }
  /-- context.go:562: post statement `ctx.offset++` -/
  | postInc (st : State) (K : List Frame) (hs : st.stack = .post :: K) :
      Step st { st with offset := st.offset + 1, stack := .loop :: K }
  /-- a handler calls `ctx.Next()` (context.go:559-561) -/
  | next (st : State) (K : List Frame) (i n : Nat) (hs : st.stack = .hnd i (n+1) :: K) :
      Step st { st with offset := st.offset + 1, stack := .loop :: .hnd i n :: K }
  /-- a handler calls `ctx.Abort()` (context.go:552-554) -/
  | abort (st : State) (K : List Frame) (i n : Nat) (hs : st.stack = .hnd i (n+1) :: K) :
      Step st { st with offset := ABORT, stack := .hnd i n :: K, aborted := true }
  /-- a handler does anything else -/
  | work (st : State) (K : List Frame) (i n : Nat) (hs : st.stack = .hnd i (n+1) :: K) :
      Step st { st with stack := .hnd i n :: K }
  /-- a handler returns -/
  | ret (st : State) (K : List Frame) (i n : Nat) (hs : st.stack = .hnd i n :: K) :
      Step st { st with stack := K }
  /-- a handler panics: the stack is unwound (no recover in the chain) -/
  | panic (st : State) (K : List Frame) (i n : Nat) (hs : st.stack = .hnd i n :: K) :
      Step st { st with stack := [], panicked := true }

/-- Reachable in any number of steps. No counterpart in the code. -/
inductive Steps : State → State → Prop where
  | refl (a : State) : Steps a a
  | tail {a b c : State} (h : Steps a b) (hs : Step b c) : Steps a c

theorem Steps.trans {a b c : State} (h1 : Steps a b) (h2 : Steps b c) : Steps a c := by
  induction h2 with
  | refl => exact h1
  | tail _ hs ih => exact .tail ih hs

/-! ## A piped group: several chains run one after another by one goroutine (tcpx.go:994-999) -/

/-- `todo` are the lengths of the chains of the messages not yet begun; `cur` is the chain of message `idx`;
`log` lists (message index, handler index) in start order; a panic ends the goroutine. The loop of tcpx.go:994-999. -/
structure PState where
  idx  : Nat
  cur  : State
  todo : List Nat
  log  : List (Nat × Nat) := []     -- starts of finished messages' handlers (message, handler)
deriving DecidableEq, Repr

/-- All handler starts so far. No counterpart in the code: history. -/
def PState.starts (p : PState) : List (Nat × Nat) := p.log ++ p.cur.started.map (fun i => (p.idx, i))

/-- `handlePipe` on a non-empty group. tcpx.go:994. -/
def pinit (s : Nat) (todo : List Nat) : PState := { idx := 0, cur := init s, todo := todo }

/-- One step of `handlePipe`. tcpx.go:994-999. -/
inductive PStep : PState → PState → Prop where
  /-- a step inside `handleMiddleware(ctxs[i], tcpx)` -/
  | inner (p : PState) (c : State) (h : Step p.cur c) : PStep p { p with cur := c }
  /-- tcpx.go:996: next iteration, only after the previous `handleMiddleware` returned normally -/
  | advance (p : PState) (s : Nat) (rest : List Nat) (h : p.cur.stack = []) (hp : p.cur.panicked = false)
      (ht : p.todo = s :: rest) :
      PStep p { idx := p.idx + 1, cur := init s, todo := rest, log := p.starts }

/-- No counterpart in the code: reachable in any number of steps. -/
inductive PSteps : PState → PState → Prop where
  | refl (a : PState) : PSteps a a
  | tail {a b c : PState} (h : PSteps a b) (hs : PStep b c) : PSteps a c

end Tcpx.Chain
