import Verif.Model.Chain
/-!
# The handler chain with calls of `Reset` and `ResetOffset` by handlers (context.go:551-590)

`Model/Chain` with two more things a handler may do.  `Reset` empties `ctx.handlers`, while a running `Next` goes on with the length it
read at its beginning (context.go:561), so the length is now a part of each frame, and the index of context.go:564 may be out of range.
-/
namespace Tcpx.Chain

/-- Frames of the call stack; `s` is the variable of context.go:561. -/
inductive RFrame where
  | loop (s : Nat)
  | post (s : Nat)
  | hnd (i : Nat) (budget : Nat)
deriving DecidableEq, Repr

/-- As `Chain.State`, where the length of the chain can change. The fields of context.go:73-74, and history. -/
structure RState where
  len     : Nat                -- len(ctx.handlers)
  offset  : Int                -- ctx.offset
  stack   : List RFrame
  started : List Nat := []     -- handlers started, in order
  aborted : Bool := false      -- some handler called `Abort`
  panicked : Bool := false     -- a handler panicked
  outOfRange : Bool := false   -- the index of context.go:564 was out of range, a run-time panic
  reset   : Bool := false      -- some handler called `Reset` or `ResetOffset`
deriving DecidableEq, Repr

/-- The call of `ctx.Next()` on a fresh context. context.go:559. -/
def rinit (s : Nat) : RState := { len := s, offset := -1 + 1, stack := [.loop s] }

/-- One step.  The first nine are those of `Chain.Step`. context.go:559-582. -/
inductive RStep : RState → RState → Prop where
  | start (st : RState) (K : List RFrame) (s n : Nat)
      (hs : st.stack = .loop s :: K) (h1 : st.offset < s) (h2 : ¬ st.offset ≥ ABORT) (h3 : 0 ≤ st.offset ∧ st.offset < st.len) :
      RStep st { st with stack := .hnd st.offset.toNat n :: .post s :: K, started := st.started ++ [st.offset.toNat] }
  | abortReturn (st : RState) (K : List RFrame) (s : Nat)
      (hs : st.stack = .loop s :: K) (h1 : st.offset < s) (h2 : st.offset ≥ ABORT) :
      RStep st { st with stack := K }
  | loopEnd (st : RState) (K : List RFrame) (s : Nat) (hs : st.stack = .loop s :: K) (h1 : ¬ st.offset < s) :
      RStep st { st with stack := K }
  | postInc (st : RState) (K : List RFrame) (s : Nat) (hs : st.stack = .post s :: K) :
      RStep st { st with offset := st.offset + 1, stack := .loop s :: K }
  | next (st : RState) (K : List RFrame) (i n : Nat) (hs : st.stack = .hnd i (n+1) :: K) :
      RStep st { st with offset := st.offset + 1, stack := .loop st.len :: .hnd i n :: K }
  | abort (st : RState) (K : List RFrame) (i n : Nat) (hs : st.stack = .hnd i (n+1) :: K) :
      RStep st { st with offset := ABORT, stack := .hnd i n :: K, aborted := true }
  | work (st : RState) (K : List RFrame) (i n : Nat) (hs : st.stack = .hnd i (n+1) :: K) :
      RStep st { st with stack := .hnd i n :: K }
  | ret (st : RState) (K : List RFrame) (i n : Nat) (hs : st.stack = .hnd i n :: K) :
      RStep st { st with stack := K }
  | panic (st : RState) (K : List RFrame) (i n : Nat) (hs : st.stack = .hnd i n :: K) :
      RStep st { st with stack := [], panicked := true }
  /-- context.go:564 with an index that is out of range -/
  | outOfRange (st : RState) (K : List RFrame) (s : Nat)
      (hs : st.stack = .loop s :: K) (h1 : st.offset < s) (h2 : ¬ st.offset ≥ ABORT) (h3 : ¬ (0 ≤ st.offset ∧ st.offset < st.len)) :
      RStep st { st with stack := [], outOfRange := true }
  /-- a handler calls `ctx.ResetOffset()` (context.go:570-572) -/
  | resetOffset (st : RState) (K : List RFrame) (i n : Nat) (hs : st.stack = .hnd i (n+1) :: K) :
      RStep st { st with offset := -1, stack := .hnd i n :: K, reset := true }
  /-- a handler calls `ctx.Reset()` (context.go:574-582) -/
  | reset (st : RState) (K : List RFrame) (i n : Nat) (hs : st.stack = .hnd i (n+1) :: K) :
      RStep st { st with len := 0, offset := -1, stack := .hnd i n :: K, reset := true }

/-- No counterpart in the code: reachable in any number of steps. -/
inductive RSteps : RState → RState → Prop where
  | refl (a : RState) : RSteps a a
  | tail {a b c : RState} (h : RSteps a b) (hs : RStep b c) : RSteps a c

end Tcpx.Chain
