import Verif.Model.Chain
/-!
# What handlers of a chain do, in order

The events of the executions of `Model/Chain`: history added to the steps of that model, for statements about the order of events.
-/
namespace Tcpx.Chain

/-- Events of a chain. No counterpart in the code: history. -/
inductive CEv where
  | start (i : Nat)      -- handler `i` is called (context.go:564)
  | act (i : Nat)        -- it does something else than the following
  | next (i : Nat)       -- it calls `Next`
  | back (i : Nat)       -- that call returns
  | abort (i : Nat)      -- it calls `Abort`, for the first time in this chain
  | finish (i : Nat)     -- it returns
  | panicked (i : Nat)   -- it panics
  | done                 -- the outermost `Next` returns
deriving DecidableEq, Repr

/-- A call of `Next` returns to the frame below it. context.go:566, 569. -/
def backOf : List Frame → List CEv
  | .hnd i _ :: _ => [.back i]
  | _ => [.done]

/-- What happens in the step from `a` to `b`. No counterpart in the code: names for the steps of `Step`. -/
def evOf (a b : State) : List CEv :=
  match a.stack with
  | [] => []
  | .post :: _ => []
  | .loop :: K => match b.stack with
    | .hnd _ _ :: .post :: _ => if b.started.length = a.started.length then backOf K else [.start a.offset.toNat]
    | _ => backOf K
  | .hnd i _ :: _ => match b.stack with
    | .loop :: _ => [.next i]
    | .hnd _ _ :: _ => if b.aborted && !a.aborted then [.abort i] else [.act i]
    | _ => if b.panicked then [.panicked i] else [.finish i]

/-- Executions with their events. No counterpart in the code. -/
inductive Runs : State → List CEv → State → Prop where
  | refl (a : State) : Runs a [] a
  | tail {a b c : State} {es : List CEv} (h : Runs a es b) (hs : Step b c) : Runs a (es ++ evOf b c) c

/-- Executions of a piped group with their events, each with the number of its message. No counterpart in the code. -/
inductive PRuns : PState → List (Nat × CEv) → PState → Prop where
  | refl (a : PState) : PRuns a [] a
  | inner {a b : PState} {es : List (Nat × CEv)} {c : State} (h : PRuns a es b) (hs : Step b.cur c) :
      PRuns a (es ++ (evOf b.cur c).map (fun e => (b.idx, e))) { b with cur := c }
  | advance {a b c : PState} {es : List (Nat × CEv)} (h : PRuns a es b) (hs : PStep b c) (hi : c.idx = b.idx + 1) : PRuns a es c

end Tcpx.Chain
