import Verif.Model.ConnRun
/-! # Vocabulary for C108: a message handled to the end -/
namespace Tcpx.Spec
open Tcpx Chain

/-- What happened for message `m` of the `k`-th goroutine. -/
def ofMessage (k m : Nat) (l : List CREv) : List CEv :=
  l.filterMap fun e => match e with | .task k' m' e => if k' = k ∧ m' = m then some e else none | _ => none

/-- The handlers called, in order. -/
def calls (es : List CEv) : List Nat := es.filterMap fun e => match e with | .start i => some i | _ => none

/-- A chain of `n` handlers has been run to its end: the handlers called are the first ones, in order and each once, at least one of them if
there are any, and all (of the first 2019, see C39) if none has aborted; and they have returned. -/
def HandledOnce (n : Nat) (es : List CEv) : Prop :=
  ∃ j, j ≤ n ∧ calls es = List.range j ∧ (∀ i, i < j → CEv.finish i ∈ es) ∧ (0 < n → 0 < j) ∧ ((∀ i, CEv.abort i ∉ es) → j = min n 2019)

/-- Nothing can happen any more. -/
def Ended (len : List UInt8 → Option Nat) (s : CRState) : Prop := ∀ s', ¬ CRStep len s s'

end Tcpx.Spec
