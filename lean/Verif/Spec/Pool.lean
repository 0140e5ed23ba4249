import Verif.Model.Pool
/-!
# Specification vocabulary: connections, pools and histories of calls
-/
namespace Tcpx.Spec
open Tcpx

/-- Calls begun and ended, as seen from outside. -/
inductive HEv where
  | inv (tid : Nat) (c : PCall)
  | ret (tid : Nat) (c : PCall) (r : PRes)
deriving DecidableEq, Repr

/-- The history in an execution (newest first). -/
def history (tr : List PEvent) : List HEv :=
  tr.filterMap fun e => match e.action with
    | .inv c => some (.inv e.tid c)
    | .ret c r => some (.ret e.tid c r)
    | _ => none

/-- `CloseConn` on `c` has returned to some caller. -/
def Closed (tr : List PEvent) (c : Nat) : Prop := ∃ tid r, .ret tid (.close c) r ∈ history tr

/-- Storing something that is not a string as user name, which only `SetCtxPerRequest` can do. -/
def ForgesName : PCall → Prop
  | .setReq _ v => ∀ s, v ≠ .str s
  | _ => False

/-! ## The atomic pool -/

/-- Who is online as `u` in pool `p` after these pool operations (newest first): the connection of the latest `Online(u, .)` not
followed by an `Offline(u)` or `Delete(u)`. -/
def current (p : Nat) (u : String) : List PCall → Option Nat
  | [] => none
  | .poolOnline p' u' c :: h => if p' = p ∧ u' = u then some c else current p u h
  | .poolOffline p' u' :: h => if p' = p ∧ u' = u then none else current p u h
  | .poolDelete p' u' :: h => if p' = p ∧ u' = u then none else current p u h
  | _ :: h => current p u h

/-- What a goroutine is doing at an object whose calls take effect in one instant. -/
inductive AThread where
  | idle
  | called (c : PCall)
  | done (c : PCall) (r : PRes)
deriving DecidableEq, Repr

/-- The calls that have taken effect (newest first) and the goroutines. -/
structure Atomic where
  hist : List PCall
  threads : Nat → AThread

/-- What a pool call returns if it takes effect now. -/
def answer (hist : List PCall) : PCall → PRes
  | .poolGet p u => .conn (current p u hist)
  | _ => .unit

/-- Executions of the atomic pool and their histories (newest first): every call takes effect once, at some instant between its
beginning and its end. -/
inductive Atomic.Runs : List HEv → Atomic → Prop where
  | start : Atomic.Runs [] ⟨[], fun _ => .idle⟩
  | inv {h a} (i : Nat) (c : PCall) : Atomic.Runs h a → a.threads i = .idle →
      Atomic.Runs (.inv i c :: h) { a with threads := fun j => if j = i then .called c else a.threads j }
  | effect {h a} (i : Nat) (c : PCall) : Atomic.Runs h a → a.threads i = .called c →
      Atomic.Runs h ⟨c :: a.hist, fun j => if j = i then .done c (answer a.hist c) else a.threads j⟩
  | ret {h a} (i : Nat) (c : PCall) (r : PRes) : Atomic.Runs h a → a.threads i = .done c r →
      Atomic.Runs (.ret i c r :: h) { a with threads := fun j => if j = i then .idle else a.threads j }

/-- Calls on pools. -/
def IsPoolCall : PCall → Prop
  | .poolOnline _ _ _ => True
  | .poolGet _ _ => True
  | .poolDelete _ _ => True
  | .poolOffline _ _ => True
  | _ => False

/-! ## Closing and the pool -/

/-- Since this call of `CloseConn` on `c` by goroutine `tid` was begun no pool entry for `c` has been made. -/
def NoEntrySinceClose (tid c : Nat) (tr : List PEvent) : Prop :=
  ∃ post pre v, tr = post ++ ⟨tid, .inv (.close c), v⟩ :: pre ∧ ∀ e ∈ post, ∀ q u, e.action ≠ .put q u c

/-- A call of `CloseConn` on `c` was begun and has returned, and no pool entry for `c` was made after it was begun. -/
def CleanlyClosed (c : Nat) (tr : List PEvent) : Prop :=
  ∃ post pre tid v r v', tr = post ++ ⟨tid, .inv (.close c), v⟩ :: pre ∧ ⟨tid, .ret (.close c) r, v'⟩ ∈ post ∧
    ∀ e ∈ post, ∀ q u, e.action ≠ .put q u c

/-- Calls by which connection `c` is only ever known as `u`, through its own methods. -/
def OnlyKnownAs (c : Nat) (u : String) : PCall → Prop
  | .poolOnline _ _ x => x ≠ c
  | .online x u' => x = c → u' = u
  | .setUsername x u' => x = c → u' = u
  | .setReq x _ => x ≠ c
  | _ => True

/-- Calls that do not concern the entry `u` of pool `p`, which belongs to connection `c`: nobody else uses that name, nobody removes
it, `c` itself is not closed or logged out.  Any other connection may be closed. -/
def KeepsOff (R : Nat → Option Nat) (p : Nat) (u : String) (c : Nat) : PCall → Prop
  | .poolOnline q u' x => q = p → u' = u → x = c
  | .poolDelete q u' => ¬ (q = p ∧ u' = u)
  | .poolOffline q u' => ¬ (q = p ∧ u' = u)
  | .online x u' => x ≠ c → R x = some p → u' ≠ u
  | .setUsername x u' => x ≠ c → R x = some p → u' ≠ u
  | .setReq x v => x ≠ c → R x = some p → v ≠ .str u
  | .offline x => x ≠ c
  | .close x => x ≠ c
  | _ => True

/-- The connection put online last as `u` in pool `p` and not removed since, by the entries made and removed (newest first). -/
def latestEntry (p : Nat) (u : String) : List PEvent → Option Nat
  | [] => none
  | e :: tr =>
    match e.action with
    | .put p' u' c => if p' = p ∧ u' = u then some c else latestEntry p u tr
    | .del p' u' => if p' = p ∧ u' = u then none else latestEntry p u tr
    | .delHeld p' u' => if p' = p ∧ u' = u then none else latestEntry p u tr
    | _ => latestEntry p u tr

end Tcpx.Spec
