import Verif.Spec.Register
/-!
# Specification vocabulary: since when, and whether, a middleware is in use
-/
namespace Tcpx.Spec
open Tcpx Register

/-- The state of a key: never given to `Use`; in use with this middleware, for the first time; no more in use; or given to `Use` again
after that. -/
inductive Period where
  | never
  | on (f : H)
  | off
  | again
deriving DecidableEq, Repr

/-- `Use(k, f)`; it panics if the key is in use. -/
def Period.use (f : H) : Period → Period
  | .never => .on f
  | .on g => .on g
  | .off => .again
  | .again => .again

/-- `UnUse(k)`; it panics if the key is not in use. -/
def Period.unUse : Period → Period
  | .never => .never
  | .on _ => .off
  | .off => .off
  | .again => .again

/-- What a call makes of the state of key `k`. -/
def Period.after (k : String) (p : Period) : Call → Period
  | .use k' f => if k' = k then p.use f else p
  | .unUse k' => if k' = k then p.unUse else p
  | _ => p

/-- The state of a key after a list of calls (oldest first) that began in state `p`. -/
def period (k : String) (p : Period) (cs : List Call) : Period := cs.foldl (Period.after k) p

/-- The state of a key after a history of registrations (newest first). -/
def periodAt (k : String) : List RegEv → Period
  | [] => .never
  | .use k' f :: h => if k' = k then (periodAt k h).use f else periodAt k h
  | .unUse k' :: h => if k' = k then (periodAt k h).unUse else periodAt k h
  | _ :: h => periodAt k h

/-- The call is `Use` or `UnUse` of this key. -/
def names (k : String) : Call → Bool
  | .use k' _ => k' = k
  | .unUse k' => k' = k
  | _ => false

/-- The call is `RewriteHeartBeatHandler`. -/
def rewritesHb : Call → Bool
  | .rewriteHeartBeat _ _ => true
  | _ => false

/-- The handler of the heartbeat is not rewritten, or the id is not that of the heartbeat and is not made it. -/
def NotRewritten (h : List RegEv) (id : Int32) (progs : List (List Call)) : Prop :=
  (∀ p ∈ progs, ∀ c ∈ p, rewritesHb c = false) ∨ ((heartbeatCfg h).2 ≠ id ∧ ∀ p ∈ progs, ∀ c ∈ p, ∀ f, c ≠ .rewriteHeartBeat id f)

/-- The middleware is given to `Use` with this key, in the history or in a program. -/
def GivenTo (h : List RegEv) (progs : List (List Call)) (k : String) (f : H) : Prop := RegEv.use k f ∈ h ∨ ∃ p ∈ progs, .use k f ∈ p

/-- What is registered in state `p` of key `k` is to run the middleware of the key if it is in use, and not to run it (unless it is given to
`Use` with another key too) if it is not.  If the key is in use again nothing is asked. -/
def Guarded (h : List RegEv) (progs : List (List Call)) (k : String) (as : List H) : Period → Prop
  | .on f => f ∈ as
  | .again => True
  | _ => ∀ f, (∀ k', GivenTo h progs k' f → k' = k) → f ∉ as

end Tcpx.Spec
