import Verif.Model.Mux
/-!
# Specification vocabulary: registration histories

A history is the list of elementary registration events, NEWEST FIRST: one event per key of `Use`/`UnUse`, one per
`AddHandler`/`Any`, and the field assignments made by the heartbeat and auth setters.  `Lemmas/Mux.lean` shows that
every sequence of API calls is such a history (`runOps_history`).  The functions below say, from the history alone,
what is in use, what was registered, and what should apply; they do not look at the mux data structures.
-/
namespace Tcpx

/-- Elementary registration events. -/
inductive RegEv where
  | useGlobal (ms : List H)
  | use (k : String) (f : H)
  | unUse (k : String)
  | addHandler (id : Int32) (hs : List H)
  | any (p : String) (hs : List H)
  | setAllowAdd (b : Bool)
  | setOnMessage (o : Option H)
  | setHeartBeat (on through : Bool) (id : Int32)
  | setHbId (id : Int32)
  | setAuth (on through : Bool) (id : Int32)
  | removeHandler (id : Int32)
deriving DecidableEq, Repr

/-- What the code does for one event. -/
def RegEv.step (s : Srv) : RegEv → Out Srv
  | .useGlobal ms => s.useGlobal ms
  | .use k f => s.useOne k f
  | .unUse k => s.unUseOne k
  | .addHandler id hs => s.addHandler id hs
  | .any p hs => s.any p hs
  | .setAllowAdd b => .ret { s with mux := { s.mux with allowAdd := b } }
  | .setOnMessage o => .ret { s with onMessage := o }
  | .setHeartBeat on th id => .ret (s.setHeartBeat on th id)
  | .setHbId id => .ret { s with hbId := id }
  | .setAuth on th id => .ret (s.setAuth on th id)
  | .removeHandler id => s.removeHandler id

/-- The server after a history (newest event first), panics being recovered. -/
def runHist : List RegEv → Srv
  | [] => Srv.new
  | e :: h => (e.step (runHist h)).st

/-- The call made after history `h` panicked. -/
def panics (h : List RegEv) (e : RegEv) : Prop := (e.step (runHist h)).panicked = true

instance (h e) : Decidable (panics h e) := inferInstanceAs (Decidable (_ = true))

namespace Spec

/-- No call of the history panicked. -/
def Clean : List RegEv → Prop
  | [] => True
  | e :: h => Clean h ∧ ¬ panics h e

/-- Key `k` is in use: the latest `Use`/`UnUse` event about `k` is a `Use`. -/
def inUse (k : String) : List RegEv → Bool
  | [] => false
  | .use k' _ :: h => if k' = k then true else inUse k h
  | .unUse k' :: h => if k' = k then false else inUse k h
  | _ :: h => inUse k h

/-- Some period of use of `k` has been ended by an `UnUse`. -/
def everEnded (k : String) : List RegEv → Bool
  | [] => false
  | .unUse k' :: h => (decide (k' = k) && inUse k h) || everEnded k h
  | _ :: h => everEnded k h

/-- The keys ever used, in order of first `Use`, with the middleware given at the first `Use`. -/
def firstUses : List RegEv → List (String × H)
  | [] => []
  | .use k f :: h => if k ∈ (firstUses h).map (·.1) then firstUses h else firstUses h ++ [(k, f)]
  | _ :: h => firstUses h

/-- All global middlewares in registration order. -/
def globals : List RegEv → List H
  | [] => []
  | .useGlobal ms :: h => globals h ++ ms
  | _ :: h => globals h

/-- The registration of `id` in force: the handlers given to the latest `AddHandler(id, ...)` that returned normally and was
not undone since, with the history before it. -/
def registration (id : Int32) : List RegEv → Option (List RegEv × List H)
  | [] => none
  | .addHandler id' hs :: h => if id' = id ∧ ¬ panics h (.addHandler id' hs) then some (h, hs) else registration id h
  | .removeHandler id' :: h => if id' = id then none else registration id h
  | _ :: h => registration id h

/-- The registration of URL pattern `p`: the first `Any(p, ...)` that returned normally. -/
def urlRegistration (p : String) : List RegEv → Option (List RegEv × List H)
  | [] => none
  | .any p' hs :: h => if p' = p ∧ ¬ panics h (.any p' hs) then some (h, hs) else urlRegistration p h
  | _ :: h => urlRegistration p h

/-- The events that came after the history `pre` (newest first). -/
def since (pre hist : List RegEv) : List RegEv := hist.take (hist.length - pre.length)

/-- The middlewares whose key was in use at history `pre`, in order of first use within `hist`. -/
def inUseAt (hist pre : List RegEv) : List H :=
  ((firstUses hist).filter (fun e => inUse e.1 pre)).map (·.2)

/-- The last heartbeat configuration: (through middleware, message id). -/
def heartbeatCfg : List RegEv → Bool × Int32
  | [] => (false, 0)
  | .setHeartBeat _ th id :: _ => (th, id)
  | .setHbId id :: h => ((heartbeatCfg h).1, id)
  | _ :: h => heartbeatCfg h

/-- The last auth configuration: (through middleware, message id). -/
def authCfg : List RegEv → Bool × Int32
  | [] => (false, 0)
  | .setAuth _ th id :: _ => (th, id)
  | _ :: h => authCfg h

/-- The last `OnMessage` set. -/
def onMessage : List RegEv → Option H
  | [] => none
  | .setOnMessage o :: _ => o
  | _ :: h => onMessage h

/-- The mux is locked. -/
def locked : List RegEv → Bool
  | [] => false
  | .setAllowAdd b :: _ => !b
  | _ :: h => locked h

end Spec
end Tcpx
