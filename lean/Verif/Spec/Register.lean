import Verif.Model.Register
import Verif.Spec.Routing
/-!
# Specification vocabulary: registration and dispatch by several goroutines
-/
namespace Tcpx.Spec
open Tcpx Register

/-- The step goroutine `i` takes next, if it is in a call. -/
def nextStep (y : Sys) (i : Nat) : Option Act := ((y.gors[i]?).bind (·.cur)).bind (·.2.head?)

/-- Two goroutines are about to access the same memory, one of them writing: nothing orders the two accesses.  If it is a map, the Go
runtime ends the process when it notices. -/
def RegClash (y : Sys) : Prop :=
  ∃ i j a b x w, i ≠ j ∧ nextStep y i = some a ∧ nextStep y j = some b ∧ (x, true) ∈ a.access ∧ (x, w) ∈ b.access

/-- Whether two servers have the same in the field `f`. Specification. -/
def sameIn (s t : Srv) : Fld → Prop
  | .handlers => s.mux.handlers = t.mux.handlers
  | .allowAdd => s.mux.allowAdd = t.mux.allowAdd
  | .globals => s.mux.globals = t.mux.globals
  | .selfMw => s.mux.selfMw = t.mux.selfMw
  | .anchors => s.mux.anchors = t.mux.anchors
  | .anchorMap => s.mux.anchorMap = t.mux.anchorMap
  | .idAnchors => s.mux.idAnchors = t.mux.idAnchors
  | .urlMux => s.mux.urlMux = t.mux.urlMux
  | .urlAnchors => s.mux.urlAnchors = t.mux.urlAnchors
  | .cfg => ({ s with mux := {} } : Srv) = { t with mux := {} }

/-- All calls are over. -/
def AllDone (y : Sys) : Prop := ∀ g ∈ y.gors, g.cur = none ∧ g.todo = []

/-- The number of steps of a schedule in which something happens: the goroutine neither waits for the mutex nor has ended. -/
def moves (y : Sys) : List Nat → Nat
  | [] => 0
  | i :: t => (if y.step i = y then 0 else 1) + moves (y.step i) t

/-- What a call does to the server, and how it ends, if nothing else happens at the same time (`Model/Mux`). -/
def alone (s : Srv) : Call → Srv × Outcome
  | .addHandler id hs => let o := s.addHandler id hs; (o.st, if o.panicked then .panicked else .returned)
  | .useGlobal ms => let o := s.useGlobal ms; (o.st, if o.panicked then .panicked else .returned)
  | .use k f => let o := s.useOne k f; (o.st, if o.panicked then .panicked else .returned)
  | .unUse k => let o := s.unUseOne k; (o.st, if o.panicked then .panicked else .returned)
  | .any p hs => let o := s.any p hs; (o.st, if o.panicked then .panicked else .returned)
  | .rewriteHeartBeat id f => let o := s.rewriteHeartBeatHandler id f; (o.st, if o.panicked then .panicked else .returned)
  | .listen => (s, if s.checkPrepare then .returned else .panicked)
  | .byId id => (s, if s.dispatchId id = .panic then .panicked else .disp (s.dispatchId id))
  | .byUrl p => (s, if s.dispatchUrl p = .panic then .panicked else .disp (s.dispatchUrl p))

/-- Calls one after another: the server they leave, and how they end (newest first). -/
def inTurn (s : Srv) : List Call → Srv × List (Call × Outcome)
  | [] => (s, [])
  | c :: cs => let r := inTurn (alone s c).1 cs; (r.1, r.2 ++ [(c, (alone s c).2)])

/-- The middlewares given to `UseGlobal` in a list of calls. -/
def givenGlobals : List Call → List H
  | [] => []
  | .useGlobal ms :: cs => ms ++ givenGlobals cs
  | _ :: cs => givenGlobals cs

/-- `l` consists of the lists `parts i`, each in its order, put together in some way. -/
def Interleaved (l : List H) (parts : Nat → List H) : Prop :=
  ∃ tags : List (Nat × H), tags.map (·.2) = l ∧ ∀ i, (tags.filter (·.1 = i)).map (·.2) = parts i

/-- The call registers a handler for this id. -/
def registersId (id : Int32) : Call → Bool
  | .addHandler id' _ => id' = id
  | _ => false

/-- The call registers handlers for this URL pattern. -/
def registersUrl (p : String) : Call → Bool
  | .any p' _ => p' = p
  | _ => false

/-- The call is neither `UnUse` nor `RewriteHeartBeatHandler`. -/
def noUnUse : Call → Bool
  | .unUse _ => false
  | .rewriteHeartBeat _ _ => false
  | _ => true

/-- The keys and middlewares given to `Use` in a list of calls. -/
def usesIn : List Call → List (String × H)
  | [] => []
  | .use k f :: cs => (k, f) :: usesIn cs
  | _ :: cs => usesIn cs

/-- Every key given to `Use` is given only once, and was not given before. -/
def FreshKeys (h : List RegEv) (progs : List (List Call)) : Prop :=
  ((progs.flatMap usesIn).map (·.1)).Nodup ∧ ∀ p ∈ progs, ∀ x ∈ usesIn p, ∀ f, RegEv.use x.1 f ∉ h

/-- `us` consists of the middlewares given to `Use` in the first `cut j` calls of each list `progs j`, each list's in its order. -/
def UsedUpTo (progs : List (List Call)) (cut : Nat → Nat) (us : List H) : Prop :=
  Interleaved us fun j => (usesIn ((progs[j]?.getD []).take (cut j))).map (·.2)

end Tcpx.Spec
