import Verif.Spec.Routing
/-!
# Model of the places shown in messages about refused registrations (anchor.go, routeInfo.go, url-mux.go)

`Model/Mux` leaves out the source locations that `Use`, `UnUse` and `AddURLPatternHandler` write down; here they are kept beside it.  A
place is what `runtime.Caller` gives for the caller of the API function, formatted `file:line`.
-/
namespace Tcpx.Where

/-- anchor.go:29-32 `AnchorMiddlewareInfo`. -/
structure Info where
  whereUse : List String := []
  whereUnUse : List String := []
deriving DecidableEq, Repr

/-- A server with the `info` of its anchors, by key. mux.go:43, anchor.go:42. -/
structure WSrv where
  srv : Srv := .new
  info : GoMap String Info := []
deriving DecidableEq, Repr

/-- A call that returns, or panics with a text. No counterpart in the code: the Go language, e.g. tcpx.go:287. -/
inductive Outcome where
  | returned
  | panicked (text : String)
deriving DecidableEq, Repr

/-- anchor.go:71-77 `mergeUse`. -/
def Info.mergeUse (i : Info) (place : String) : Info := { i with whereUse := i.whereUse ++ [place] }

/-- anchor.go:79-85 `mergeUnUse`. -/
def Info.mergeUnUse (i : Info) (place : String) : Info := { i with whereUnUse := i.whereUnUse ++ [place] }

/-- anchor.go:87-95 `FormatPath`. -/
def Info.formatPath (i : Info) : String :=
  "\n".intercalate (["------------------- Use -----------------------"] ++ i.whereUse ++
    ["------------------- UnUse ---------------------"] ++ i.whereUnUse)

/-- tcpx.go:281-291, one pair of `Use` called at `place`, with anchor.go:45-56 `callUse`. -/
def useOne (w : WSrv) (place k : String) (f : H) : WSrv × Outcome :=
  match w.srv.mux.anchorMap.get? k with
  | some a =>
    if a.ends.length < a.starts.length then
      ({ w with srv := (w.srv.useOne k f).st }, .panicked ("can't Use(" ++ k ++
        ", handler) more than twice when the first anchor middleware has not called UnUse(" ++ k ++ ") yet, they're at:\n" ++
        ((w.info.get? k).getD {}).formatPath))
    else ({ srv := (w.srv.useOne k f).st, info := w.info.set k (((w.info.get? k).getD {}).mergeUse place) }, .returned)
  | none => ({ srv := (w.srv.useOne k f).st, info := w.info.set k (Info.mergeUse {} place) }, .returned)

/-- tcpx.go:310-314, one key of `UnUse` called at `place`, with anchor.go:58-69 `callUnUse`. -/
def unUseOne (w : WSrv) (place k : String) : WSrv × Outcome :=
  match w.srv.mux.anchorMap.get? k with
  | none => ({ w with srv := (w.srv.unUseOne k).st }, .panicked ("middlewareKey '" ++ k ++ "' not found in mux.MiddlewareAnchorMap"))
  | some a =>
    if a.ends.length ≥ a.starts.length then
      ({ w with srv := (w.srv.unUseOne k).st }, .panicked ("can't UnUse(" ++ k ++
        ") when call UnUse times is bigger than call Use, they're at :\n" ++ ((w.info.get? k).getD {}).formatPath))
    else ({ srv := (w.srv.unUseOne k).st, info := w.info.set k (((w.info.get? k).getD {}).mergeUnUse place) }, .returned)

/-- A registration at a place: a pair of a `Use`, a key of an `UnUse`, or another event; of the panics of the others only that they
panic is kept. tcpx.go:257-344. -/
def step (w : WSrv) (place : String) : RegEv → WSrv × Outcome
  | .use k f => useOne w place k f
  | .unUse k => unUseOne w place k
  | e => ({ w with srv := (e.step w.srv).st }, if (e.step w.srv).panicked then .panicked "" else .returned)

/-- What has been called where, and how it ended. No counterpart in the code: a record of what the user sees. -/
structure Done where
  place : String
  call : RegEv
  outcome : Outcome
deriving DecidableEq, Repr

/-- A program making the calls in order, recovering from panics; its record, oldest first. No counterpart in the code: a program of the
user. -/
def runAll : WSrv → List (String × RegEv) → WSrv × List Done
  | w, [] => (w, [])
  | w, (p, c) :: cs =>
    let r := runAll (step w p c).1 cs
    (r.1, ⟨p, c, (step w p c).2⟩ :: r.2)

/-! ## url-mux.go and routeInfo.go -/

/-- routeInfo.go:5-9 `Route`. -/
structure Route where
  urlPattern : String
  messageId : Int := 0
  whereis : List String
deriving DecidableEq, Repr

/-- routeInfo.go:11-16 `Merge`. -/
def Route.merge (r r2 : Route) : Route :=
  if r.urlPattern = r2.urlPattern ∨ r.messageId = r2.messageId then { r with whereis := r.whereis ++ r2.whereis } else r

/-- routeInfo.go:17-19 `Location`. -/
def Route.location (r : Route) : String := "\n".intercalate r.whereis

/-- url-mux.go:20-30 `URLMux`, used on its own (`NewURLMux`, url-mux.go:32-38). -/
structure URLMux where
  urlPatternMux : GoMap String (List H) := []
  readOnly : Bool := false
  urlRouteInfo : GoMap String Route := []
  panicOnExistRouting : Bool := false
deriving DecidableEq, Repr

/-- A call of a `URLMux` on its own. url-mux.go:41, 73, 83. -/
inductive UrlCall where
  | add (urlPattern : String) (handlers : List H)
  | panicOnExistRouter
  | lockWrite
deriving DecidableEq, Repr

/-- How it ends: returns nil, returns an error, panics with a text. url-mux.go:41-80. -/
inductive UrlOutcome where
  | returned
  | refused
  | panicked (text : String)
deriving DecidableEq, Repr

/-- url-mux.go:41-70 `AddURLPatternHandler` called at `place`. -/
def URLMux.add (m : URLMux) (place urlPattern : String) (handlers : List H) : URLMux × UrlOutcome :=
  if m.readOnly then (m, .refused)
  else
    let routeInfo : Route := { urlPattern := urlPattern, whereis := [place] }
    let store (m : URLMux) : URLMux × UrlOutcome :=
      match m.urlRouteInfo.get? urlPattern with
      | none => ({ m with urlRouteInfo := m.urlRouteInfo.set urlPattern routeInfo }, .returned)
      | some r => ({ m with urlRouteInfo := m.urlRouteInfo.set urlPattern (r.merge routeInfo) }, .returned)
    match m.urlPatternMux.get? urlPattern with
    | some h =>
      if m.panicOnExistRouting then
        (m, .panicked ("handler conflicts on the same url-pattern: \n" ++ place ++ "\nThe existed route-info is at:\n" ++
          ((m.urlRouteInfo.get? urlPattern).getD { urlPattern := "", whereis := [] }).location))
      else store { m with urlPatternMux := m.urlPatternMux.set urlPattern (h ++ handlers) }
    | none => store { m with urlPatternMux := m.urlPatternMux.set urlPattern handlers }

/-- The call at `place`. url-mux.go:41, 73-80 `PanicOnExistRouter`, 83-85 `LockWrite`. -/
def UrlCall.run (m : URLMux) (place : String) : UrlCall → URLMux × UrlOutcome
  | .add p hs => m.add place p hs
  | .panicOnExistRouter => if m.readOnly then (m, .refused) else ({ m with panicOnExistRouting := true }, .returned)
  | .lockWrite => ({ m with readOnly := true }, .returned)

/-- What has been called where, and how it ended. No counterpart in the code: a record of what the user sees. -/
structure UrlDone where
  place : String
  call : UrlCall
  outcome : UrlOutcome
deriving DecidableEq, Repr

/-- A program making the calls in order, recovering from panics; its record, oldest first. No counterpart in the code: a program of the
user. -/
def runUrl : URLMux → List (String × UrlCall) → URLMux × List UrlDone
  | m, [] => (m, [])
  | m, (p, c) :: cs =>
    let r := runUrl (c.run m p).1 cs
    (r.1, ⟨p, c, (c.run m p).2⟩ :: r.2)

end Tcpx.Where
