import Verif.Model.Packx
/-!
# Model of registration and dispatch (`mux.go`, `anchor.go`, `url-mux.go`, registration part of `tcpx.go`)

Handler functions are identified by a number `H`; what they do is the subject of `Model/Chain.lean`.
Registration calls may panic; the caller may recover, so every operation returns the state it leaves behind and
whether it panicked.  `indexSeed` (an `int32` counter) is a natural number: its overflow after 2^31 registrations is
not modelled.  The mutex of `Mux` is not modelled: registrations are assumed sequential, as the README requires.
`info`, `urlRouteInfo` (source locations for messages) and `panicOnExistRouting`, `readOnly` of `URLMux` (never set on the
mux of a server) are left out here and added in `Model/Where`.
-/
namespace Tcpx

/-- Identity of a `func(c *Context)`. mux.go:31. -/
abbrev H := Nat

/-- The outcome of a registration call: the state left behind, and whether the call panicked. No counterpart in the code: a record. -/
structure Out (σ : Type) where
  st : σ
  panicked : Bool
deriving DecidableEq, Repr

namespace Out
variable {σ : Type}
/-- No counterpart in the code: the call returns. -/
def ret (s : σ) : Out σ := ⟨s, false⟩
/-- No counterpart in the code: the call panics; what it did before stays. -/
def panic (s : σ) : Out σ := ⟨s, true⟩
/-- Sequencing: nothing runs after a panic. No counterpart in the code: the Go language, e.g. tcpx.go:270-292. -/
def andThen (o : Out σ) (f : σ → Out σ) : Out σ := if o.panicked then o else f o.st
end Out

/-- anchor.go:34-43 `MiddlewareAnchor`. -/
structure MAnchor where
  key : String
  mw : H
  starts : List Nat   -- AnchorStartIndexRange
  ends : List Nat     -- AnchorEndIndexRange
deriving DecidableEq, Repr

/-- mux.go:25-49 `Mux` together with url-mux.go:20-30 `URLMux`. -/
structure Mux where
  seed : Nat := 1                          -- indexSeed
  handlers : GoMap Int32 H := []           -- Handlers
  allowAdd : Bool := true                  -- AllowAdd
  globals : List H := []                   -- GlobalMiddlewares
  selfMw : GoMap Int32 (List H) := []      -- MessageIDSelfMiddleware
  anchors : List MAnchor := []             -- MiddlewareAnchors
  anchorMap : GoMap String MAnchor := []   -- MiddlewareAnchorMap
  idAnchors : GoMap Int32 Nat := []        -- MessageIDAnchorMap (the AnchorIndex)
  urlMux : GoMap String (List H) := []     -- urlMux.urlPatternMux
  urlAnchors : GoMap String Nat := []      -- urlMux.URLAnchorMap (the AnchorIndex)
deriving DecidableEq, Repr

/-- The part of tcpx.go:24-96 `TcpX` that dispatch looks at. -/
structure Srv where
  mux : Mux := {}
  onMessage : Option H := none    -- OnMessage
  hbOn : Bool := false            -- HeartBeatOn
  hbThrough : Bool := false       -- ThroughMiddleware
  hbId : Int32 := 0               -- HeartBeatMessageID
  authOn : Bool := false          -- auth
  authThrough : Bool := false     -- AuthThroughMiddleware
  authId : Int32 := 0             -- AuthMessageID
deriving DecidableEq, Repr

/-! ## anchor.go -/
namespace MAnchor

/-- anchor.go:45-56 `callUse`. -/
def callUse (a : MAnchor) (i : Nat) : Option MAnchor :=
  if a.ends.length < a.starts.length then none else some { a with starts := a.starts ++ [i] }

/-- anchor.go:58-69 `callUnUse`. -/
def callUnUse (a : MAnchor) (i : Nat) : Option MAnchor :=
  if a.ends.length ≥ a.starts.length then none else some { a with ends := a.ends ++ [i] }

/-- The loops of anchor.go:101-105 and 112-116 over `len(ends)` positions; `none` is an index out of range. -/
def scan : List Nat → List Nat → Nat → Option Bool
  | _, [], _ => some false
  | [], _ :: _, _ => none
  | s :: ss, e :: es, i => if s ≤ i ∧ e ≥ i then some true else scan ss es i

/-- anchor.go:97-120 `Contains`; `none` is a run-time panic (index out of range). -/
def contains (a : MAnchor) (i : Nat) : Option Bool :=
  if a.starts.length = a.ends.length then scan a.starts a.ends i
  else match a.starts.getLast? with
    | none => none
    | some l => if i ≥ l then some true else scan a.starts a.ends i

/-- anchor.go:122-128 `checkValidBeforeRun` (false is a panic). -/
def validBeforeRun (a : MAnchor) : Bool :=
  a.starts.length = a.ends.length || a.starts.length = a.ends.length + 1

end MAnchor

namespace Mux

/-- mux.go:98-100 `CurrentAnchorIndex`: the new seed, which is also the value returned. -/
def bump (m : Mux) : Mux := { m with seed := m.seed + 1 }

/-- mux.go:84-95 `AddHandleFunc`. -/
def addHandleFunc (m : Mux) (id : Int32) (h : H) : Out Mux :=
  if m.allowAdd = false then .panic m
  else match m.handlers.get? id with
    | some _ => .panic m
    | none => .ret { m with handlers := m.handlers.set id h }

/-- mux.go:140-156 `AddMiddlewareAnchor`. -/
def addMiddlewareAnchor (m : Mux) (a : MAnchor) : Mux :=
  match m.anchorMap.get? a.key with
  | some _ => m
  | none => { m with anchorMap := m.anchorMap.set a.key a, anchors := m.anchors ++ [a] }

/-- mux.go:177-182: replace the first anchor with the same key. -/
def replaceFirst (a : MAnchor) : List MAnchor → List MAnchor
  | [] => []
  | v :: vs => if v.key = a.key then a :: vs else v :: replaceFirst a vs

/-- mux.go:159-183 `ReplaceMiddlewareAnchor`. -/
def replaceMiddlewareAnchor (m : Mux) (a : MAnchor) : Out Mux :=
  match m.anchorMap.get? a.key with
  | none => .panic m
  | some _ => .ret { m with anchorMap := m.anchorMap.set a.key a, anchors := replaceFirst a m.anchors }

/-- mux.go:186-198 `AddMessageIDAnchor`. -/
def addMessageIDAnchor (m : Mux) (id : Int32) (i : Nat) : Out Mux :=
  match m.idAnchors.get? id with
  | some _ => .panic m
  | none => .ret { m with idAnchors := m.idAnchors.set id i }

/-- mux.go:201-213 `AddURLAnchor`. -/
def addURLAnchor (m : Mux) (p : String) (i : Nat) : Out Mux :=
  match m.urlAnchors.get? p with
  | some _ => .panic m
  | none => .ret { m with urlAnchors := m.urlAnchors.set p i }

/-- mux.go:216-229 `AddMessageIDSelfMiddleware`. -/
def addSelfMw (m : Mux) (id : Int32) (hs : List H) : Out Mux :=
  match m.selfMw.get? id with
  | some _ => .panic m
  | none => .ret (if hs = [] then m else { m with selfMw := m.selfMw.set id hs })

/-- url-mux.go:41-70 `AddURLPatternHandler` (with `readOnly`, `panicOnExistRouting` false). -/
def addURLPatternHandler (m : Mux) (p : String) (hs : List H) : Mux :=
  match m.urlMux.get? p with
  | some old => { m with urlMux := m.urlMux.set p (old ++ hs) }
  | none => { m with urlMux := m.urlMux.set p hs }

/-- mux.go:72-81 `Mux.Any`; the returned error is ignored by its only caller (tcpx.go:359). -/
def any (m : Mux) (p : String) (hs : List H) : Mux :=
  if m.allowAdd then m.addURLPatternHandler p hs else m

end Mux

namespace Srv

/-- tcpx.go:108-116 `NewTcpX`. -/
def new : Srv := {}

/-- Run a mux operation inside the server. `tcpx.Mux`, tcpx.go:41. -/
def onMux (s : Srv) (f : Mux → Out Mux) : Out Srv := ⟨{ s with mux := (f s.mux).st }, (f s.mux).panicked⟩

/-- tcpx.go:281-291, one (key, middleware) pair of `Use`. -/
def useOne (s : Srv) (k : String) (f : H) : Out Srv :=
  s.onMux fun m =>
    match m.anchorMap.get? k with
    | some a =>
      match a.callUse (m.bump.seed) with
      | none => .panic m.bump
      | some a' => .ret { m.bump with anchorMap := m.bump.anchorMap.set k a' }
    | none =>
      match (MAnchor.mk k f [] []).callUse (m.bump.seed) with
      | none => .panic m.bump
      | some a' => .ret (m.bump.addMiddlewareAnchor a')

/-- An argument of `Use(mids ...interface{})`. tcpx.go:257. -/
inductive UseArg where
  | key (k : String)
  | fn (h : H)
  | other
deriving DecidableEq, Repr

/-- tcpx.go:270-292, the loop of `Use`. -/
def useLoop : Srv → List UseArg → Out Srv
  | s, [] => .ret s
  | s, .key k :: .fn f :: rest => (s.useOne k f).andThen (fun s' => useLoop s' rest)
  | s, _ => .panic s

/-- tcpx.go:257-293 `Use`. -/
def use (s : Srv) (args : List UseArg) : Out Srv :=
  if args.length % 2 ≠ 0 then .panic s else s.useLoop args

/-- tcpx.go:310-314, one key of `UnUse`. -/
def unUseOne (s : Srv) (k : String) : Out Srv :=
  s.onMux fun m =>
    match m.anchorMap.get? k with
    | none => .panic m
    | some a =>
      match a.callUnUse (m.bump.seed) with
      | none => .panic m.bump
      | some a' => m.bump.replaceMiddlewareAnchor a'

/-- tcpx.go:306-316 `UnUse`. -/
def unUse : Srv → List String → Out Srv
  | s, [] => .ret s
  | s, k :: ks => (s.unUseOne k).andThen (fun s' => unUse s' ks)

/-- tcpx.go:320-325 `UseGlobal`, mux.go:232-236. -/
def useGlobal (s : Srv) (ms : List H) : Out Srv :=
  s.onMux fun m => .ret { m with globals := m.globals ++ ms }

/-- tcpx.go:329-344 `AddHandler`. -/
def addHandler (s : Srv) (id : Int32) (hs : List H) : Out Srv :=
  s.onMux fun m =>
    match hs.getLast? with
    | none => .panic m
    | some f =>
      ((if hs.length > 1 then m.addSelfMw id hs.dropLast else .ret m).andThen
        (fun m => m.addHandleFunc id f)).andThen
        (fun m => m.bump.addMessageIDAnchor id m.bump.seed)

/-- tcpx.go:346-362 `Any`. -/
def any (s : Srv) (p : String) (hs : List H) : Out Srv :=
  s.onMux fun m =>
    if hs = [] then .panic m
    else
      let m := if hs.length > 1 then m.addURLPatternHandler p hs else m
      let m := (m.any p hs).bump
      m.addURLAnchor p m.seed

/-- tcpx.go:248-251 `removeHandler`. -/
def removeHandler (s : Srv) (id : Int32) : Out Srv :=
  s.onMux fun m => .ret { m with handlers := m.handlers.delete id, idAnchors := m.idAnchors.delete id }

/-- The field assignments of tcpx.go:201-204 and 221-224. -/
def setHeartBeat (s : Srv) (on through : Bool) (id : Int32) : Srv :=
  { s with hbOn := on, hbThrough := through, hbId := id }

/-- The field assignments of tcpx.go:126-130. -/
def setAuth (s : Srv) (on through : Bool) (id : Int32) : Srv :=
  { s with authOn := on, authThrough := through, authId := id }

/-- tcpx.go:220-233 `HeartBeatModeDetail`; `hb` is the built-in heartbeat handler. -/
def heartBeatModeDetail (s : Srv) (on through : Bool) (id : Int32) (hb : H) : Out Srv :=
  let s := s.setHeartBeat on through id
  if on then s.addHandler id [hb] else .ret s

/-- tcpx.go:200-213 `HeartBeatMode`. -/
def heartBeatMode (s : Srv) (on : Bool) (hb : H) : Out Srv :=
  s.heartBeatModeDetail on false defaultHeartbeatMessageID hb

/-- tcpx.go:239-244 `RewriteHeartBeatHandler`. -/
def rewriteHeartBeatHandler (s : Srv) (id : Int32) (f : H) : Out Srv :=
  ((s.removeHandler s.hbId).andThen (fun s => .ret { s with hbId := id })).andThen (fun s => s.addHandler id [f])

/-- tcpx.go:125-136 `WithAuthDetail`. -/
def withAuthDetail (s : Srv) (yes through : Bool) (id : Int32) (f : H) : Out Srv :=
  let s := s.setAuth yes through id
  if yes then s.addHandler id [f] else .ret s

/-- tcpx.go:388-394 `checkPrepare` (false is a panic). -/
def checkPrepare (s : Srv) : Bool := s.mux.anchors.all MAnchor.validBeforeRun

end Srv

/-! ## Calls of the registration API -/

/-- One call of the registration API (or assignment to an exported field). tcpx.go:125, 200-344, 346, mux.go:33. -/
inductive RegOp where
  | useGlobal (ms : List H)
  | use (args : List Srv.UseArg)
  | unUse (ks : List String)
  | addHandler (id : Int32) (hs : List H)
  | any (p : String) (hs : List H)
  | setAllowAdd (b : Bool)
  | setOnMessage (o : Option H)
  | heartBeatMode (on : Bool) (hb : H)
  | heartBeatModeDetail (on through : Bool) (id : Int32) (hb : H)
  | rewriteHeartBeatHandler (id : Int32) (f : H)
  | withAuthDetail (yes through : Bool) (id : Int32) (f : H)
deriving DecidableEq, Repr

/-- The call, tcpx.go:125, 200-344, 346. -/
def RegOp.run (s : Srv) : RegOp → Out Srv
  | .useGlobal ms => s.useGlobal ms
  | .use args => s.use args
  | .unUse ks => s.unUse ks
  | .addHandler id hs => s.addHandler id hs
  | .any p hs => s.any p hs
  | .setAllowAdd b => .ret { s with mux := { s.mux with allowAdd := b } }
  | .setOnMessage o => .ret { s with onMessage := o }
  | .heartBeatMode on hb => s.heartBeatMode on hb
  | .heartBeatModeDetail on th id hb => s.heartBeatModeDetail on th id hb
  | .rewriteHeartBeatHandler id f => s.rewriteHeartBeatHandler id f
  | .withAuthDetail yes th id f => s.withAuthDetail yes th id f

/-- A program performing the calls in order, recovering from panics. No counterpart in the code: a program of the user. -/
def runOps (s : Srv) (ops : List RegOp) : Srv := ops.foldl (fun s op => (op.run s).st) s

/-! ## Dispatch -/

/-- What dispatching a message amounts to. tcpx.go:853-992. -/
inductive Dispatch where
  | nothing                    -- logged, no handler runs
  | direct (h : H)             -- `handler(ctx)` without a chain
  | chain (hs : List H)        -- `ctx.Next()` on this chain
  | panic                      -- a run-time panic in framework code
deriving DecidableEq, Repr

/-- tcpx.go:929-934 and 979-984: the anchor middlewares whose range contains the index; `none` is a panic. -/
def anchorsAt : List MAnchor → Nat → Option (List H)
  | [], _ => some []
  | a :: as, i =>
    match a.contains i with
    | none => none
    | some b => (anchorsAt as i).map (fun r => if b then a.mw :: r else r)

namespace Srv

/-- tcpx.go:897-944, the part of `handleMessageIDHandlers` after the message id has been read. -/
def dispatchId (s : Srv) (id : Int32) : Dispatch :=
  match s.mux.handlers.get? id with
  | none => .nothing
  | some h =>
    if id = s.hbId ∧ s.hbThrough = false then .direct h
    else if id = s.authId ∧ s.authThrough = false then .direct h
    else
      match s.mux.idAnchors.get? id with
      | none => .panic            -- mux.go:107-110
      | some i =>
        match anchorsAt s.mux.anchors i with
        | none => .panic
        | some as => .chain (s.mux.globals ++ as ++ (s.mux.selfMw.get? id).getD [] ++ [h])

/-- tcpx.go:955-991, the part of `handleURLPatternHandlers` after the pattern has been read. -/
def dispatchUrl (s : Srv) (p : String) : Dispatch :=
  match s.mux.urlMux.get? p with
  | none => .nothing
  | some hs =>
    match s.mux.urlAnchors.get? p with
    | none => .panic              -- mux.go:118-121
    | some i =>
      match anchorsAt s.mux.anchors i with
      | none => .panic
      | some as => .chain (s.mux.globals ++ as ++ hs)

/-- tcpx.go:874-887 `handleOnMessage`. -/
def dispatchOnMessage (s : Srv) (f : H) : Dispatch :=
  .chain (s.mux.globals ++ s.mux.anchors.map (·.mw) ++ [f])

/-- What tcpx.go:859-869 and 891-895, 949-953 find out about a message: how it is routed and under which key. -/
inductive Routed where
  | byId (id : Int32)        -- router type MESSAGE_ID, id readable
  | byUrl (p : String)       -- router type URL_PATTERN, pattern readable
  | unreadable               -- the id or the pattern cannot be read: logged, nothing runs
  | unknownType              -- any other router type: logged, nothing runs
deriving DecidableEq, Repr

/-- tcpx.go:853-871 `handleMiddleware`. -/
def handle (s : Srv) (r : Routed) : Dispatch :=
  match s.onMessage with
  | some f => s.dispatchOnMessage f
  | none =>
    match r with
    | .byId id => s.dispatchId id
    | .byUrl p => s.dispatchUrl p
    | .unreadable => .nothing
    | .unknownType => .nothing

end Srv
end Tcpx
