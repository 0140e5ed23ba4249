import Verif.Model.Mux
/-!
# Registration and dispatch by several goroutines (`mux.go`, `tcpx.go:200-362`, `tcpx.go:853-992`)

`Model/Mux` takes a registration call, and the dispatch of a message, for one step.  Here a call is the sequence of its locking
steps and of its accesses to the fields of the mux, and other goroutines may run between any two of them.  The mutex is that of package
sync: `Lock` waits until there is neither writer nor reader, `RLock` until there is no writer (that a waiting writer stops new readers is
not used, which only adds schedules).  A deferred `Unlock` runs when the call returns or panics.

Simplified: an access takes place at one instant (that two of them must not overlap is `Spec.RegClash`); `Use` and `UnUse` are given one
middleware; `OnMessage` is not set; the loop of `checkPrepare` is one access; append to the ranges of an anchor does not share memory;
of `addURLPatternHandler` the record of places is left out, as in `Model/Mux`.
-/
namespace Tcpx
namespace Register

/-- Memory that is not safe for concurrent use: the fields of mux.go:25-49, url-mux.go:20-30, and the settings of tcpx.go:43-80 that
dispatch reads. (`indexSeed` is accessed by atomic operations only.) -/
inductive Fld where
  | handlers
  | allowAdd
  | globals
  | selfMw
  | anchors
  | anchorMap
  | idAnchors
  | urlMux
  | urlAnchors
  | cfg
deriving DecidableEq, Repr

/-- What goroutines do here: calls of user code (tcpx.go:239, 257, 306, 320, 329, 346, 367), and the framework's dispatch of a
message with this id or pattern (tcpx.go:890, 948). -/
inductive Call where
  | addHandler (id : Int32) (hs : List H)
  | useGlobal (ms : List H)
  | use (k : String) (f : H)
  | unUse (k : String)
  | any (p : String) (hs : List H)
  | rewriteHeartBeat (id : Int32) (f : H)
  | listen                                  -- `ListenAndServe` up to the point where it listens
  | byId (id : Int32)
  | byUrl (p : String)
deriving DecidableEq, Repr

/-- How a call ends. No counterpart in the code: a record. -/
inductive Outcome where
  | returned
  | panicked
  | disp (d : Dispatch)      -- a message has been given to this chain, or to nothing
deriving DecidableEq, Repr

/-- Single steps, of tcpx.go:239-362, 853-992, mux.go:71-236, url-mux.go:25-85. -/
inductive Act where
  | lock | unlock | rlock | runlock               -- of `Mux.Mutex`
  | ret (o : Outcome)                             -- the call ends
  | index                                         -- mux.go:98-100, atomic
  | allow                                         -- mux.go:85
  | selfMw (id : Int32) (ms : List H)             -- mux.go:220-227
  | handle (id : Int32) (f : H)                   -- mux.go:90-94
  | idAnchor (id : Int32)                         -- mux.go:190-197
  | globals (ms : List H)                         -- mux.go:235
  | useLook (k : String) (f : H)                  -- tcpx.go:281
  | callUse                                       -- tcpx.go:283, 289, anchor.go:45-56
  | usePut (k : String)                           -- tcpx.go:284
  | addAnchor                                     -- mux.go:143-155
  | unLook (k : String)                           -- tcpx.go:310
  | callUnUse                                     -- tcpx.go:313, anchor.go:58-69
  | replAnchor                                    -- mux.go:162-182
  | urlAllow (p : String) (hs : List H)           -- mux.go:73
  | urlPut (p : String) (hs : List H)             -- url-mux.go:49-64
  | urlAnchor (p : String)                        -- mux.go:205-212
  | readHb                                        -- tcpx.go:240
  | delHandler                                    -- tcpx.go:249
  | delIdAnchor                                   -- tcpx.go:250
  | setHb (id : Int32)                            -- tcpx.go:241
  | prep                                          -- tcpx.go:388-394
  | lookId (id : Int32)                           -- tcpx.go:897-901
  | bypass (id : Int32)                           -- tcpx.go:902-910
  | readGlobals                                   -- tcpx.go:917, 975
  | readIdx (id : Int32)                          -- mux.go:107-111
  | scanLen                                       -- tcpx.go:929, 979: how many anchors there are
  | scan (n j : Nat)                              -- tcpx.go:930-933, 980-983: anchor `j` of `n`
  | readSelf (id : Int32)                         -- tcpx.go:937
  | lookUrl (p : String)                          -- tcpx.go:955-959
  | readUrlIdx (p : String)                       -- mux.go:118-122
  | next                                          -- tcpx.go:939-942, 986-989
deriving DecidableEq, Repr

/-- What a step accesses, and whether it writes. tcpx.go:239-362, 853-992, mux.go:71-236, by the lines given at `Act`. -/
def Act.access : Act → List (Fld × Bool)
  | .allow => [(.allowAdd, false)]
  | .selfMw _ _ => [(.selfMw, true)]
  | .handle _ _ => [(.handlers, true)]
  | .idAnchor _ => [(.idAnchors, true)]
  | .globals _ => [(.globals, true)]
  | .useLook _ _ => [(.anchorMap, false)]
  | .usePut _ => [(.anchorMap, true)]
  | .addAnchor => [(.anchorMap, true), (.anchors, true)]
  | .unLook _ => [(.anchorMap, false)]
  | .replAnchor => [(.anchorMap, true), (.anchors, true)]
  | .urlAllow _ _ => [(.allowAdd, false)]
  | .urlPut _ _ => [(.urlMux, true)]
  | .urlAnchor _ => [(.urlAnchors, true)]
  | .readHb => [(.cfg, false)]
  | .delHandler => [(.handlers, true)]
  | .delIdAnchor => [(.idAnchors, true)]
  | .setHb _ => [(.cfg, true)]
  | .prep => [(.anchors, false)]
  | .lookId _ => [(.handlers, false)]
  | .bypass _ => [(.cfg, false)]
  | .readGlobals => [(.globals, false)]
  | .readIdx _ => [(.idAnchors, false)]
  | .scanLen => [(.anchors, false)]
  | .scan _ _ => [(.anchors, false)]
  | .readSelf _ => [(.selfMw, false)]
  | .lookUrl _ => [(.urlMux, false)]
  | .readUrlIdx _ => [(.urlAnchors, false)]
  | _ => []

/-- A critical section: mux.go:88-94, 142-155, 161-182, 187-197, 202-212, 217-227, 233-235 (`Lock`, body, deferred `Unlock`). -/
def locked (a : Act) : List Act := [.lock, a, .unlock]

/-- mux.go:103-111, 114-122. -/
def rlocked (a : Act) : List Act := [.rlock, a, .runlock]

/-- tcpx.go:329-344 `AddHandler`. -/
def addHandlerCode (id : Int32) (hs : List H) : List Act :=
  match hs.getLast? with
  | none => [.ret .panicked]
  | some f =>
    (if hs.length > 1 then locked (.selfMw id hs.dropLast) else []) ++
      ([.allow] ++ locked (.handle id f) ++ [.index] ++ locked (.idAnchor id) ++ [.ret .returned])

/-- tcpx.go:346-362 `Any`. -/
def anyCode (p : String) (hs : List H) : List Act :=
  if hs = [] then [.ret .panicked]
  else
    (if hs.length > 1 then [.urlPut p hs] else []) ++
      ([.urlAllow p hs, .index] ++ locked (.urlAnchor p) ++ [.ret .returned])

/-- The steps of a call. tcpx.go:239-244, 257-362, 367-394, 890-944, 948-992. -/
def Call.code : Call → List Act
  | .addHandler id hs => addHandlerCode id hs
  | .useGlobal ms => locked (.globals ms) ++ [.ret .returned]
  | .use k f => [.useLook k f, .ret .returned]                            -- what lies between depends on what is found
  | .unUse k => [.unLook k, .index, .callUnUse] ++ locked .replAnchor ++ [.ret .returned]
  | .any p hs => anyCode p hs
  | .rewriteHeartBeat id f => [.readHb, .delHandler, .delIdAnchor, .setHb id] ++ addHandlerCode id [f]
  | .listen => [.prep, .ret .returned]
  | .byId id => [.lookId id, .bypass id, .readGlobals] ++ rlocked (.readIdx id) ++ [.scanLen, .readSelf id, .next, .ret .returned]
  | .byUrl p => [.lookUrl p, .readGlobals] ++ rlocked (.readUrlIdx p) ++ [.scanLen, .next, .ret .returned]

/-- The local variables of a call: the index (tcpx.go:342, 919), the copy of the anchor (tcpx.go:281, 286, 310), the id to remove
(tcpx.go:240), the handlers found (tcpx.go:897, 955), `ctx.handlers`. -/
structure Loc where
  idx : Nat := 0
  anchor : Option MAnchor := none
  hb : Int32 := 0
  found : List H := []
  chain : List H := []
deriving DecidableEq, Repr

/-- A panic: the mutex, if the call holds it, is unlocked (the deferred calls of mux.go:89, 142, 161, 188, 203, 218, 234),
and the call ends. -/
def unwind : List Act → List Act
  | .unlock :: _ => [.unlock, .ret .panicked]
  | .runlock :: _ => [.runlock, .ret .panicked]
  | _ => [.ret .panicked]

/-- What a step does to the server and to the local variables, and what is left to do after it, `rest` being what follows it in the
code. (The steps of the mutex and `ret` are in `Sys.step`.)
tcpx.go:239-362, 853-992, mux.go:71-236, by the lines given at `Act`. -/
def Act.exec (s : Srv) (l : Loc) (rest : List Act) : Act → Srv × Loc × List Act
  | .index => ({ s with mux := s.mux.bump }, { l with idx := s.mux.bump.seed }, rest)
  | .allow => (s, l, if s.mux.allowAdd then rest else unwind rest)
  | .selfMw id ms =>
    match s.mux.selfMw.get? id with
    | some _ => (s, l, unwind rest)
    | none => ({ s with mux := if ms = [] then s.mux else { s.mux with selfMw := s.mux.selfMw.set id ms } }, l, rest)
  | .handle id f =>
    match s.mux.handlers.get? id with
    | some _ => (s, l, unwind rest)
    | none => ({ s with mux := { s.mux with handlers := s.mux.handlers.set id f } }, l, rest)
  | .idAnchor id =>
    match s.mux.idAnchors.get? id with
    | some _ => (s, l, unwind rest)
    | none => ({ s with mux := { s.mux with idAnchors := s.mux.idAnchors.set id l.idx } }, l, rest)
  | .globals ms => ({ s with mux := { s.mux with globals := s.mux.globals ++ ms } }, l, rest)
  | .useLook k f =>
    match s.mux.anchorMap.get? k with
    | some a => (s, { l with anchor := some a }, [.index, .callUse, .usePut k, .ret .returned])
    | none =>
      (s, { l with anchor := some ⟨k, f, [], []⟩ }, [.index, .callUse] ++ locked .addAnchor ++ [.ret .returned])
  | .callUse =>
    match l.anchor.bind (·.callUse l.idx) with
    | none => (s, l, unwind rest)
    | some a => (s, { l with anchor := some a }, rest)
  | .usePut k =>
    match l.anchor with
    | none => (s, l, rest)
    | some a => ({ s with mux := { s.mux with anchorMap := s.mux.anchorMap.set k a } }, l, rest)
  | .addAnchor =>
    match l.anchor with
    | none => (s, l, rest)
    | some a => ({ s with mux := s.mux.addMiddlewareAnchor a }, l, rest)
  | .unLook k =>
    match s.mux.anchorMap.get? k with
    | none => (s, l, unwind rest)
    | some a => (s, { l with anchor := some a }, rest)
  | .callUnUse =>
    match l.anchor.bind (·.callUnUse l.idx) with
    | none => (s, l, unwind rest)
    | some a => (s, { l with anchor := some a }, rest)
  | .replAnchor =>
    match l.anchor with
    | none => (s, l, rest)
    | some a =>
      let o := s.mux.replaceMiddlewareAnchor a
      ({ s with mux := o.st }, l, if o.panicked then unwind rest else rest)
  | .urlAllow p hs => (s, l, if s.mux.allowAdd then .urlPut p hs :: rest else rest)
  | .urlPut p hs => ({ s with mux := s.mux.addURLPatternHandler p hs }, l, rest)
  | .urlAnchor p =>
    match s.mux.urlAnchors.get? p with
    | some _ => (s, l, unwind rest)
    | none => ({ s with mux := { s.mux with urlAnchors := s.mux.urlAnchors.set p l.idx } }, l, rest)
  | .readHb => (s, { l with hb := s.hbId }, rest)
  | .delHandler => ({ s with mux := { s.mux with handlers := s.mux.handlers.delete l.hb } }, l, rest)
  | .delIdAnchor => ({ s with mux := { s.mux with idAnchors := s.mux.idAnchors.delete l.hb } }, l, rest)
  | .setHb id => ({ s with hbId := id }, l, rest)
  | .prep => (s, l, if s.checkPrepare then rest else unwind rest)
  | .lookId id =>
    match s.mux.handlers.get? id with
    | none => (s, l, [.ret (.disp .nothing)])
    | some h => (s, { l with found := [h] }, rest)
  | .bypass id =>
    if (id = s.hbId ∧ s.hbThrough = false) ∨ (id = s.authId ∧ s.authThrough = false) then
      (s, l, match l.found with | [h] => [.ret (.disp (.direct h))] | _ => unwind rest)
    else (s, l, rest)
  | .readGlobals => (s, { l with chain := s.mux.globals }, rest)
  | .readIdx id =>
    match s.mux.idAnchors.get? id with
    | none => (s, l, unwind rest)
    | some i => (s, { l with idx := i }, rest)
  | .scanLen => (s, l, .scan s.mux.anchors.length 0 :: rest)
  | .scan n j =>
    if j < n then
      match s.mux.anchors[j]? with
      | none => (s, l, unwind rest)
      | some a =>
        match a.contains l.idx with
        | none => (s, l, unwind rest)
        | some b => (s, { l with chain := if b then l.chain ++ [a.mw] else l.chain }, .scan n (j + 1) :: rest)
    else (s, l, rest)
  | .readSelf id => (s, { l with chain := l.chain ++ (s.mux.selfMw.get? id).getD [] }, rest)
  | .lookUrl p =>
    match s.mux.urlMux.get? p with
    | none => (s, l, [.ret (.disp .nothing)])
    | some hs => (s, { l with found := hs }, rest)
  | .readUrlIdx p =>
    match s.mux.urlAnchors.get? p with
    | none => (s, l, unwind rest)
    | some i => (s, { l with idx := i }, rest)
  | .next => (s, l, [.ret (.disp (.chain (l.chain ++ l.found)))])
  | .lock => (s, l, rest)
  | .unlock => (s, l, rest)
  | .rlock => (s, l, rest)
  | .runlock => (s, l, rest)
  | .ret _ => (s, l, rest)

/-- A goroutine: the call it is in and what is left of it, the calls to come, the calls that are over (newest first).
No counterpart in the code: a goroutine of user code, or one that handles messages. -/
structure Gor where
  cur : Option (Call × List Act) := none
  loc : Loc := {}
  todo : List Call
  log : List (Call × Outcome) := []
deriving DecidableEq, Repr

/-- The server, its mutex (mux.go:28) and the goroutines. -/
structure Sys where
  srv : Srv
  writer : Option Nat := none
  readers : List Nat := []
  gors : List Gor
deriving DecidableEq, Repr

/-- One step of goroutine `i`, if it has one and does not wait for the mutex. No counterpart in the code: scheduling; package sync. -/
def Sys.step (y : Sys) (i : Nat) : Sys :=
  match y.gors[i]? with
  | none => y
  | some g =>
    match g.cur with
    | none =>
      match g.todo with
      | [] => y
      | c :: cs => { y with gors := y.gors.set i { g with cur := some (c, c.code), loc := {}, todo := cs } }
    | some (_, []) => y
    | some (c, a :: rest) =>
      let to (r : List Act) : List Gor := y.gors.set i { g with cur := some (c, r) }
      match a with
      | .lock => if y.writer = none ∧ y.readers = [] then { y with writer := some i, gors := to rest } else y
      | .unlock => if y.writer = some i then { y with writer := none, gors := to rest } else y
      | .rlock => if y.writer = none then { y with readers := i :: y.readers, gors := to rest } else y
      | .runlock => if i ∈ y.readers then { y with readers := y.readers.erase i, gors := to rest } else y
      | .ret o => { y with gors := y.gors.set i { g with cur := none, log := (c, o) :: g.log } }
      | a =>
        let r := a.exec y.srv g.loc rest
        { y with srv := r.1, gors := y.gors.set i { g with cur := some (c, r.2.2), loc := r.2.1 } }

/-- No counterpart in the code: scheduling. -/
def Sys.run (y : Sys) (sched : List Nat) : Sys := sched.foldl Sys.step y

/-- Goroutines that make these calls, after the registrations that led to `s`. No counterpart in the code: a program of the user. -/
def start (s : Srv) (progs : List (List Call)) : Sys := { srv := s, gors := progs.map fun p => { todo := p } }

end Register
end Tcpx
