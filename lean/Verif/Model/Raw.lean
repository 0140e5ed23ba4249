import Verif.Model.Chain
import Verif.Model.ConnLoop
/-!
# Model of the raw server: the goroutine of a connection (tcpx.go:466-482) and `handleRaw` (tcpx.go:1001-1014)

The accept loop is the one of `ListenAndServeTCP` (`acceptLoop`); the watchers started for a raw connection are in `Model/Watch`.
-/
namespace Tcpx

/-- tcpx.go:1001-1009: the chain built for a raw connection; `HandleRaw` may be nil. -/
def rawHandlers (s : Srv) (handleRaw : Option H) : List (Option H) :=
  (s.mux.globals ++ s.mux.anchors.map (·.mw)).map some ++ [handleRaw]

/-- Observable actions of the goroutine of a raw connection. tcpx.go:466-483, 1001-1015. -/
inductive RawEv where
  | run (h : H)      -- a middleware or `HandleRaw` is called
  | onClose
  | closeConn
deriving DecidableEq, Repr

/-- The goroutine of a raw connection. tcpx.go:466-482, 1001-1014. -/
structure RawState where
  handlers : List (Option H)     -- ctx.handlers
  chain : Chain.State            -- the execution of `ctx.Next()`, tcpx.go:1011
  deferred : List Deferred       -- deferred calls not yet run, the next one first
  panicking : Bool := false
  trace : List RawEv := []       -- oldest first

/-- tcpx.go:466-481: the deferred calls are registered, then the chain is begun. -/
def rawInit (s : Srv) (handleRaw : Option H) (hasOnClose : Bool) : RawState :=
  { handlers := rawHandlers s handleRaw, chain := Chain.init (rawHandlers s handleRaw).length,
    deferred := (deferOrder hasOnClose).reverse }

/-- The handler called by a step of the chain, if the step calls one that is not nil. context.go:564. -/
def calledBy (handlers : List (Option H)) (c : Chain.State) (c' : Chain.State) : List RawEv :=
  if c'.started.length = c.started.length then []
  else match c'.started.getLast? with
    | none => []
    | some i =>
      match handlers[i]? with
      | some (some h) => [.run h]
      | _ => []

/-- The handler whose code runs now is a nil function. tcpx.go:1009, if `HandleRaw` was not set. -/
def inNil (handlers : List (Option H)) (c : Chain.State) : Prop :=
  ∃ i n K, c.stack = .hnd i n :: K ∧ handlers[i]? = some none

/-- tcpx.go:466-483: the chain, then the deferred calls. -/
inductive RawStep : RawState → RawState → Prop where
  /-- a step of the chain; calling a nil function does nothing but panic -/
  | chain (st : RawState) (c : Chain.State) (h : Chain.Step st.chain c) (hn : inNil st.handlers st.chain → c.panicked = true) :
      RawStep st { st with chain := c, panicking := c.panicked, trace := st.trace ++ calledBy st.handlers st.chain c }
  /-- the chain has returned or panicked: the deferred `OnClose` (user code, may panic) -/
  | onClose (st : RawState) (ds : List Deferred) (p : Bool) (h : st.chain.stack = []) (hd : st.deferred = .onClose :: ds) :
      RawStep st { st with deferred := ds, panicking := st.panicking || p, trace := st.trace ++ [.onClose] }
  | closeConn (st : RawState) (ds : List Deferred) (h : st.chain.stack = []) (hd : st.deferred = .closeConn :: ds) :
      RawStep st { st with deferred := ds, trace := st.trace ++ [.closeConn] }
  | recover (st : RawState) (ds : List Deferred) (h : st.chain.stack = []) (hd : st.deferred = .recover :: ds) :
      RawStep st { st with deferred := ds, panicking := false }

/-- No counterpart in the code: reachable in any number of steps. -/
inductive RawSteps : RawState → RawState → Prop where
  | refl (a : RawState) : RawSteps a a
  | tail {a b c : RawState} (h : RawSteps a b) (hs : RawStep b c) : RawSteps a c

end Tcpx
