import Verif.Model.Go
/-!
# Registration and the slices of the caller

The other models take the arguments of registration calls as lists of values.  Here they are slices over arrays in memory: a call
written `f(hs...)` hands over the slice `hs` itself, a call `f(a, b)` a slice over a new array.  User code may go on working with its
slices.  Anchors, locking and panics other than of a taken id are left out (`Model/Mux` has them).
-/
namespace Tcpx

/-- A handler or middleware (a function value). A `func(c *Context)`, mux.go:31-38. -/
abbrev Fn := Nat

/-- A slice: array, first index, length. Its capacity reaches to the end of the array.
As in the Go language specification, "Slice types"; used for mux.go:36, 38 and url-mux.go:22. -/
structure Sl where
  arr : Nat
  off : Nat
  len : Nat
deriving DecidableEq, Repr

/-- Arrays in memory, by address. Arrays do not change their length. Memory as seen through Go slices, for mux.go:31-38 and url-mux.go:22. -/
abbrev Heap := List (List Fn)

namespace Heap

/-- Addresses are always valid (`AInv.valid`), so the default is never taken. No counterpart in the code: reading memory. -/
def array (h : Heap) (a : Nat) : List Fn := (h[a]?).getD []

/-- The elements of a slice. No counterpart in the code: what `range` over a Go slice sees. -/
def read (h : Heap) (s : Sl) : List Fn := ((h.array s.arr).drop s.off).take s.len

/-- No counterpart in the code: writing memory (the length is kept). -/
def store (h : Heap) (a : Nat) (xs : List Fn) : Heap := h.set a xs

/-- A new array with `xs` and `extra` nil elements behind. `make` (mux.go:59, 225) and the array Go makes for a variadic call. -/
def alloc (h : Heap) (xs : List Fn) (extra : Nat) : Heap × Sl := (h ++ [xs ++ List.replicate extra 0], ⟨h.length, 0, xs.length⟩)

/-- `append(s, xs...)`: in place if the capacity suffices, otherwise in a new array, whose size is up to the runtime (`extra`).
As in the Go language specification, "Appending to and copying slices"; used at mux.go:226, 235, url-mux.go:55. -/
def append (h : Heap) (s : Sl) (xs : List Fn) (extra : Nat) : Heap × Sl :=
  let a := h.array s.arr
  let e := s.off + s.len
  if e + xs.length ≤ a.length then (h.store s.arr (a.take e ++ xs ++ a.drop (e + xs.length)), { s with len := s.len + xs.length })
  else h.alloc (h.read s ++ xs) extra

end Heap

/-- What user code does: `v`, `w` are its variables. The calls are those of tcpx.go:320, 329, 346. -/
inductive AOp where
  | new (v : Nat) (xs : List Fn) (extra : Nat)          -- v := append(make([]F, 0, cap), xs...)
  | copy (v w : Nat)                                    -- v := w
  | reslice (v w i j : Nat)                             -- v := w[i:j]
  | append (v w : Nat) (xs : List Fn) (extra : Nat)     -- v := append(w, xs...)
  | set (v i : Nat) (f : Fn)                            -- v[i] = f
  | useGlobal (v : Nat) (extra : Nat)                   -- srv.UseGlobal(v...)
  | addHandler (id : Int) (v : Nat) (extra : Nat)       -- srv.AddHandler(id, v...)
  | any (p : String) (v : Nat) (extra : Nat)            -- srv.Any(p, v...)
  | anyNew (p : String) (xs : List Fn) (extra : Nat)    -- srv.Any(p, x1, ..., xn)
deriving DecidableEq, Repr

/-- The variables of the program that hold slices of handlers, and the fields of `Mux` that do. mux.go:31-38, url-mux.go:22. -/
structure AState where
  heap : Heap
  vars : Nat → Option Sl
  global : Sl                           -- mux.go:36 `GlobalMiddlewares`
  self : Int → Option Sl                -- mux.go:38 `MessageIDSelfMiddleware`
  handler : Int → Option Fn             -- mux.go:31 `Handlers`
  url : String → Option Sl              -- url-mux.go:22 `urlPatternMux`

/-- mux.go:52-69 `NewMux`: room for ten global middlewares. -/
def AState.init : AState :=
  { heap := [List.replicate 10 0], vars := fun _ => none, global := ⟨0, 0, 0⟩, self := fun _ => none, handler := fun _ => none,
    url := fun _ => none }

namespace AState

/-- No counterpart in the code: assignment to a variable of the caller. -/
def setVar (s : AState) (v : Nat) (h : Heap) (x : Sl) : AState := { s with heap := h, vars := fun u => if u = v then some x else s.vars u }

/-- mux.go:216-229 `AddMessageIDSelfMiddleware`: copies into an array of its own. -/
def addSelf (s : AState) (id : Int) (xs : List Fn) (extra : Nat) : AState :=
  let a := s.heap.alloc [] 10
  let b := a.1.append a.2 xs extra
  { s with heap := b.1, self := fun i => if i = id then some b.2 else s.self i }

/-- tcpx.go:329-344 `AddHandler` with the elements `xs` of its argument. Panics return early: the caller may recover, and what was
done before the panic stays. -/
def addHandler (s : AState) (id : Int) (xs : List Fn) (extra : Nat) : AState :=
  match xs.getLast? with
  | none => s
  | some f =>
    if xs.dropLast ≠ [] ∧ s.self id ≠ none then s                                       -- mux.go:220-223: panic
    else
      let s := if xs.dropLast ≠ [] then s.addSelf id xs.dropLast extra else s
      if s.handler id ≠ none then s                                                     -- mux.go:90-93: panic
      else { s with handler := fun i => if i = id then some f else s.handler i }

/-- url-mux.go:41-70 `AddURLPatternHandler`: the slice is kept, or appended to the one kept before. -/
def addURL (s : AState) (p : String) (x : Sl) (extra : Nat) : AState :=
  match s.url p with
  | none => { s with url := fun q => if q = p then some x else s.url q }
  | some y =>
    let b := s.heap.append y (s.heap.read x) extra
    { s with heap := b.1, url := fun q => if q = p then some b.2 else s.url q }

/-- tcpx.go:346-362 `Any`: two or more handlers are added twice (C33). A second call for a pattern panics in the end
(mux.go:209-211), after it has added its handlers. -/
def any (s : AState) (p : String) (x : Sl) (extra : Nat) : AState :=
  if x.len = 0 then s
  else if x.len = 1 then s.addURL p x extra
  else (s.addURL p x extra).addURL p x extra

/-- One statement of the program; those on plain slices are of the Go language, the others call tcpx.go:320-362 and
mux.go:71-95, 219-236. -/
def step (s : AState) : AOp → AState
  | .new v xs extra => let a := s.heap.alloc xs extra; s.setVar v a.1 a.2
  | .copy v w => match s.vars w with
    | none => s
    | some x => s.setVar v s.heap x
  | .reslice v w i j => match s.vars w with
    | none => s
    | some x => if i ≤ j ∧ x.off + j ≤ (s.heap.array x.arr).length then s.setVar v s.heap ⟨x.arr, x.off + i, j - i⟩ else s
  | .append v w xs extra => match s.vars w with
    | none => s
    | some x => let a := s.heap.append x xs extra; s.setVar v a.1 a.2
  | .set v i f => match s.vars v with
    | none => s
    | some x => if i < x.len then { s with heap := s.heap.store x.arr ((s.heap.array x.arr).set (x.off + i) f) } else s
  | .useGlobal v extra => match s.vars v with                                    -- tcpx.go:320-325, mux.go:232-236
    | none => s
    | some x => let a := s.heap.append s.global (s.heap.read x) extra; { s with heap := a.1, global := a.2 }
  | .addHandler id v extra => match s.vars v with
    | none => s
    | some x => s.addHandler id (s.heap.read x) extra
  | .any p v extra => match s.vars v with
    | none => s
    | some x => s.any p x extra
  | .anyNew p xs extra => let a := s.heap.alloc xs 0; { s with heap := a.1 }.any p a.2 extra

/-- No counterpart in the code: a program of the caller. -/
def run (s : AState) (ops : List AOp) : AState := ops.foldl step s

/-- What runs for a message id, and for a pattern (tcpx.go:890-992; anchor middlewares are values and stay outside). -/
def globals (s : AState) : List Fn := s.heap.read s.global
/-- tcpx.go:937: the middlewares of a message id. -/
def selfOf (s : AState) (id : Int) : List Fn := match s.self id with
  | none => []
  | some x => s.heap.read x
/-- tcpx.go:955, 986: the handlers of a pattern. -/
def urlOf (s : AState) (p : String) : List Fn := match s.url p with
  | none => []
  | some x => s.heap.read x

end AState

end Tcpx
