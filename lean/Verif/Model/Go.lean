/-!
# Go run-time vocabulary used by the model

Nothing in this file models a particular function of the repository; it fixes how Go values, results,
slices, maps and fixed-size integers are represented.
-/
namespace Tcpx

/-- A `[]byte` of which only the contents matter (Go language). No counterpart in the code: a type of Go. -/
abbrev Bytes := List UInt8

/-- Errors returned by the code.  Only `io.EOF` is ever compared (`e == io.EOF`); all other errors are
told apart only for readability, by the place that creates them. E.g. packx.go:161, 477, tcpx.go:1143. -/
inductive Err where
  | eof                 -- io.EOF
  | io                  -- any other error of a reader / connection
  | short               -- "stream lenth should be bigger than ..."
  | tooBig              -- "recv message beyond max byte length limit"
  | json                -- encoding/json failed
  | marshal             -- a Marshaller failed
  | badName             -- unknown marshaller name
  | notString           -- header value present but not a string
  | badPipe             -- malformed pipe marker
  | nilReader           -- "reader is nil"
  | badArgs             -- ill-typed variadic arguments
  | other
deriving DecidableEq, Repr

/-- How a Go call ends: a value, a returned error, a panic, or never (blocked).
No counterpart in the code: the Go language. -/
inductive Res (α : Type) where
  | ok (a : α)
  | err (e : Err)
  | panic
  | block
deriving DecidableEq, Repr

namespace Res
variable {α β : Type}

/-- Sequencing in Go: an error is returned, a panic or a blocked call goes no further.
No counterpart in the code: the Go language, e.g. packx.go:218-221. -/
def bind : Res α → (α → Res β) → Res β
  | ok a,  f => f a
  | err e, _ => err e
  | panic, _ => panic
  | block, _ => block

/-- No counterpart in the code: notation for `Res.bind`. -/
instance : Monad Res where
  pure := ok
  bind := bind

@[simp] theorem bind_ok (a : α) (f : α → Res β) : (Res.ok a >>= f) = f a := rfl
@[simp] theorem bind_err (e : Err) (f : α → Res β) : (Res.err e >>= f) = Res.err e := rfl
@[simp] theorem bind_panic (f : α → Res β) : ((Res.panic : Res α) >>= f) = Res.panic := rfl
@[simp] theorem bind_block (f : α → Res β) : ((Res.block : Res α) >>= f) = Res.block := rfl
@[simp] theorem pure_eq (a : α) : (pure a : Res α) = Res.ok a := rfl

end Res

/-! ## Fixed-size integers -/

/-- `binary.BigEndian.PutUint32(b, v)` into a fresh 4-byte buffer. Package encoding/binary, used at packx.go:294, 303, 311, 320. -/
def putUint32 (v : UInt32) : Bytes :=
  [(v >>> 24).toUInt8, (v >>> 16).toUInt8, (v >>> 8).toUInt8, v.toUInt8]

/-- `binary.BigEndian.Uint32` on four given bytes (most significant first). Package encoding/binary, used at packx.go:163. -/
def beUint32 (b0 b1 b2 b3 : UInt8) : UInt32 :=
  b3.toUInt32 ||| (b2.toUInt32 <<< 8) ||| (b1.toUInt32 <<< 16) ||| (b0.toUInt32 <<< 24)

/-- `binary.BigEndian.Uint32(b)`: panics if `b` has fewer than four bytes. Package encoding/binary, used at packx.go:163. -/
def uint32Of : Bytes → Res UInt32
  | b0 :: b1 :: b2 :: b3 :: _ => .ok (beUint32 b0 b1 b2 b3)
  | _ => .panic

/-- `uint32(len(b))`. The Go language, used at packx.go:294, 303, 311, 320. -/
def lenU32 (b : Bytes) : UInt32 := UInt32.ofNat b.length

/-! ## Slices

`live` are the bytes `s[0..len)`, `spare` the bytes between `len` and `cap` of the backing array. -/

/-- A Go slice: what is within its length, and what is behind it within its capacity.
No counterpart in the code: the Go language. -/
structure Slice where
  live  : Bytes
  spare : Bytes := []
deriving DecidableEq, Repr

namespace Slice

/-- The Go built-in `len`, used at packx.go:140, 160. -/
def len (s : Slice) : Nat := s.live.length
/-- The Go built-in `cap`, the bound of the slice expressions of packx.go:225, 266. -/
def cap (s : Slice) : Nat := s.live.length + s.spare.length

/-- The slice expression `s[lo:hi]`: panics unless `0 <= lo <= hi <= cap(s)`; note that `hi` may exceed `len(s)`.
The Go language, used at packx.go:225, 266. -/
def sub (s : Slice) (lo hi : Int) : Res Slice :=
  if 0 ≤ lo ∧ lo ≤ hi ∧ hi ≤ s.cap then
    .ok { live  := (((s.live ++ s.spare).drop lo.toNat).take (hi.toNat - lo.toNat)),
          spare := (s.live ++ s.spare).drop hi.toNat }
  else .panic

end Slice

/-! ## Maps

A non-nil Go map as an association list; `get?` finds the first entry, `set` replaces or adds. -/

/-- No counterpart in the code: maps of the Go language, e.g. message.go:9, mux.go:31. -/
abbrev GoMap (κ ν : Type) := List (κ × ν)

namespace GoMap
variable {κ ν : Type} [DecidableEq κ]

/-- `v, ok := m[k]`. The Go language, e.g. mux.go:90, utils.go:232. -/
def get? : GoMap κ ν → κ → Option ν
  | [], _ => none
  | (k', v) :: m, k => if k' = k then some v else get? m k

/-- `delete(m, k)`. The Go language, e.g. client-pool.go:38, tcpx.go:249. -/
def delete (m : GoMap κ ν) (k : κ) : GoMap κ ν := m.filter (fun e => e.1 ≠ k)

/-- `m[k] = v`. The Go language, e.g. client-pool.go:26, mux.go:94. -/
def set (m : GoMap κ ν) (k : κ) (v : ν) : GoMap κ ν := (k, v) :: delete m k

/-- The keys, in some order, as visited by `range`. The Go language, e.g. tcpx.go:1179. -/
def keys (m : GoMap κ ν) : List κ := m.map (·.1)

@[simp] theorem get?_nil (k : κ) : get? ([] : GoMap κ ν) k = none := rfl

theorem get?_delete (m : GoMap κ ν) (k k' : κ) :
    (m.delete k).get? k' = if k' = k then none else m.get? k' := by
  induction m with
  | nil => simp [delete, get?]
  | cons e m ih =>
    obtain ⟨a, v⟩ := e
    simp only [delete, List.filter_cons] at ih ⊢
    by_cases h : a = k
    · subst h
      simp only [ne_eq, not_true_eq_false, decide_false, Bool.false_eq_true, if_false, ih, get?]
      by_cases h' : k' = a
      · simp [h']
      · simp [h', Ne.symm h']
    · simp only [ne_eq, h, not_false_eq_true, decide_true, if_true, get?, ih]
      by_cases h' : a = k'
      · subst h'; simp [h]
      · simp [h']

theorem get?_set (m : GoMap κ ν) (k k' : κ) (v : ν) :
    (m.set k v).get? k' = if k' = k then some v else m.get? k' := by
  simp only [set, get?, get?_delete]
  by_cases h : k = k'
  · simp [h]
  · simp [h, Ne.symm h]

@[simp] theorem get?_set_self (m : GoMap κ ν) (k : κ) (v : ν) : (m.set k v).get? k = some v := by
  simp [get?_set]

@[simp] theorem get?_delete_self (m : GoMap κ ν) (k : κ) : (m.delete k).get? k = none := by
  simp [get?_delete]

theorem get?_isSome_iff_mem (m : GoMap κ ν) (k : κ) : (m.get? k).isSome ↔ k ∈ m.keys := by
  induction m with
  | nil => simp [get?, keys]
  | cons e m ih =>
    obtain ⟨a, v⟩ := e
    simp only [get?, keys, List.map_cons, List.mem_cons]
    by_cases h : a = k
    · simp [h]
    · simp only [h, if_false]
      rw [ih]; simp [keys, Ne.symm h]

theorem mem_of_get?_eq_some {m : GoMap κ ν} {k : κ} {v : ν} (h : m.get? k = some v) : (k, v) ∈ m := by
  induction m with
  | nil => simp [get?] at h
  | cons e m ih =>
    obtain ⟨a, w⟩ := e
    simp only [get?] at h
    by_cases hk : a = k
    · simp [hk] at h; simp [hk, h]
    · simp [hk] at h; exact List.mem_cons_of_mem _ (ih h)

end GoMap
end Tcpx
