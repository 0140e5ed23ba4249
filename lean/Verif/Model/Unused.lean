import Verif.Model.Client
/-!
# Model of what the package contains and does not use itself: `write` (utils.go) and `Request` (request.go)
-/
namespace Tcpx

/-- The loop of `write`, utils.go:273-284; `slice` is assigned the whole buffer at the start of each turn, so that the assignment of
line 283 has no effect.  An exhausted script is a `Write` that does not return. -/
def writeLoop (buf : Bytes) (length sum : Nat) : List WEv → SendOut
  | [] => ⟨[], .block⟩
  | .fail k :: _ =>
    let slice := buf
    ⟨[⟨slice, min k slice.length⟩], .err .io⟩
  | .accept k :: w =>
    let slice := buf
    let n := min k slice.length
    let sum := sum + n
    if sum ≥ length then ⟨[⟨slice, n⟩], .ok ()⟩
    else let r := writeLoop buf length sum w; ⟨⟨slice, n⟩ :: r.calls, r.res⟩

/-- utils.go:265-286 `write(conn, buf)`. -/
def write (script : List WEv) (buf : Bytes) : SendOut :=
  let length := buf.length
  if length = 0 then ⟨[], .ok ()⟩ else writeLoop buf length 0 script

/-- request.go:8-12 `Request`; of `Body` (an `ioutil.NopCloser`) the reader inside it, of any type. -/
structure Request (ρ : Type) where
  body : ρ
  url : String
  header : Header

/-- request.go:14-20 `NewRequest`. -/
def newRequest {ρ : Type} (url : String) (reader : ρ) : Request ρ := { body := reader, url := url, header := none }

/-- request.go:22-28 `Request.Set`. -/
def Request.set {ρ : Type} (r : Request ρ) (key : String) (value : Any) : Request ρ :=
  let m := match r.header with
    | none => []
    | some m => m
  { r with header := some (GoMap.set m key value) }

end Tcpx
