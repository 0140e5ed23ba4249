/-!
# Model of the logger, log.go

Texts are lists of characters; what `%v` makes of a single value is given as text.
-/
namespace Tcpx.Log

/-- log.go:11-16 `DEBUG`. -/
def DEBUG : Int := 1
/-- log.go:11-16 `RELEASE`. -/
def RELEASE : Int := 2

/-- log.go:19-22 `Log`; of its `*log.Logger` only the flags are ever set, it does not print. -/
structure Logger where
  flags : Int
  mode : Int
deriving DecidableEq, Repr

/-- log.go:45-48, the global instance; `log.LstdFlags|log.Llongfile` is 3|8. -/
def initial : Logger := { flags := 11, mode := DEBUG }

/-- A call that changes the global instance. log.go:25-32, 51-58. -/
inductive Setting where
  | mode (m : Int)
  | flags (f : Int)
deriving DecidableEq, Repr

/-- log.go:25-27, 51-53 `SetLogMode`; log.go:30-32, 56-58 `SetLogFlags`. -/
def Logger.set (l : Logger) : Setting → Logger
  | .mode m => { l with mode := m }
  | .flags f => { l with flags := f }

/-- `fmt.Sprintf("%v", info)` for a slice of values with the given texts. log.go:36. -/
def sprintv (texts : List (List Char)) : List Char := '[' :: ((texts.intersperse [' ']).flatten ++ [']'])

/-- `strings.TrimPrefix(rs, "[")`. log.go:37. -/
def trimPrefix : List Char → List Char
  | c :: r => if c = '[' then r else c :: r
  | [] => []

/-- `strings.TrimSuffix(rs, "]")`. log.go:38. -/
def trimSuffix (r : List Char) : List Char := if r.getLast? = some ']' then r.dropLast else r

/-- log.go:35-42 `Println`: the text handed to errorx (which adds the place of the call) and printed, if any. -/
def Logger.println (l : Logger) (texts : List (List Char)) : Option (List Char) :=
  let rs := trimSuffix (trimPrefix (sprintv texts))
  if l.mode = DEBUG then some rs else none

end Tcpx.Log
