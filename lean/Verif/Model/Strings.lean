import Verif.Model.ConnLoop
/-!
# Model of the string functions: `In` (utils.go:29-52), the choice of transport (tcpx.go:367-384), `ClientIP` (context.go:528-549)

A Go string is a list of characters; reading each byte as one character covers strings that are not valid UTF-8 as well, since
only ASCII characters are treated specially.
-/
namespace Tcpx

/-- `strings.Contains(s, sub)`. Package strings, used at utils.go:29-52. -/
def strContains (sub : List Char) : List Char → Bool
  | [] => sub = []
  | c :: cs => sub.isPrefixOf (c :: cs) || strContains sub cs

/-- utils.go:29-52 `In`.  `v[1:len(v)-1]` panics for the pattern "%". -/
def strIn (s : List Char) : List (List Char) → Res Bool
  | [] => .ok false
  | v :: vs =>
    if strContains ['%'] v then
      if ['%'].isPrefixOf v && ['%'].isSuffixOf v then
        if v.length - 1 < 1 then .panic
        else if strContains ((v.take (v.length - 1)).drop 1) s then .ok true else strIn s vs
      else if ['%'].isPrefixOf v then
        if (v.drop 1).isSuffixOf s then .ok true else strIn s vs
      else if ['%'].isSuffixOf v then
        if (v.take (v.length - 1)).isPrefixOf s then .ok true else strIn s vs
      else strIn s vs
    else if v = s then .ok true else strIn s vs

/-- What `ListenAndServe` does with a network name. tcpx.go:367-384. -/
inductive Transport where
  | tcp | udp | refused
deriving DecidableEq, Repr

/-- tcpx.go:367-384 `ListenAndServe`, after `checkPrepare`. -/
def transportOf (network : List Char) : Res Transport := do
  if ← strIn network ["tcp".toList, "tcp4".toList, "tcp6".toList, "unix".toList, "unixpacket".toList] then
    return .tcp
  if ← strIn network ["udp".toList, "udp4".toList, "udp6".toList, "unixgram".toList, "ip%".toList] then
    return .udp
  if ← strIn network ["kcp".toList] then
    return .refused
  return .refused

/-- `strings.Join(arr, ":")`. Package strings, used at context.go:528-549. -/
def joinColon (arr : List (List Char)) : List Char := [':'].intercalate arr

/-- context.go:528-549 `ClientIP`, from the text of the remote address. -/
def clientIP (addr : List Char) : List Char :=
  let arr := splitChar ':' addr
  if arr.length = 2 then arr.headD []
  else if strContains ['['] addr && strContains [']'] addr then "127.0.0.1".toList
  else joinColon (arr.take (arr.length - 1))

end Tcpx
