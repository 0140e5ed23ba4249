import Verif.Model.Pool
/-!
# Model of the chat server, examples/modules/chat/server/main.go

The handlers of the example as goroutines of `Model/Pool`, one for each message, beside the goroutines in which the server closes
connections.  What `Bind` makes of the body of a message (C81) is part of the message here.  Frames are numbered by `enc`.
-/
namespace Tcpx

/-- What the server sends: message id and the fields of `ResponseTo`. examples/modules/chat/server/main.go:43-46, 53-60. -/
structure ChatFrame where
  id : Int32
  message : String
  fromUser : String := ""
deriving DecidableEq, Repr

/-- What a client sends, as `Bind` gives it to the handler: message ids 1, 3 and 5 (examples/modules/chat/server/main.go:15-17); `none`
is a body that `Bind` refuses. -/
inductive ChatMsg where
  | login (username : Option String)
  | logout
  | say (request : Option (String × String))      -- RequestFrom.Message, RequestFrom.ToUser
deriving DecidableEq, Repr

/-- examples/modules/chat/server/main.go:21-31 `online`. -/
def chatOnline (R : Nat → Option Nat) (c : Nat) : Option String → PProg Unit
  | none => .ret ()
  | some u => do
    let _ ← ctxOnline R c u
    .ret ()

/-- examples/modules/chat/server/main.go:33-36 `offline`. -/
def chatOffline (R : Nat → Option Nat) (c : Nat) : PProg Unit := do
  let _ ← ctxOffline R c
  .ret ()

/-- context.go:596-605 `IsOnline`, which is false for nil. -/
def isOnlineNow : Option Nat → PProg Bool
  | none => .ret false
  | some o => do
    let b ← isOfflineNow o
    .ret !b

/-- examples/modules/chat/server/main.go:59, the text of the note. -/
def chatNote (to : String) : ChatFrame := { id := 200, message := "'" ++ to ++ "' is offline" }

/-- examples/modules/chat/server/main.go:38-62 `send`; `GetClientPool` of a nil pool panics. -/
def chatSend (R : Nat → Option Nat) (enc : ChatFrame → Nat) (c : Nat) : Option (String × String) → PProg Unit
  | none => .panic
  | some (text, to) =>
    match R c with
    | none => .panic
    | some p => do
      let other ← poolLook p to
      if ← isOnlineNow other then
        let _ ← sendToUsername R c to (enc { id := 6, message := text, fromUser := to })
        .ret ()
      else
        let _ ← doAct (.write c (enc (chatNote to)))
        .ret ()

/-- A goroutine of the chat server: the handler of a message that came over `c` (tcpx.go:600-602), or the closing of `c`
(tcpx.go:560). -/
inductive ChatJob where
  | message (c : Nat) (m : ChatMsg)
  | close (c : Nat)
deriving DecidableEq, Repr

/-- examples/modules/chat/server/main.go:15-17, the handlers by message. -/
def ChatJob.run (R : Nat → Option Nat) (enc : ChatFrame → Nat) : ChatJob → PProg Unit
  | .message c (.login u) => chatOnline R c u
  | .message c .logout => chatOffline R c
  | .message c (.say q) => chatSend R enc c q
  | .close c => closeConn R c

/-- The chat server as it is started (examples/modules/chat/server/main.go:10-19): nobody is online, and goroutine `i` will be
`jobs i`, whenever it is started. -/
def chatStart (R : Nat → Option Nat) (enc : ChatFrame → Nat) (jobs : Nat → ChatJob) : PSys :=
  { world := { conn := fun _ => {}, pool := fun _ => {} }
    threads := fun i => (jobs i).run R enc
    trace := [] }

end Tcpx
