import Verif.Model.Client
/-!
# Model of deadlines: the setters of the server (tcpx.go:141-169), what a new connection gets (tcpx.go:449-451, 527-529, 648-650),
and the setters of a context (context.go:305-347)

A deadline is an instant, or none for the zero `time.Time`.  A socket has a read and a write deadline; `SetDeadline(t)` of package
net sets both.  Errors returned by the setters of package net are not modelled (the server ignores them).
-/
namespace Tcpx

/-- The deadlines in force on a socket. Package net, used at tcpx.go:449-451, 527-529, context.go:306-345. -/
structure Deadlines where
  read : Option Nat := none
  write : Option Nat := none
deriving DecidableEq, Repr

/-- A call of one of the three setters. Package net, used at tcpx.go:449-451, 527-529, context.go:306-345. -/
inductive DlCall where
  | both (t : Option Nat)     -- SetDeadline
  | read (t : Option Nat)     -- SetReadDeadline
  | write (t : Option Nat)    -- SetWriteDeadline
deriving DecidableEq, Repr

/-- Package net: `SetDeadline` is equivalent to calling both `SetReadDeadline` and `SetWriteDeadline`.
Used at tcpx.go:449-451, 527-529, context.go:306-345. -/
def Deadlines.call (d : Deadlines) : DlCall → Deadlines
  | .both t => ⟨t, t⟩
  | .read t => { d with read := t }
  | .write t => { d with write := t }

/-- tcpx.go:45-47: the fields of the server. -/
structure SrvDeadlines where
  deadLine : Option Nat := none
  writeDeadLine : Option Nat := none
  readDeadLine : Option Nat := none
deriving DecidableEq, Repr

/-- tcpx.go:141-143 `SetDeadline`, 159-161 `SetReadDeadline`, 166-168 `SetWriteDeadline` of the server. -/
def SrvDeadlines.call (s : SrvDeadlines) : DlCall → SrvDeadlines
  | .both t => { s with deadLine := t }
  | .read t => { s with readDeadLine := t }
  | .write t => { s with writeDeadLine := t }

/-- tcpx.go:449-451, 527-529 (a new connection), 648-650 (a UDP socket): three calls one after another. -/
def SrvDeadlines.newSocket (s : SrvDeadlines) : Deadlines :=
  (((({} : Deadlines).call (.both s.deadLine)).call (.read s.readDeadLine)).call (.write s.writeDeadLine))

/-- What a context uses (context.go:243-254): its own stream connection, or the packet connection it came in by, with the address of
the peer.  Sockets and peers are numbered. -/
inductive CtxLink where
  | conn (sock : Nat)
  | packet (sock : Nat) (peer : Nat)
deriving DecidableEq, Repr

/-- The socket a context refers to, context.go:25-35. -/
def CtxLink.sock : CtxLink → Nat
  | .conn k => k
  | .packet k _ => k

/-- context.go:306-317 `SetDeadline`, 321-332 `SetReadDeadline`, 336-347 `SetWriteDeadline` of a context. -/
def ctxSetDeadline (socks : Nat → Deadlines) (c : CtxLink) (call : DlCall) : Nat → Deadlines :=
  fun k => if k = c.sock then (socks k).call call else socks k

end Tcpx
