import Verif.Spec.Deadlines
/-! # C76, C77: deadlines -/
namespace Tcpx
open Spec

/-- The deadlines of a socket made after the server's setters were called in this order. -/
def inForce (h : List DlCall) : Deadlines := (h.foldl SrvDeadlines.call {}).newSocket

/-- The full claim of C76: a new socket gets the deadlines last asked for. -/
def Spec.DeadlinesApply (h : List DlCall) : Prop :=
  Wanted (readRequests h) (inForce h).read ∧ Wanted (writeRequests h) (inForce h).write

theorem wanted_or (a : Option Nat) (l : List (Option Nat)) (t : Option Nat) :
    (l.getLast? = some t ∨ (l = [] ∧ t = a)) → (a :: l).getLast? = some t := by
  rintro (h | ⟨rfl, rfl⟩)
  · rw [List.getLast?_cons, h]; rfl
  · rfl

theorem foldl_fields (h : List DlCall) : ∀ s : SrvDeadlines, (∀ t, .both t ∉ h) →
    ((readRequests h).getLast? = some (h.foldl SrvDeadlines.call s).readDeadLine ∨
      (readRequests h = [] ∧ (h.foldl SrvDeadlines.call s).readDeadLine = s.readDeadLine)) ∧
    ((writeRequests h).getLast? = some (h.foldl SrvDeadlines.call s).writeDeadLine ∨
      (writeRequests h = [] ∧ (h.foldl SrvDeadlines.call s).writeDeadLine = s.writeDeadLine)) := by
  induction h with
  | nil => intro s _; exact ⟨.inr ⟨rfl, rfl⟩, .inr ⟨rfl, rfl⟩⟩
  | cons c cs ih =>
    intro s hb
    obtain ⟨h1, h2⟩ := ih (s.call c) (fun t ht => hb t (List.mem_cons_of_mem _ ht))
    cases c with
    | both t => exact absurd List.mem_cons_self (hb t)
    | read t => exact ⟨.inl (wanted_or _ _ _ h1), h2⟩
    | write t => exact ⟨h1, .inl (wanted_or _ _ _ h2)⟩

/-- C76 (partial): if `SetDeadline` of the server is not used, new sockets get the deadlines last asked for.
Missing: `SetDeadline`, which has no effect (`C76_no_effect_violated`). -/
theorem C76_separate_setters_partial (h : List DlCall) (hb : ∀ t, .both t ∉ h) : DeadlinesApply h := foldl_fields h {} hb

example : inForce [.read (some 5), .write (some 6), .read (some 7)] = ⟨some 7, some 6⟩ := by decide

/-- C76 is violated: `SetDeadline` of the server never has any effect on any socket (the separate read and write deadlines set right
after it, possibly none, undo it); so the claim fails whenever it is the last call and asks for a deadline different from the one
in force. -/
theorem C76_no_effect_violated (h : List DlCall) (t : Option Nat) :
    inForce (h ++ [.both t]) = inForce h ∧ ((inForce h).read ≠ t → ¬ DeadlinesApply (h ++ [.both t])) := by
  have e : inForce (h ++ [.both t]) = inForce h := by
    simp [inForce, SrvDeadlines.newSocket, SrvDeadlines.call, Deadlines.call]
  have a : ∀ h : List DlCall, (readRequests (h ++ [.both t])).getLast? = some t := by
    intro h
    induction h with
    | nil => rfl
    | cons c cs ih =>
      cases c with
      | write t' => exact ih
      | both t' => exact wanted_or _ _ _ (.inl ih)
      | read t' => exact wanted_or _ _ _ (.inl ih)
  refine ⟨e, fun hne hd => hne ?_⟩
  have := hd.1
  rw [e, Wanted, a] at this
  rcases this with h | ⟨h, _⟩
  · cases h; rfl
  · have := a ‹_›; rw [h] at this; cases this

-- the ordinary use: one call of `SetDeadline`
example : inForce [.both (some 5)] = ⟨none, none⟩ ∧ ¬ DeadlinesApply [.both (some 5)] :=
  ⟨by decide, (C76_no_effect_violated [] (some 5)).2 (by decide)⟩

/-- The full claim of C77: setting a deadline on a context sets it, for reading, writing or both as asked, for the traffic of its own
peer and changes nothing for the peer of any other context. -/
def Spec.DeadlineOwn (c d : CtxLink) : Prop := ∀ (socks : Nat → Deadlines) (t : Option Nat),
  ctxSetDeadline socks c (.both t) c.sock = ⟨t, t⟩ ∧
  ctxSetDeadline socks c (.read t) c.sock = ⟨t, (socks c.sock).write⟩ ∧
  ctxSetDeadline socks c (.write t) c.sock = ⟨(socks c.sock).read, t⟩ ∧
  ∀ call, peerOf d ≠ peerOf c → ctxSetDeadline socks c call d.sock = socks d.sock

/-- C77 (partial): true of contexts with different sockets, in particular of any two TCP connections.
Missing: datagrams received by one socket, see `C77_shared_socket_violated`. -/
theorem C77_own_socket_partial (c d : CtxLink) (h : d.sock = c.sock → peerOf d = peerOf c) : DeadlineOwn c d := by
  intro socks t
  refine ⟨by simp [ctxSetDeadline, Deadlines.call], by simp [ctxSetDeadline, Deadlines.call], by simp [ctxSetDeadline, Deadlines.call],
    fun call hp => ?_⟩
  have : d.sock ≠ c.sock := fun e => hp (h e)
  simp [ctxSetDeadline, this]

/-- C77: TCP connections meet the hypothesis of `C77_own_socket_partial`. -/
example (a b : Nat) : (CtxLink.conn a).sock = (CtxLink.conn b).sock → peerOf (.conn a) = peerOf (.conn b) := by
  simp [CtxLink.sock, peerOf]

/-- C77 is violated by any two datagrams from different peers: setting a read deadline in the handler of one sets it on the socket by
which the server receives the datagrams of all peers. -/
theorem C77_shared_socket_violated (k p q t : Nat) (hpq : p ≠ q) (socks : Nat → Deadlines) (hs : (socks k).read ≠ some t) :
    (ctxSetDeadline socks (.packet k p) (.read (some t)) (CtxLink.packet k q).sock).read = some t ∧
    ¬ DeadlineOwn (.packet k p) (.packet k q) := by
  refine ⟨by simp [ctxSetDeadline, CtxLink.sock, Deadlines.call], fun h => ?_⟩
  have h := (h socks none).2.2.2 (.read (some t)) (by simp [peerOf]; omega)
  apply hs
  rw [← show (CtxLink.packet k q).sock = k from rfl, ← h]
  simp [ctxSetDeadline, CtxLink.sock, Deadlines.call]

example : ((fun _ => ({} : Deadlines)) 3).read ≠ some 10 := by decide

end Tcpx
