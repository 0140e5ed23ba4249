import Verif.Lemmas.Chat
import Verif.Lemmas.PoolClose
/-!
# Properties C109, C110: the chat server of the examples
-/
namespace Tcpx
open Spec

/-! ## C109 -/

/-- C109 (partial): whatever users log in, log out, write and leave, in whatever order their goroutines run, every frame the server
writes is written by the handler of one message to a user, which has written nothing before: either it carries the text of that
message, to a connection that was online under the name the message is addressed to while it was handled, or it is the note that this
user is offline, to the connection the message came from.
Missing: that the frame names the sender (`C109_sender_violated`). -/
theorem C109_delivered_partial (R : Nat → Option Nat) (enc : ChatFrame → Nat) (jobs : Nat → ChatJob) (sched : List Nat)
    (post pre : List PEvent) (tid o f : Nat) (r : PVal)
    (h : ((chatStart R enc jobs).run sched).trace = post ++ ⟨tid, .write o f, r⟩ :: pre) :
    WroteNothing tid pre ∧ ∃ c text to, jobs tid = .message c (.say (some (text, to))) ∧
      ((∃ p name, R c = some p ∧ f = enc { id := 6, message := text, fromUser := name } ∧ OnlineMeanwhile tid p to o pre) ∨
        (f = enc { id := 200, message := offlineNote to } ∧ o = c)) := by
  obtain ⟨h1, c, text, to, hj, h2⟩ := (chat_run R enc jobs sched).2 post tid o f r pre h
  refine ⟨h1, c, text, to, hj, ?_⟩
  rcases h2 with ⟨p, hp, hf, ho⟩ | h2
  · exact .inl ⟨p, to, hp, hf, ho⟩
  · exact .inr h2

/-- C109 is violated: in no execution does a delivered message name its sender, unless the sender writes to a user of its own name: the
handler fills in the name of the receiver. -/
theorem C109_sender_violated (R : Nat → Option Nat) (enc : ChatFrame → Nat) (henc : ∀ a b, enc a = enc b → a = b)
    (jobs : Nat → ChatJob) (tid c : Nat) (text to sender : String) (hj : jobs tid = .message c (.say (some (text, to))))
    (hne : sender ≠ to) (sched : List Nat) (o : Nat) (r : PVal) :
    ⟨tid, .write o (enc { id := 6, message := text, fromUser := sender }), r⟩ ∉ ((chatStart R enc jobs).run sched).trace := by
  intro hm
  obtain ⟨post, pre, h⟩ := List.append_of_mem hm
  obtain ⟨_, c', text', to', hj', h2⟩ := (chat_run R enc jobs sched).2 post tid o _ r pre h
  rw [hj] at hj'
  simp only [ChatJob.message.injEq, ChatMsg.say.injEq, Option.some.injEq, Prod.mk.injEq] at hj'
  obtain ⟨rfl, rfl, rfl⟩ := hj'
  rcases h2 with ⟨_, _, hf, _⟩ | ⟨hf, _⟩
  · have := henc _ _ hf
    simp only [ChatFrame.mk.injEq, true_and] at this
    exact hne this
  · have := congrArg ChatFrame.id (henc _ _ hf)
    exact absurd (show (6 : Int32) = 200 from this) (by decide)

/-- Two users log in, then the second writes to the first. -/
def Demo.chat (amy bob text : String) : Nat → ChatJob
  | 0 => .message 1 (.login (some amy))
  | 1 => .message 2 (.login (some bob))
  | _ => .message 2 (.say (some (text, amy)))

/-- Numbering of frames used in the examples. -/
def Demo.encFrame (f : ChatFrame) : Nat := if f.id = 6 then 600 + f.fromUser.length else 200

-- "hello" from bob is delivered to the connection of amy, as from amy
example : let y := (chatStart (fun _ => some 0) Demo.encFrame (Demo.chat "amy" "robert" "hello")).run [0, 0, 1, 1, 2, 2, 2, 2, 2]
    (y.world.conn 1).sent = [603] ∧ (y.world.conn 2).sent = [] ∧
    y.trace.head? = some ⟨2, .write 1 (Demo.encFrame ⟨6, "hello", "amy"⟩), .bool true⟩ := by decide

/-! ## C110 -/

/-- C110 (partial): a message handled without interruption, in any state the server can reach, while the sender is connected and the
receiver's connection is not just being closed: if the receiver is online the text is written once, to that connection, and otherwise
the note is written once, to the sender; nothing else happens.
Missing: receivers that leave meanwhile (`C110_lost_violated`), requests that cannot be decoded (`C110_crash_violated`). -/
theorem C110_told_partial (R : Nat → Option Nat) (enc : ChatFrame → Nat) (jobs : Nat → ChatJob) (sched : List Nat) (tid c p : Nat)
    (text to : String) (hR : R c = some p) :
    let y := (chatStart R enc jobs).run sched
    (y.world.pool p).holder = none → (y.world.conn c).netClosed = false →
    (∀ o, latestEntry p to y.trace = some o → (y.world.conn o).offline = false → (y.world.conn o).netClosed = false) →
    (∃ o name, latestEntry p to y.trace = some o ∧ (y.world.conn o).offline = false ∧
      (chatSend R enc c (some (text, to))).exec tid y.world = .done () (y.world.setConn o { y.world.conn o with
        sent := enc { id := 6, message := text, fromUser := name } :: (y.world.conn o).sent })) ∨
    ((∀ o, latestEntry p to y.trace = some o → (y.world.conn o).offline = true) ∧
      (chatSend R enc c (some (text, to))).exec tid y.world = .done () (y.world.setConn c { y.world.conn c with
        sent := enc { id := 200, message := offlineNote to } :: (y.world.conn c).sent })) := by
  intro y hfree hc hopen
  have hl := (chat_run R enc jobs sched).1 p to
  change (y.world.pool p).clients.get? to = latestEntry p to y.trace at hl
  have hnote : enc (chatNote to) = enc { id := 200, message := offlineNote to } := rfl
  cases he : latestEntry p to y.trace with
  | none =>
    right
    rw [he] at hl
    refine ⟨by simp, ?_⟩
    simp [chatSend, hR, exec_monad_bind, PProg.exec, poolLook, World.act, hfree, hl, isOnlineNow, doAct, hc, hnote]
  | some o =>
    rw [he] at hl
    cases ho : (y.world.conn o).offline with
    | true =>
      right
      refine ⟨by simp [ho], ?_⟩
      simp [chatSend, hR, exec_monad_bind, PProg.exec, poolLook, World.act, hfree, hl, isOnlineNow, isOfflineNow, ho, doAct, hc, hnote]
    | false =>
      left
      have hn := hopen o he ho
      refine ⟨o, to, rfl, ho, ?_⟩
      simp [chatSend, hR, exec_monad_bind, PProg.exec, poolLook, World.act, hfree, hl, isOnlineNow, isOfflineNow, ho, doAct, hn,
        sendToUsername]

/-- C110 is violated by a receiver that leaves: between the closing of its connection and its removal from the pool it counts as
online, so that the text is written to a closed connection and the sender is not told, whatever the names and the text. -/
theorem C110_lost_violated (enc : ChatFrame → Nat) (amy text : String) (ha : amy ≠ "") :
    ∃ sched, let y := (chatStart (fun _ => some 0) enc fun
        | 0 => .message 1 (.login (some amy))
        | 1 => .close 1
        | _ => .message 2 (.say (some (text, amy)))).run sched
      (match y.threads 2 with | .ret _ => True | _ => False) ∧ (y.world.conn 1).sent = [] ∧ (y.world.conn 2).sent = [] := by
  refine ⟨[0, 0, 1, 2, 2, 2, 2, 2], ?_⟩
  simp [PSys.run, PSys.step, chatStart, ChatJob.run, chatOnline, chatSend, ctxOnline, closeConn, poolLook, doUnit, doAct, World.act,
    World.setConn, World.setPool, Bind.bind, PProg.bind, ha, isOnlineNow, isOfflineNow, sendToUsername]

/-- C110 is violated by a request that cannot be decoded: the handler panics, in any state; the process ends (C59). -/
theorem C110_crash_violated (R : Nat → Option Nat) (enc : ChatFrame → Nat) (w : World) (tid c : Nat) :
    (ChatJob.run R enc (.message c (.say none))).exec tid w = .panic w := rfl

-- amy is not online: bob is told
example : let y := (chatStart (fun _ => some 0) Demo.encFrame (Demo.chat "amy" "robert" "hello")).run [1, 1, 2, 2]
    (y.world.conn 2).sent = [200] ∧ latestEntry 0 "amy" y.trace = none := by decide

-- the hypotheses of `C110_told_partial` are met when amy has logged in
example : let y := (chatStart (fun _ => some 0) Demo.encFrame (Demo.chat "amy" "robert" "hello")).run [0, 0, 1, 1]
    (y.world.pool 0).holder = none ∧ (y.world.conn 2).netClosed = false ∧ latestEntry 0 "amy" y.trace = some 1 ∧
      (y.world.conn 1).netClosed = false ∧ (y.world.conn 1).offline = false := by decide

end Tcpx
