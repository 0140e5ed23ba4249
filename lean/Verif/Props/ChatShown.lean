import Verif.Props.Chat
import Verif.Props.ExampleClients
import Verif.Lemmas.DemoCodec
/-!
# C155: what a chat client shows, from the handlers of the server to the lines of the client
-/
namespace Tcpx
open Spec ExampleClients

/-- The writes to connection `o` that went through, newest first: by which goroutine, and which frame. -/
def Spec.writesTo (o : Nat) (tr : List PEvent) : List (Nat × Nat) :=
  tr.filterMap fun e => match e.action with
    | .write o' f => if o' = o ∧ e.result = .bool true then some (e.tid, f) else none
    | _ => none

/-- A line that the client with connection `o` may show because of goroutine `tid`: this is the handler of one message to a user, and
either the line is the text of that message, and `o` was online under the name it is addressed to while it was handled, or it says that
this user is offline, and the message came from this client. -/
def Spec.LineOf (R : Nat → Option Nat) (jobs : Nat → ChatJob) (tr : List PEvent) (o tid : Nat) (line : String) : Prop :=
  ∃ c text to, jobs tid = .message c (.say (some (text, to))) ∧
    ((∃ p name, R c = some p ∧ line = name ++ ": " ++ text ∧ OnlineMeanwhile tid p to o tr) ∨
      (line = "message: " ++ offlineNote to ∧ o = c))

theorem sent_step (o : Nat) (y : PSys) (tid : Nat) (h : (y.world.conn o).sent = (writesTo o y.trace).map Prod.snd) :
    ((y.step tid).world.conn o).sent = (writesTo o (y.step tid).trace).map Prod.snd := by
  unfold PSys.step
  split
  · rename_i a k ha
    split
    · rename_i r w hw
      have key : (w.conn o).sent = ((match a with
          | .write o' f => if o' = o ∧ r = .bool true then some (tid, f) else none
          | _ => none : Option (Nat × Nat)).toList.map Prod.snd) ++ (y.world.conn o).sent := by
        cases a with
        | write c f =>
          simp only [World.act] at hw
          split at hw
          · cases hw; simp
          · cases hw
            by_cases hc : c = o
            · subst hc; simp [World.setConn]
            · simp [World.setConn, hc, Ne.symm hc]
        | _ =>
          simp only [World.act] at hw
          first
            | (cases hw; simp [World.setConn, World.setPool]; done)
            | (cases hw; simp only [World.setConn]; by_cases hc : o = ‹Nat› <;> simp [hc]; done)
            | (split at hw <;> cases hw <;> simp [World.setPool]; done)
            | (cases hw; simp [World.setConn]; split <;> simp_all)
      show (w.conn o).sent = (writesTo o (⟨tid, a, r⟩ :: y.trace)).map Prod.snd
      rw [key, h]
      unfold writesTo
      rw [List.filterMap_cons]
      cases a <;> simp
      split <;> simp
    · exact h
  · exact h

theorem sent_run (R : Nat → Option Nat) (enc : ChatFrame → Nat) (jobs : Nat → ChatJob) (sched : List Nat) (o : Nat) :
    (((chatStart R enc jobs).run sched).world.conn o).sent =
      (writesTo o ((chatStart R enc jobs).run sched).trace).map Prod.snd := by
  unfold PSys.run
  suffices ∀ y : PSys, (y.world.conn o).sent = (writesTo o y.trace).map Prod.snd →
      ((sched.foldl PSys.step y).world.conn o).sent = (writesTo o (sched.foldl PSys.step y).trace).map Prod.snd from
    this _ rfl
  induction sched with
  | nil => intro y h; exact h
  | cons t ts ih => intro y h; exact ih _ (sent_step o y t h)

theorem mem_writesTo {o : Nat} {tr : List PEvent} {x : Nat × Nat} (h : x ∈ writesTo o tr) :
    ∃ post pre, tr = post ++ ⟨x.1, .write o x.2, .bool true⟩ :: pre := by
  obtain ⟨e, he, hx⟩ := List.mem_filterMap.1 h
  obtain ⟨tid, a, r⟩ := e
  cases a <;> simp at hx
  obtain ⟨⟨rfl, rfl⟩, rfl⟩ := hx
  exact List.append_of_mem he

theorem writesTo_nodup (o : Nat) (tr : List PEvent)
    (h : ∀ post tid o f r pre, tr = post ++ ⟨tid, .write o f, r⟩ :: pre → WroteNothing tid pre) :
    ((writesTo o tr).map Prod.fst).Nodup := by
  induction tr with
  | nil => exact List.nodup_nil
  | cons e tr ih =>
    have i := ih fun post tid o f r pre heq => h (e :: post) tid o f r pre (by rw [heq]; rfl)
    unfold writesTo at i ⊢
    rw [List.filterMap_cons]
    obtain ⟨tid, a, r⟩ := e
    cases a with
    | write c f =>
      dsimp only
      split
      · exact i
      · rename_i b hb
        split at hb
        · cases hb
          rw [List.map_cons, List.nodup_cons]
          refine ⟨fun hm => ?_, i⟩
          obtain ⟨x, hx, hxt⟩ := List.mem_map.1 hm
          obtain ⟨post, pre, heq⟩ := mem_writesTo (show x ∈ writesTo o tr from hx)
          exact h [] tid c f r tr rfl ⟨x.1, .write o x.2, .bool true⟩ (by rw [heq]; simp) hxt o x.2 rfl
        · cases hb
    | _ => exact i

/-- C155: in every execution of the chat server, a client shows the messages written to it, as many of them as have arrived whole, one
line for each and in order, however the bytes are cut up on the way; and each of these lines is due to a message of its own: it is the
text of a message to a name under which the client was online, or says that a user to whom this client has written is offline.
`wire` are the bytes of a frame, `mail` the parts they are made of; the JSON library of the client reads what that of the server
writes. -/
theorem C155_shown (R : Nat → Option Nat) (enc : ChatFrame → Nat) (jobs : Nat → ChatJob) (sched : List Nat) (o : Nat)
    (wire : Nat → Bytes) (mail : ChatFrame → ChatMail) (hf : ∀ f, (mail f).frame = f) (hw : ∀ f, wire (enc f) = (mail f).bytes)
    (note : Bytes → Option String) (talk : Bytes → Option (String × String)) :
    let y := (chatStart R enc jobs).run sched
    (∀ f, enc f ∈ (y.world.conn o).sent → f.id = 6 ∨ f.id = 200 → (mail f).Ok note talk) →
    ∀ (k : Nat) (tail : Bytes) (e : Ending) (_ : Incomplete 0 tail) (_ : e.plain) (r : Reader)
      (_ : stream r = (((((y.world.conn o).sent.reverse.take k).map wire).flatten ++ tail, e))),
    ∃ (lines : List String) (tids : List Nat), recv note talk r = (lines, if e = .stillOpen then .waits else .exits) ∧
      lines.length = min k (y.world.conn o).sent.length ∧ tids.length = lines.length ∧ tids.Nodup ∧
      ∀ (i tid : Nat) (line : String), tids[i]? = some tid → lines[i]? = some line → LineOf R jobs y.trace o tid line := by
  intro y hok k tail e ht he r hr
  have hs : (y.world.conn o).sent = (writesTo o y.trace).map Prod.snd := sent_run R enc jobs sched o
  have hrun := (chat_run R enc jobs sched).2
  change ∀ post tid o f r pre, y.trace = _ → _ at hrun
  -- the frame of a write
  have hfr : ∀ x ∈ writesTo o y.trace, ∃ f, x.2 = enc f ∧ (f.id = 6 ∨ f.id = 200) ∧ LineOf R jobs y.trace o x.1 (mail f).line := by
    intro x hx
    obtain ⟨post, pre, heq⟩ := mem_writesTo hx
    obtain ⟨_, c, text, to, hj, h2⟩ := hrun post x.1 o x.2 _ pre heq
    rcases h2 with ⟨p, hp, hfe, l, ev, b, h1, h3, h4⟩ | ⟨hfe, ho⟩
    · refine ⟨_, hfe, .inl rfl, c, text, to, hj, .inl ⟨p, to, hp, ?_, ?_⟩⟩
      · simp [ChatMail.line, hf]
      · exact ⟨post ++ ⟨x.1, .write o x.2, .bool true⟩ :: l, ev, b, by rw [heq, h1]; simp, h3, h4⟩
    · refine ⟨_, hfe, .inr rfl, c, text, to, hj, .inr ⟨?_, ho⟩⟩
      simp only [ChatMail.line, hf]
      rw [if_neg (show ¬ (chatNote to).id = 6 from by simp [chatNote])]; rfl
  have hall : ∀ ws : List (Nat × Nat), (∀ x ∈ ws, x ∈ writesTo o y.trace) →
      ∃ ms : List ChatMail, ms.map ChatMail.bytes = ws.map (fun x => wire x.2) ∧ (∀ x ∈ ms, x.Ok note talk) ∧
        ms.length = ws.length ∧ ∀ (i tid : Nat) (line : String), (ws.map Prod.fst)[i]? = some tid →
          (ms.map ChatMail.line)[i]? = some line → LineOf R jobs y.trace o tid line := by
    intro ws
    induction ws with
    | nil => intro _; exact ⟨[], rfl, by simp, rfl, by simp⟩
    | cons x ws ih =>
      intro hx
      obtain ⟨ms, m1, m2, m3, m4⟩ := ih fun z hz => hx z (List.mem_cons_of_mem _ hz)
      obtain ⟨f, f1, f2, f3⟩ := hfr x (hx x List.mem_cons_self)
      have fok : (mail f).Ok note talk := hok f (by
        rw [hs, ← f1]; exact List.mem_map_of_mem (hx x List.mem_cons_self)) f2
      refine ⟨mail f :: ms, ?_, ?_, ?_, ?_⟩
      · rw [List.map_cons, List.map_cons, m1, f1, hw]
      · intro z hz
        rcases List.mem_cons.1 hz with rfl | hz
        · exact fok
        · exact m2 z hz
      · rw [List.length_cons, List.length_cons, m3]
      · intro i tid line h1 h2
        cases i with
        | zero =>
          rw [List.map_cons, List.getElem?_cons_zero] at h1 h2
          cases h1; cases h2
          exact f3
        | succ i =>
          rw [List.map_cons, List.getElem?_cons_succ] at h1 h2
          exact m4 i tid line h1 h2
  obtain ⟨ms, m1, m2, m3, m4⟩ := hall ((writesTo o y.trace).reverse.take k) fun x hx =>
    List.mem_reverse.1 (List.mem_of_mem_take hx)
  have hb : ((y.world.conn o).sent.reverse.take k).map wire = ms.map ChatMail.bytes := by
    rw [m1, hs, ← List.map_reverse, ← List.map_take, List.map_map]; rfl
  rw [hb] at hr
  refine ⟨ms.map ChatMail.line, ((writesTo o y.trace).reverse.take k).map Prod.fst, C140_shown note talk ms m2 tail e ht he r hr,
    ?_, ?_, ?_, m4⟩
  · rw [List.length_map, m3, hs]; simp
  · rw [List.length_map, List.length_map, m3]
  · rw [List.map_take]
    refine (List.take_sublist _ _).nodup ?_
    rw [List.map_reverse]
    have hn := writesTo_nodup o y.trace fun post tid o f r pre heq => (hrun post tid o f r pre heq).1
    exact List.pairwise_reverse.2 (List.Pairwise.imp (fun h => Ne.symm h) hn)

theorem sent_frames (R : Nat → Option Nat) (enc : ChatFrame → Nat) (jobs : Nat → ChatJob) (sched : List Nat) (o : Nat) :
    ∃ fs : List ChatFrame, (((chatStart R enc jobs).run sched).world.conn o).sent = fs.map enc ∧
      ∀ f ∈ fs, f.id = 6 ∨ f.id = 200 := by
  rw [sent_run]
  have hrun := (chat_run R enc jobs sched).2
  have : ∀ ws : List (Nat × Nat), (∀ x ∈ ws, x ∈ writesTo o ((chatStart R enc jobs).run sched).trace) →
      ∃ fs : List ChatFrame, ws.map Prod.snd = fs.map enc ∧ ∀ f ∈ fs, f.id = 6 ∨ f.id = 200 := by
    intro ws
    induction ws with
    | nil => intro _; exact ⟨[], rfl, by simp⟩
    | cons x ws ih =>
      intro hx
      obtain ⟨fs, h1, h2⟩ := ih fun z hz => hx z (List.mem_cons_of_mem _ hz)
      obtain ⟨post, pre, heq⟩ := mem_writesTo (hx x List.mem_cons_self)
      obtain ⟨_, c, text, to, hj, h3⟩ := hrun post x.1 o x.2 _ pre heq
      rcases h3 with ⟨p, hp, hfe, _⟩ | ⟨hfe, _⟩
      · exact ⟨_ :: fs, by rw [List.map_cons, List.map_cons, h1, hfe], by
          intro f hf; rcases List.mem_cons.1 hf with rfl | hf
          · exact .inl rfl
          · exact h2 f hf⟩
      · exact ⟨_ :: fs, by rw [List.map_cons, List.map_cons, h1, hfe], by
          intro f hf; rcases List.mem_cons.1 hf with rfl | hf
          · exact .inr rfl
          · exact h2 f hf⟩
  exact this _ fun _ h => h

/-- C155: a message to a user who is online, handled without interruption in any state the server can reach, is the last line that the
client of this user shows, once the bytes have arrived. -/
theorem C155_reaches (R : Nat → Option Nat) (enc : ChatFrame → Nat) (jobs : Nat → ChatJob) (sched : List Nat) (tid c p o : Nat)
    (text to : String) (hR : R c = some p)
    (wire : Nat → Bytes) (mail : ChatFrame → ChatMail) (hf : ∀ f, (mail f).frame = f) (hw : ∀ f, wire (enc f) = (mail f).bytes)
    (note : Bytes → Option String) (talk : Bytes → Option (String × String)) :
    let y := (chatStart R enc jobs).run sched
    (y.world.pool p).holder = none → (y.world.conn c).netClosed = false → latestEntry p to y.trace = some o →
    (y.world.conn o).offline = false → (y.world.conn o).netClosed = false →
    ∃ w, (chatSend R enc c (some (text, to))).exec tid y.world = .done () w ∧
      ((∀ f, enc f ∈ (w.conn o).sent → f.id = 6 ∨ f.id = 200 → (mail f).Ok note talk) →
        ∀ (tail : Bytes) (e : Ending) (_ : Incomplete 0 tail) (_ : e.plain) (r : Reader)
          (_ : stream r = ((((w.conn o).sent.reverse.map wire).flatten ++ tail, e))),
        ∃ (lines : List String) (name : String),
          recv note talk r = (lines ++ [name ++ ": " ++ text], if e = .stillOpen then .waits else .exits) ∧
          lines.length = (y.world.conn o).sent.length) := by
  intro y hfree hc hl hoff hnet
  obtain ⟨fs, hs, hid⟩ := sent_frames R enc jobs sched o
  change (y.world.conn o).sent = _ at hs
  rcases C110_told_partial R enc jobs sched tid c p text to hR hfree hc
      (fun o' h1 _ => by change latestEntry p to y.trace = _ at h1; rw [hl] at h1; cases h1; exact hnet) with
    ⟨o', name, h1, _, h3⟩ | ⟨h1, _⟩
  · change latestEntry p to y.trace = _ at h1
    rw [hl] at h1; cases h1
    refine ⟨_, h3, fun hok tail e ht he r hr => ?_⟩
    have hsent : ((World.setConn y.world o { y.world.conn o with
        sent := enc { id := 6, message := text, fromUser := name } :: (y.world.conn o).sent }).conn o).sent =
        (({ id := 6, message := text, fromUser := name } : ChatFrame) :: fs).map enc := by
      simp [World.setConn, hs]
    generalize hF : (({ id := 6, message := text, fromUser := name } : ChatFrame) :: fs) = gs at hsent
    have hid' : ∀ f ∈ gs, f.id = 6 ∨ f.id = 200 := by
      subst hF
      intro f hf'; rcases List.mem_cons.1 hf' with rfl | hf'
      · exact .inl rfl
      · exact hid f hf'
    have hb : (((World.setConn y.world o { y.world.conn o with
        sent := enc { id := 6, message := text, fromUser := name } :: (y.world.conn o).sent }).conn o).sent.reverse.map wire) =
        (gs.reverse.map mail).map ChatMail.bytes := by
      rw [hsent, ← List.map_reverse, List.map_map, List.map_map]
      exact List.map_congr_left fun f _ => hw f
    have hr' := hr
    change stream r = ((((World.setConn y.world o { y.world.conn o with
        sent := enc { id := 6, message := text, fromUser := name } :: (y.world.conn o).sent }).conn o).sent.reverse.map wire).flatten
          ++ tail, e) at hr'
    rw [hb] at hr'
    have hsh := C140_shown note talk (gs.reverse.map mail) (fun x hx => by
      obtain ⟨f, hf', rfl⟩ := List.mem_map.1 hx
      have hf' := List.mem_reverse.1 hf'
      refine hok f ?_ (hid' f hf')
      exact hsent ▸ List.mem_map_of_mem hf') tail e ht he r hr'
    refine ⟨(fs.reverse.map mail).map ChatMail.line, name, ?_, ?_⟩
    · rw [hsh, ← hF]
      simp [ChatMail.line, hf]
    · simp [hs]
  · have := h1 o hl
    change (y.world.conn o).offline = true at this
    rw [hoff] at this; cases this

/-- A number for a list of bytes, used in the example. -/
def Demo.toNum : Bytes → Nat
  | [] => 0
  | b :: bs => Demo.toNum bs * 256 + b.toNat + 1

/-- Its inverse. -/
def Demo.ofNum (n : Nat) : Bytes :=
  if h : n = 0 then [] else UInt8.ofNat ((n - 1) % 256) :: Demo.ofNum ((n - 1) / 256)
termination_by n
decreasing_by omega

theorem Demo.ofNum_toNum (bs : Bytes) : Demo.ofNum (Demo.toNum bs) = bs := by
  induction bs with
  | nil => unfold Demo.toNum Demo.ofNum; rfl
  | cons b bs ih =>
    have hb := b.toNat_lt
    unfold Demo.toNum Demo.ofNum
    rw [dif_neg (by omega), show Demo.toNum bs * 256 + b.toNat + 1 - 1 = b.toNat + 256 * Demo.toNum bs by omega,
      Nat.add_mul_mod_self_left, Nat.add_mul_div_left _ _ (by decide), Nat.mod_eq_of_lt (by simpa using hb),
      Nat.div_eq_of_lt (by simpa using hb), Nat.zero_add, ih]
    simp

/-- A message of the chat server, written with the codec of the examples. -/
def Demo.chatMail (f : ChatFrame) : ChatMail := ⟨f, [123, 125], Demo.encStr f.message ++ Demo.encStr f.fromUser⟩
/-- The decoding of a note. -/
def Demo.noteOf (b : Bytes) : Option String := (Demo.decStr b).map Prod.fst
/-- The decoding of a text. -/
def Demo.talkOf (b : Bytes) : Option (String × String) :=
  match Demo.decStr b with
  | some (m, r) => (Demo.decStr r).map fun x => (m, x.1)
  | none => none
/-- The numbering of frames that belongs to it. -/
def Demo.frameNum (f : ChatFrame) : Nat := Demo.toNum (Demo.chatMail f).bytes

-- the hypotheses of `C155_reaches` are those of `C110_told_partial`, met in the last example of `Props/Chat`

set_option maxRecDepth 100000 in
-- amy and robert are online and robert has written "hello" to amy: one message has been sent to amy's client, and the hypotheses of
-- `C155_shown` are met
example : let y := (chatStart (fun _ => some 0) Demo.frameNum (Demo.chat "amy" "robert" "hello")).run [0, 0, 1, 1, 2, 2, 2, 2, 2]
    (y.world.conn 1).sent = [Demo.frameNum ⟨6, "hello", "amy"⟩] ∧
    (∀ f, Demo.ofNum (Demo.frameNum f) = (Demo.chatMail f).bytes) ∧ (∀ f, (Demo.chatMail f).frame = f) ∧
    ∀ f, Demo.frameNum f ∈ (y.world.conn 1).sent → f.id = 6 ∨ f.id = 200 → (Demo.chatMail f).Ok Demo.noteOf Demo.talkOf := by
  intro y
  have hs : (y.world.conn 1).sent = [Demo.frameNum ⟨6, "hello", "amy"⟩] := by
    have : ∀ enc, (((chatStart (fun _ => some 0) enc (Demo.chat "amy" "robert" "hello")).run
        [0, 0, 1, 1, 2, 2, 2, 2, 2]).world.conn 1).sent = [enc ⟨6, "hello", "amy"⟩] := fun _ => rfl
    exact this _
  have hw : ∀ f, Demo.ofNum (Demo.frameNum f) = (Demo.chatMail f).bytes := fun f => Demo.ofNum_toNum _
  refine ⟨hs, hw, fun _ => rfl, fun f hf hid => ?_⟩
  rw [hs, List.mem_singleton] at hf
  have hb := congrArg Demo.ofNum hf
  rw [hw, hw] at hb
  have hl := congrArg List.length hb
  simp only [ChatMail.bytes, frame_length] at hl
  refine ⟨?_, ?_⟩
  · have : payload (Demo.chatMail ⟨6, "hello", "amy"⟩).header (Demo.chatMail ⟨6, "hello", "amy"⟩).body < 2^31 - 4 := by decide
    omega
  · rcases hid with h | h
    · refine .inl ⟨h, ?_⟩
      have h2 := Demo.dec_enc_str f.fromUser []
      rw [List.append_nil] at h2
      simp [Demo.talkOf, Demo.chatMail, Demo.dec_enc_str, h2]
    · exact .inr ⟨by simp [Demo.chatMail, h], by simp [Demo.noteOf, Demo.chatMail, Demo.dec_enc_str]⟩

end Tcpx
