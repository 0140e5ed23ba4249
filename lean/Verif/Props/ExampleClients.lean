import Verif.Model.ExampleClients
import Verif.Model.Chat
import Verif.Lemmas.Client
import Verif.Props.Codec
/-!
# Properties C140–C142: the clients of the examples
-/
namespace Tcpx
open Spec ExampleClients

/-! ## C140 -/

/-- A message to a chat client: what it says, and the bytes of its header and body. -/
structure ChatMail where
  frame : ChatFrame
  header : Bytes
  body : Bytes

/-- The bytes of a message to a chat client. -/
def ChatMail.bytes (x : ChatMail) : Bytes := Spec.frame x.frame.id.toInt x.header x.body

/-- The message is one the chat server sends: text of a user (6) or a note (200, 400, 500), its body decodes to what it says, and its
length fits. -/
def ChatMail.Ok (note : Bytes → Option String) (talk : Bytes → Option (String × String)) (x : ChatMail) : Prop :=
  payload x.header x.body < 2^31 - 4 ∧
  (x.frame.id = 6 ∧ talk x.body = some (x.frame.message, x.frame.fromUser) ∨
    x.frame.id ∈ [200, 400, 500] ∧ note x.body = some x.frame.message)

/-- What the user should see. -/
def ChatMail.line (x : ChatMail) : String :=
  if x.frame.id = 6 then x.frame.fromUser ++ ": " ++ x.frame.message else "message: " ++ x.frame.message

theorem recv_ok {note : Bytes → Option String} {talk : Bytes → Option (String × String)} {r r' : Reader} {b : Bytes} {o : Option String}
    (h : firstBlockOf (some r) = .ok b r') (hm : message note talk b = .ok o) :
    recv note talk r = (o.toList ++ (recv note talk r').1, (recv note talk r').2) := by
  conv => lhs; unfold recv
  split
  · rename_i h'; rw [h] at h'; cases h'
  · rename_i h'; rw [h] at h'; cases h'
  · rename_i h'; rw [h] at h'; cases h'
  · rename_i h'; rw [h] at h'; cases h'
    rw [hm]

theorem recv_panics {note : Bytes → Option String} {talk : Bytes → Option (String × String)} {r r' : Reader} {b : Bytes}
    (h : firstBlockOf (some r) = .ok b r') (hm : message note talk b = .panic) : recv note talk r = ([], .panics) := by
  conv => lhs; unfold recv
  split
  · rename_i h'; rw [h] at h'; cases h'
  · rfl
  · rename_i h'; rw [h] at h'; cases h'
  · rename_i h'; rw [h] at h'; cases h'
    rw [hm]

theorem recv_end {note : Bytes → Option String} {talk : Bytes → Option (String × String)} {r : Reader}
    (hi : Incomplete 0 (stream r).1) (he : (stream r).2.plain) :
    recv note talk r = ([], if (stream r).2 = .stillOpen then .waits else .exits) := by
  have h : shortOut (firstBlockOf (some r)) (stream r).2 := incomplete_step r 0 hi
  conv => lhs; unfold recv
  cases hs : (stream r).2 <;> rw [hs] at h he
  · have h : firstBlockOf (some r) = .block := h
    split <;> rename_i h' <;> rw [h] at h' <;> cases h'; rfl
  · obtain ⟨_, h⟩ := h
    split <;> rename_i h' <;> rw [h] at h' <;> cases h'; rfl
  · cases he
  · obtain ⟨_, h⟩ := h
    split <;> rename_i h' <;> rw [h] at h' <;> cases h'; rfl

theorem message_frame (note : Bytes → Option String) (talk : Bytes → Option (String × String)) (id : Int32) (hb bb : Bytes)
    (hs : payload hb bb < 2^31 - 4) : message note talk (Spec.frame id.toInt hb bb) = text note talk id bb := by
  obtain ⟨-, h1, -, -, -, t, h2, h3⟩ := C02_accessors { live := Spec.frame id.toInt hb bb } id hb bb [] (by simp) hs
  rw [message, h1, h2, ← h3]

theorem step_frame (id : Int) (hb bb rest : Bytes) (e : Ending) (r : Reader) (hs : payload hb bb < 2^31 - 4)
    (hr : stream r = (Spec.frame id hb bb ++ rest, e)) :
    ∃ r', firstBlockOf (some r) = .ok (Spec.frame id hb bb) r' ∧ stream r' = (rest, e) :=
  frame_step r 0 _ rest e hr (frame_acceptable _ _ _ _ (by omega) (fun h => absurd h (by decide)))

/-- C140: a chat client shows every message the server sends to it, once and in order, however the bytes are cut up on the way and
whatever part of a further message follows; then it waits, or ends if the connection has ended. -/
theorem C140_shown (note : Bytes → Option String) (talk : Bytes → Option (String × String)) (ms : List ChatMail)
    (hm : ∀ x ∈ ms, x.Ok note talk) (tail : Bytes) (e : Ending) (ht : Incomplete 0 tail) (he : e.plain) (r : Reader)
    (hr : stream r = ((ms.map ChatMail.bytes).flatten ++ tail, e)) :
    recv note talk r = (ms.map ChatMail.line, if e = .stillOpen then .waits else .exits) := by
  induction ms generalizing r with
  | nil =>
    have hr : stream r = (tail, e) := hr
    have := recv_end (note := note) (talk := talk) (r := r) (by rw [hr]; exact ht) (by rw [hr]; exact he)
    rw [this, hr]; rfl
  | cons x ms ih =>
    obtain ⟨hs, hx⟩ := hm x List.mem_cons_self
    simp only [List.map_cons, List.flatten_cons, List.append_assoc] at hr
    obtain ⟨r', h1, h2⟩ := step_frame _ _ _ _ _ _ hs hr
    have h3 := ih (fun y hy => hm y (List.mem_cons_of_mem _ hy)) r' h2
    have h4 : message note talk (Spec.frame x.frame.id.toInt x.header x.body) = .ok (some x.line) := by
      rw [message_frame _ _ _ _ _ hs, text, ChatMail.line]
      rcases hx with ⟨hid, hx⟩ | ⟨hid, hx⟩
      · rw [hid, if_neg (by decide), if_pos rfl, hx, if_pos rfl]
      · simp only [List.mem_cons, List.not_mem_nil, or_false] at hid
        rw [if_pos (by rcases hid with h | h | h <;> simp [h]), hx,
          if_neg (by rcases hid with h | h | h <;> rw [h] <;> decide)]
    rw [recv_ok h1 h4, h3]; rfl

/-- C140: messages with other ids are passed over. -/
theorem C140_others_limit (note : Bytes → Option String) (talk : Bytes → Option (String × String)) (id : Int32) (hb bb rest : Bytes)
    (hid : id ∉ [6, 200, 400, 500]) (hs : payload hb bb < 2^31 - 4) (e : Ending) (r : Reader)
    (hr : stream r = (Spec.frame id.toInt hb bb ++ rest, e)) :
    ∃ r', stream r' = (rest, e) ∧ recv note talk r = recv note talk r' := by
  obtain ⟨r', h1, h2⟩ := step_frame _ _ _ _ _ _ hs hr
  refine ⟨r', h2, ?_⟩
  simp only [List.mem_cons, List.not_mem_nil, or_false, not_or] at hid
  rw [recv_ok (o := none) h1 (by rw [message_frame _ _ _ _ _ hs, text, if_neg (by simp [hid]), if_neg hid.1])]; rfl

/-- C140: a message of one of these ids whose body cannot be decoded ends the client. -/
theorem C140_undecodable_limit (note : Bytes → Option String) (talk : Bytes → Option (String × String)) (id : Int32) (hb bb rest : Bytes)
    (hid : id = 6 ∧ talk bb = none ∨ id ∈ [200, 400, 500] ∧ note bb = none) (hs : payload hb bb < 2^31 - 4) (e : Ending) (r : Reader)
    (hr : stream r = (Spec.frame id.toInt hb bb ++ rest, e)) : recv note talk r = ([], .panics) := by
  obtain ⟨r', h1, h2⟩ := step_frame _ _ _ _ _ _ hs hr
  refine recv_panics h1 ?_
  rw [message_frame _ _ _ _ _ hs, text]
  rcases hid with ⟨rfl, h⟩ | ⟨hid, h⟩
  · rw [if_neg (by decide), if_pos rfl, h]
  · simp only [List.mem_cons, List.not_mem_nil, or_false] at hid
    rw [if_pos (by rcases hid with h | h | h <;> simp [h]), h]

/-- Decoding used in the examples: the bytes are ASCII; a text of a user is "user" then its text. -/
def Demo.note (b : Bytes) : Option String := some (String.ofList (b.map fun x => Char.ofNat x.toNat))
/-- The other decoding used in the examples: the first byte is the name. -/
def Demo.talk : Bytes → Option (String × String)
  | [] => none
  | u :: b => some (String.ofList (b.map fun x => Char.ofNat x.toNat), String.ofList [Char.ofNat u.toNat])

/-- Two messages to a chat client. -/
def Demo.mails : List ChatMail :=
  [⟨⟨6, "hi", "b"⟩, [123, 125], [98, 104, 105]⟩, ⟨⟨200, "'c'", ""⟩, [123, 125], [39, 99, 39]⟩]

example : (∀ x ∈ Demo.mails, x.Ok Demo.note Demo.talk) ∧ Incomplete 0 [0, 0] ∧
    (Demo.mails.map ChatMail.line) = ["b: hi", "message: 'c'"] := by
  refine ⟨?_, .inl (by decide), by decide⟩
  intro x hx
  simp only [Demo.mails, List.mem_cons, List.not_mem_nil, or_false] at hx
  rcases hx with rfl | rfl
  · exact ⟨by decide, .inl ⟨by decide, by decide⟩⟩
  · exact ⟨by decide, .inr ⟨by decide, by decide⟩⟩

/-! ## C141 -/

/-- C141 (partial): as long as the input goes on, a chat client sends every line typed that is not empty, once and in order, and nothing
else.
Missing: the end of the input (`C141_end_violated`). -/
theorem C141_lines_partial (lines : List String) (n : Nat) :
    sends n lines none = ((lines.take n).filter (· ≠ "")).map (· ++ "\n") := by
  induction n generalizing lines with
  | zero => simp [sends]
  | succ n ih =>
    cases lines with
    | nil => simp [sends]
    | cons l ls =>
      simp only [sends, ih, List.take_succ_cons, List.filter_cons]
      have h1 : (l ++ "\n").utf8ByteSize = l.utf8ByteSize + 1 := by rw [String.utf8ByteSize_append]; rfl
      by_cases h : l = ""
      · subst h; simp; rfl
      · have : l.utf8ByteSize ≠ 0 := fun h0 => h (by simpa using h0)
        rw [if_neg (by omega)]; simp [h]

/-- C141 is violated: when the input has ended (with `lines` and `s` typed), the client sends empty messages without end: in any
number `k` of further turns of its loop it sends `k` of them, after the lines and, unless it is a single byte, `s`. -/
theorem C141_end_violated (lines : List String) (s : String) (k : Nat) :
    sends (lines.length + 1 + k) lines (some s) =
      (lines.filter (· ≠ "")).map (· ++ "\n") ++ (if s.utf8ByteSize = 1 then [] else [s]) ++ List.replicate k "" := by
  have h0 : ∀ k, sends k [] (some "") = List.replicate k "" := by
    intro k
    induction k with
    | zero => rfl
    | succ k ih => simp [sends, ih, List.replicate_succ]
  induction lines with
  | nil => rw [show ([] : List String).length + 1 + k = k + 1 by simp; omega, sends, h0]; rfl
  | cons l ls ih =>
    rw [show (l :: ls).length + 1 + k = (ls.length + 1 + k) + 1 by simp; omega, sends, ih]
    have h1 : (l ++ "\n").utf8ByteSize = l.utf8ByteSize + 1 := by rw [String.utf8ByteSize_append]; rfl
    by_cases h : l = ""
    · subst h; rw [if_pos (by rw [h1]; rfl)]; simp
    · have : l.utf8ByteSize ≠ 0 := fun h0 => h (by simpa using h0)
      rw [if_neg (by omega)]; simp [h]

/-- C141 is violated: a text of one byte typed right before the end of the input is taken for an empty line and is not sent. -/
theorem C141_last_violated (lines : List String) (k : Nat) :
    sends (lines.length + 1 + k) lines (some "y") = (lines.filter (· ≠ "")).map (· ++ "\n") ++ List.replicate k "" := by
  rw [C141_end_violated, if_pos (by decide), List.append_nil]

example : sends 7 ["hi", "", "there"] none = ["hi\n", "there\n"] ∧
    sends 7 ["hi", "", "there"] (some "") = ["hi\n", "there\n", "", "", "", ""] := by decide

/-! ## C142 -/

theorem printing_ok {buf bs : Bytes} {r r' : Reader} {t : Slice} (h : RawExample.readOnce 500 r = .ok bs r')
    (hb : bodyBytesOf ⟨bs, buf.drop bs.length⟩ = .ok t) :
    printing buf r = (t.live :: (printing (bs ++ buf.drop bs.length) r').1, (printing (bs ++ buf.drop bs.length) r').2) := by
  conv => lhs; unfold printing
  split
  · rename_i h'; rw [h] at h'; cases h'
  · rename_i h'; rw [h] at h'; cases h'
  · rename_i h'; rw [h] at h'; cases h'
  · rename_i h'; rw [h] at h'; cases h'
    rw [hb]

theorem printing_err {buf bs : Bytes} {r r' : Reader} {e : Err} (h : RawExample.readOnce 500 r = .ok bs r')
    (hb : bodyBytesOf ⟨bs, buf.drop bs.length⟩ = .err e) :
    printing buf r = ([] :: (printing (bs ++ buf.drop bs.length) r').1, (printing (bs ++ buf.drop bs.length) r').2) := by
  conv => lhs; unfold printing
  split
  · rename_i h'; rw [h] at h'; cases h'
  · rename_i h'; rw [h] at h'; cases h'
  · rename_i h'; rw [h] at h'; cases h'
  · rename_i h'; rw [h] at h'; cases h'
    rw [hb]

theorem printing_panics {buf bs : Bytes} {r r' : Reader} (h : RawExample.readOnce 500 r = .ok bs r')
    (hb : bodyBytesOf ⟨bs, buf.drop bs.length⟩ = .panic) : printing buf r = ([], .panics) := by
  conv => lhs; unfold printing
  split
  · rename_i h'; rw [h] at h'; cases h'
  · rfl
  · rename_i h'; rw [h] at h'; cases h'
  · rename_i h'; rw [h] at h'; cases h'
    rw [hb]

theorem printing_nil (buf : Bytes) : printing buf [] = ([], .waits) := by unfold printing; rfl

/-- C142 (partial): if every `Read` gives exactly one message, and none is longer than 500 bytes, the client prints the bodies of the
messages in order.
Missing: messages that arrive together (`C142_together_violated`) or in pieces (`C142_pieces_violated`). -/
theorem C142_printed_partial (ms : List (Int32 × Bytes × Bytes)) (hm : ∀ x ∈ ms, 4 + payload x.2.1 x.2.2 ≤ 500) (buf : Bytes) :
    printing buf (ms.map fun x => .chunk (Spec.frame x.1.toInt x.2.1 x.2.2)) = (ms.map (·.2.2), .waits) := by
  induction ms generalizing buf with
  | nil => exact printing_nil buf
  | cons x ms ih =>
    have hx := hm x List.mem_cons_self
    have hl : (Spec.frame x.1.toInt x.2.1 x.2.2).length ≤ 500 := by rw [frame_length]; exact hx
    obtain ⟨-, -, -, -, -, t, h2, h3⟩ := C02_accessors ⟨Spec.frame x.1.toInt x.2.1 x.2.2, buf.drop (Spec.frame x.1.toInt x.2.1 x.2.2).length⟩
      x.1 x.2.1 x.2.2 [] (by simp) (by omega)
    rw [List.map_cons, printing_ok (by rw [RawExample.readOnce, if_pos hl]) h2, ih (fun y hy => hm y (List.mem_cons_of_mem _ hy)), h3]
    rfl

/-- C142 is violated: of two messages that arrive together only the first is printed. -/
theorem C142_together_violated (id id' : Int32) (hb bb hb' bb' : Bytes)
    (hl : (4 + payload hb bb) + (4 + payload hb' bb') ≤ 500) (buf : Bytes) :
    printing buf [.chunk (Spec.frame id.toInt hb bb ++ Spec.frame id'.toInt hb' bb')] = ([bb], .waits) := by
  have hl' : (Spec.frame id.toInt hb bb ++ Spec.frame id'.toInt hb' bb').length ≤ 500 := by
    rw [List.length_append, frame_length, frame_length]; exact hl
  obtain ⟨-, -, -, -, -, t, h2, h3⟩ := C02_accessors ⟨Spec.frame id.toInt hb bb ++ Spec.frame id'.toInt hb' bb', buf.drop _⟩
    id hb bb _ rfl (by omega)
  rw [printing_ok (by rw [RawExample.readOnce, if_pos hl']) h2, printing_nil, h3]

/-- The first bytes of a message, without the end of its body. -/
theorem body_cut (id : Int32) (hb bb : Bytes) (hs : payload hb bb < 2^31 - 4) (k : Nat) (h16 : 16 ≤ k)
    (hk : k < (Spec.frame id.toInt hb bb).length) (spare : Bytes) :
    bodyBytesOf ⟨(Spec.frame id.toInt hb bb).take k, spare⟩ = .err .short := by
  have hlen : ((Spec.frame id.toInt hb bb).take k).length = k := by rw [List.length_take]; omega
  have hf : ∀ j, j + 4 ≤ k → fieldAt ((Spec.frame id.toInt hb bb).take k) j = fieldAt (Spec.frame id.toInt hb bb) j := by
    intro j hj
    conv => rhs; rw [← List.take_append_drop k (Spec.frame id.toInt hb bb)]
    exact (fieldAt_append_left (by omega)).symm
  have h8 : declaredHeaderLen ((Spec.frame id.toInt hb bb).take k) = hb.length := by
    have := frame_field8 id.toInt hb bb [] (by omega)
    rw [List.append_nil] at this
    exact (hf 8 (by omega)).trans this
  have h12 : declaredBodyLen ((Spec.frame id.toInt hb bb).take k) = bb.length := by
    have := frame_field12 id.toInt hb bb [] (by omega)
    rw [List.append_nil] at this
    exact (hf 12 (by omega)).trans this
  rw [frame_length] at hk
  unfold payload at hs hk
  rw [bodyBytesOf_small _ (by rw [h8, h12]; omega), if_pos]
  rw [h8, h12, Slice.len, hlen]; omega

/-- C142 is violated: of a message that arrives in pieces, the first of them ending before its body does, an empty body is printed. -/
theorem C142_pieces_violated (id : Int32) (hb bb : Bytes) (hs : payload hb bb < 2^31 - 4) (k : Nat) (h16 : 16 ≤ k) (h500 : k ≤ 500)
    (hk : k < (Spec.frame id.toInt hb bb).length) (rest : Reader) (buf : Bytes) :
    (printing buf (.chunk ((Spec.frame id.toInt hb bb).take k) :: rest)).1.head? = some [] := by
  have hlen : ((Spec.frame id.toInt hb bb).take k).length ≤ 500 := by rw [List.length_take]; omega
  rw [printing_err (by rw [RawExample.readOnce, if_pos hlen]) (body_cut id hb bb hs k h16 hk _)]; rfl

/-- The end of the message of `C142_crash_violated`, read as a message. -/
theorem body_crash (spare : Bytes) : bodyBytesOf ⟨[0, 0, 0, 0, 0, 0, 0, 0, 255, 255, 255, 0, 0, 0, 0, 0], spare⟩ = .panic := by
  have h1 : headerLengthOf ⟨[0, 0, 0, 0, 0, 0, 0, 0, 255, 255, 255, 0, 0, 0, 0, 0], spare⟩ = .ok (-256) := by
    rw [headerLengthOf_eq]
    rw [if_neg (by simp [Slice.len])]
    show Res.ok (UInt32.ofNat (fieldAt [0, 0, 0, 0, 0, 0, 0, 0, 255, 255, 255, 0, 0, 0, 0, 0] 8)).toInt32 = _
    decide
  have h2 : bodyLengthOf ⟨[0, 0, 0, 0, 0, 0, 0, 0, 255, 255, 255, 0, 0, 0, 0, 0], spare⟩ = .ok 0 := by
    rw [bodyLengthOf_eq]
    rw [if_neg (by simp [Slice.len])]
    show Res.ok (UInt32.ofNat (fieldAt [0, 0, 0, 0, 0, 0, 0, 0, 255, 255, 255, 0, 0, 0, 0, 0] 12)).toInt32 = _
    decide
  unfold bodyBytesOf
  rw [h1, h2]
  rfl

/-- C142 is violated: a message longer than the buffer can end the client, whatever the buffer held. -/
theorem C142_crash_violated : ∃ body : Bytes, ∀ buf : Bytes, printing buf [.chunk (Spec.frame 1 [] body)] = ([[]], .panics) := by
  refine ⟨List.replicate 484 0 ++ [0, 0, 0, 0, 0, 0, 0, 0, 255, 255, 255, 0, 0, 0, 0, 0], fun buf => ?_⟩
  generalize hbb : List.replicate 484 (0 : UInt8) ++ [0, 0, 0, 0, 0, 0, 0, 0, 255, 255, 255, 0, 0, 0, 0, 0] = bb
  have hl : bb.length = 500 := by rw [← hbb, List.length_append, List.length_replicate]; rfl
  have hf : (Spec.frame (1 : Int32).toInt [] bb).length = 516 := by rw [frame_length, payload, hl]; rfl
  have hd : (Spec.frame (1 : Int32).toInt [] bb).drop 500 = [0, 0, 0, 0, 0, 0, 0, 0, 255, 255, 255, 0, 0, 0, 0, 0] := by
    rw [← hbb, Spec.frame, ← List.append_assoc]
    exact List.drop_left' (by simp only [List.length_append, List.length_replicate]; rfl)
  have h1 : RawExample.readOnce 500 [.chunk (Spec.frame 1 [] bb)] = .ok ((Spec.frame (1 : Int32).toInt [] bb).take 500)
      [.chunk [0, 0, 0, 0, 0, 0, 0, 0, 255, 255, 255, 0, 0, 0, 0, 0]] := by
    rw [show (1 : Int) = (1 : Int32).toInt from rfl, RawExample.readOnce, if_neg (by omega), hd]
  rw [printing_err h1 (body_cut 1 [] bb (by rw [payload, hl]; decide) 500 (by omega) (by omega) _),
    printing_panics (bs := [0, 0, 0, 0, 0, 0, 0, 0, 255, 255, 255, 0, 0, 0, 0, 0]) (r' := []) rfl (body_crash _)]

-- the hypotheses are met: messages of 20 bytes, one of them cut after 18
example : (4 + payload [123, 125] [1, 2]) + (4 + payload [123, 125] [3, 4]) ≤ 500 ∧ payload [123, 125] [1, 2] < 2^31 - 4 ∧
    18 < (Spec.frame (7 : Int32).toInt [123, 125] [1, 2]).length := by decide

end Tcpx
