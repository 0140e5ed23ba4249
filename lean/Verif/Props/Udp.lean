import Verif.Lemmas.Udp
/-!
# Properties of the UDP server

C58, C74, C75.
-/
namespace Tcpx
open Spec

/-- The buffer has the size asked for. -/
theorem bufferSize_ok {sizes : List Int} {size : Nat} (h : BufferSize sizes size) : udpBufferSize sizes = .ok size := by
  rcases h with ⟨rfl, rfl⟩ | rfl
  · rfl
  · show (if (size : Int) < 0 then Res.panic else Res.ok (size : Int).toNat) = Res.ok size
    rw [if_neg (by omega), Int.toNat_natCast]

/-- What the loop does for one datagram. -/
theorem datagram_cut (size : Nat) (d : Bytes) :
    (¬ FrameInDatagram size d ∧ firstBlockOfBytes (udpBuffer size d) = .err .short) ∨
    (FrameInDatagram size d ∧ ∃ t, firstBlockOfBytes (udpBuffer size d) = .ok t ∧ t.live = firstFrame d) := by
  have hd : 16 ≤ (d.take size).length → declaredLength (d.take size) = declaredLength d := by
    intro h
    rw [List.length_take] at h
    have g : ∀ k, k < 16 → (d.take size).getD k 0 = d.getD k 0 := by
      intro k hk
      rw [List.getD_eq_getElem?_getD, List.getD_eq_getElem?_getD, List.getElem?_take, if_pos (by omega)]
    unfold declaredLength fieldAt
    rw [g _ (by decide), g _ (by decide), g _ (by decide), g _ (by decide)]
  rcases C14_firstBlockOfBytes (udpBuffer size d) with ⟨h, e⟩ | ⟨⟨h1, h2⟩, t, e, e1, e2, -⟩
  · left
    refine ⟨?_, e⟩
    rintro ⟨h1, h2⟩
    simp only [udpBuffer, Slice.len] at h
    rw [hd h1] at h
    omega
  · right
    simp only [udpBuffer, Slice.len] at h1 h2 e1
    rw [hd h1] at h2 e1
    refine ⟨⟨h1, h2⟩, t, e, ?_⟩
    rw [e1, firstFrame, List.take_take, Nat.min_eq_left]
    rw [List.length_take] at h2
    omega

/-! ## C75: what is dispatched -/

/-- C75: with a valid buffer size the loop dispatches, in the order of arrival, exactly the first frame of every datagram that
arrives complete before the loop ends; everything else in a datagram is ignored. Every datagram gets its own watchers, whether or
not it contains a frame; and the loop ends exactly if the server is found stopped or the socket reports its end. -/
theorem C75_loop (sizes : List Int) (size : Nat) (hs : BufferSize sizes size) (ins : List UdpIn) :
    (udpLoop sizes ins).1.filterMap (fun | .handle t => some t.live | .watch => none) =
      ((received ins).filter (fun d => decide (FrameInDatagram size d))).map firstFrame ∧
    (udpLoop sizes ins).1.countP (· = .watch) = (received ins).length ∧
    (udpLoop sizes ins).2 = if ins.any UdpIn.ends then .broke else .running := by
  have hz := bufferSize_ok hs
  induction ins with
  | nil => exact ⟨rfl, rfl, rfl⟩
  | cons i rest ih =>
    obtain ⟨h1, h2, h3⟩ := ih
    cases i with
    | stopped => exact ⟨rfl, rfl, rfl⟩
    | eof => unfold udpLoop; rw [hz]; exact ⟨rfl, rfl, rfl⟩
    | fail => unfold udpLoop; rw [hz]; exact ⟨h1, h2, h3⟩
    | datagram d =>
      unfold udpLoop
      rw [hz]
      rcases datagram_cut size d with ⟨hf, e⟩ | ⟨hf, t, e, et⟩
      · simp only [e, received, List.filterMap_cons, List.filter_cons, hf, decide_false]
        exact ⟨h1, by simp [h2], h3⟩
      · simp only [e, received, List.filterMap_cons, List.filter_cons, hf, decide_true, if_true, List.map_cons, et]
        exact ⟨by rw [h1], by simp [h2], h3⟩

example : BufferSize [25] 25 ∧
    udpLoop [25] [.datagram (Spec.frame 3 [1,2] [3,4,5] ++ [9,9]), .fail, .datagram [1], .eof, .datagram (Spec.frame 3 [] [])] =
      ([.watch, .handle ⟨Spec.frame 3 [1,2] [3,4,5], [9,9,0,0]⟩, .watch], .broke) := by decide

/-- C75: a datagram packed from an id, a header and a body that fits into the buffer is dispatched as exactly that frame. -/
theorem C75_packed (sizes : List Int) (size : Nat) (hs : BufferSize sizes size) (id : Int) (h b junk : Bytes)
    (hfit : 16 + h.length + b.length ≤ size) (hp : payload h b < 2^32) :
    ∃ t, (udpLoop sizes [.datagram (Spec.frame id h b ++ junk)]).1 = [.watch, .handle t] ∧ t.live = Spec.frame id h b := by
  have hz := bufferSize_ok hs
  have e : declaredLength (Spec.frame id h b ++ junk) = payload h b := frame_field0 _ _ _ _ hp
  have l := frame_length id h b
  have hl : 4 + payload h b = (Spec.frame id h b).length := by rw [l]
  have hpay : payload h b = 12 + h.length + b.length := by unfold payload; omega
  have hf : FrameInDatagram size (Spec.frame id h b ++ junk) := by
    unfold FrameInDatagram
    rw [e, List.length_take, List.length_append, ← hl, hpay]
    omega
  rcases datagram_cut size (Spec.frame id h b ++ junk) with ⟨hn, -⟩ | ⟨-, t, e1, et⟩
  · exact absurd hf hn
  · refine ⟨t, ?_, ?_⟩
    · simp only [udpLoop, hz, e1]
    · rw [et, firstFrame, e, hl, List.take_left]

example : BufferSize [] 4096 ∧ 16 + ([1,2] : Bytes).length + ([3] : Bytes).length ≤ 4096 ∧ payload [1,2] [3] < 2^32 := by decide

/-! ## C58: no datagram crashes the server -/

/-- C58 (partial): whatever was registered, a datagram of less than 2^31 bytes whose first frame announces a header of less than
2^31 bytes does not terminate the process, provided the handlers themselves do not panic — in particular if it contains no complete
frame.  And no input ends the read loop by a panic.
Missing: frames announcing longer headers (`C58_huge_header_violated`). -/
theorem C58_no_panic_partial (h : List RegEv) (json : JSONCodec) (sizes : List Int) (size : Nat)
    (hs : BufferSize sizes size) (ins : List UdpIn) (hsz : ∀ d ∈ received ins, d.length < 2^31)
    (hh : ∀ d ∈ received ins, FrameInDatagram size d → declaredHeaderLen (firstFrame d) < 2^31)
    (c : Nat → Nat → Option Any) (hp : Nat → Dispatch → Bool) (hhp : ∀ i d, hp i d = false) :
    (∀ o ∈ (udpLoop sizes ins).1, o.killsProcess (runHist h) json c hp = false) ∧ (udpLoop sizes ins).2 ≠ .panicked := by
  have hz := bufferSize_ok hs
  obtain ⟨k1, -, k3⟩ := C75_loop sizes size hs ins
  refine ⟨?_, by rw [k3]; split <;> simp⟩
  intro o ho
  cases o with
  | watch => rfl
  | handle t =>
    have ht : t.live ∈ ((received ins).filter (fun d => decide (FrameInDatagram size d))).map firstFrame := by
      rw [← k1]; exact List.mem_filterMap.2 ⟨_, ho, rfl⟩
    obtain ⟨d, hd, e⟩ := List.mem_map.1 ht
    obtain ⟨hd1, hd2⟩ := List.mem_filter.1 hd
    have b1 := hh d hd1 (of_decide_eq_true hd2)
    have b2 := hsz d hd1
    have b3 : t.live.length ≤ d.length := by rw [← e, firstFrame, List.length_take]; omega
    rw [e] at b1
    have np : headerOf json { live := t.live } ≠ .panic := by
      intro hx
      have : headerBytesOf { live := t.live } = .panic := by
        unfold headerOf at hx
        split at hx
        · rename_i hb _; revert hx; unfold orErr; split <;> simp
        · simp at hx
        · assumption
        · simp at hx
      obtain ⟨-, c2, c3⟩ := (C11_header_panic_iff _).1 this
      simp only [Slice.len] at c2 c3
      unfold signed32 at c2
      split at c2 <;> omega
    have nm : handleMiddleware (runHist h) json (c 0) (some t.live) ≠ .panic := fun hx => np (handleMiddleware_panic h json _ _ hx)
    simp [UdpOut.killsProcess, taskPanics, nm, hhp]

example : BufferSize [64] 64 ∧ received [.datagram (Spec.frame 3 [1,2] [3]), .eof] = [Spec.frame 3 [1,2] [3]] ∧
    (Spec.frame 3 [1,2] [3]).length < 2^31 ∧ FrameInDatagram 64 (Spec.frame 3 [1,2] [3]) ∧
    declaredHeaderLen (firstFrame (Spec.frame 3 [1,2] [3])) < 2^31 := by decide

/-- C58 is false: without a global `OnMessage`, every datagram beginning with a frame that announces a header of 2^31 bytes or more
terminates the process. -/
theorem C58_huge_header_violated (s : Srv) (json : JSONCodec) (sizes : List Int) (size : Nat)
    (hs : BufferSize sizes size) (d : Bytes) (hf : FrameInDatagram size d) (hl : 12 ≤ declaredLength d)
    (hd : 2^31 ≤ declaredHeaderLen (firstFrame d)) (ho : s.onMessage = none) (c : Nat → Nat → Option Any) (hc : c 0 0 = none)
    (hp : Nat → Dispatch → Bool) (rest : List UdpIn) :
    ∃ o ∈ (udpLoop sizes (.datagram d :: rest)).1, o.killsProcess s json c hp = true := by
  have hz := bufferSize_ok hs
  rcases datagram_cut size d with ⟨hn, -⟩ | ⟨-, t, e, et⟩
  · exact absurd hf hn
  · refine ⟨.handle t, by simp [udpLoop, hz, e], ?_⟩
    have len : 16 ≤ t.live.length := by
      rw [et, firstFrame, List.length_take]
      obtain ⟨h1, h2⟩ := hf
      rw [List.length_take] at h1 h2
      omega
    rw [← et] at hd
    have hb : headerBytesOf { live := t.live } = .panic := by
      rw [C11_header_panic_iff]
      simp only [Slice.len]
      have : declaredHeaderLen t.live < 2^32 := fieldAt_lt t.live 8
      refine ⟨by omega, ?_, by omega⟩
      unfold signed32
      split <;> omega
    have hh : headerOf json { live := t.live } = .panic := by rw [headerOf, hb]
    have hr : routerTypeWith json (c 0 0) t.live = .panic := by
      simp only [routerTypeWith, hc, Option.bind_none]
      rw [if_neg (by intro hx; rw [hx] at len; simp at len), hh]
    have : handleMiddleware s json (c 0) (some t.live) = .panic := by simp only [handleMiddleware, ho, hr]
    simp [UdpOut.killsProcess, taskPanics, this]

example : BufferSize [] 4096 ∧ FrameInDatagram 4096 [0,0,0,12, 0,0,0,1, 255,255,255,255, 0,0,0,0] ∧
    12 ≤ declaredLength [0,0,0,12, 0,0,0,1, 255,255,255,255, 0,0,0,0] ∧
    2^31 ≤ declaredHeaderLen (firstFrame [0,0,0,12, 0,0,0,1, 255,255,255,255, 0,0,0,0]) := by decide

/-- C58: a configured buffer size that is negative makes the first read panic inside the read loop: the loop is over, nothing is
dispatched, and `ListenAndServeUDP` goes on waiting as if it served.  (More than one size is refused by a panic of
`ListenAndServeUDP` itself, tcpx.go:633-635, before the loop begins.) -/
theorem C58_bad_size_limit (n : Int) (hn : n < 0) (i : UdpIn) (hi : i ≠ .stopped) (rest : List UdpIn) :
    udpLoop [n] (i :: rest) = ([], .panicked) := by
  cases i <;> first | exact absurd rfl hi | simp only [udpLoop, udpBufferSize, if_pos hn]

example : (-1 : Int) < 0 ∧ UdpIn.datagram [1] ≠ .stopped := by decide

/-! ## C74: an unreadable socket ends the loop -/

/-- C74 is false: errors other than `io.EOF` are logged and the loop reads again at once; on a socket that was closed (by a watcher
or a handler calling `CloseConn`) it never ends by itself, however often it finds the error. -/
theorem C74_spins_violated (sizes : List Int) (size : Nat) (hs : BufferSize sizes size) (k : Nat) :
    udpLoop sizes (List.replicate k .fail) = ([], .running) := by
  have hz := bufferSize_ok hs
  induction k with
  | zero => rfl
  | succ k ih => rw [List.replicate_succ]; simp only [udpLoop, hz, ih]

example : BufferSize [64] 64 ∧ udpLoop [64] [.fail, .fail, .fail] = ([], .running) := by decide

/-- C74 (partial): after the server was stopped the loop ends at its next iteration, and so it does when the socket reports its end;
before that, a failed read neither loses nor invents messages.
Missing: ending on other read errors (`C74_spins_violated`). -/
theorem C74_ends_partial (sizes : List Int) (size : Nat) (hs : BufferSize sizes size) (ins rest : List UdpIn) (i : UdpIn)
    (hi : i.ends) :
    (udpLoop sizes (ins ++ i :: rest)).2 = .broke ∧
    udpLoop sizes (ins ++ i :: rest) = udpLoop sizes (ins.filter (· ≠ .fail) ++ [i]) := by
  have hz := bufferSize_ok hs
  refine ⟨?_, ?_⟩
  · rw [(C75_loop sizes size hs _).2.2, if_pos]
    simp [hi]
  · induction ins with
    | nil =>
      cases i with
      | stopped => simp [udpLoop]
      | eof => simp [udpLoop, hz]
      | fail => simp [UdpIn.ends] at hi
      | datagram d => simp [UdpIn.ends] at hi
    | cons j ins ih =>
      cases j with
      | fail => simp only [List.cons_append, udpLoop, hz]; rw [ih]; simp
      | stopped => simp [udpLoop]
      | eof => simp [udpLoop, hz]
      | datagram d =>
        rw [List.filter_cons_of_pos (by simp)]
        simp only [List.cons_append, udpLoop, hz, ih]

example : UdpIn.ends .eof ∧ udpLoop [64] [.fail, .datagram (Spec.frame 1 [] []), .fail, .eof, .datagram []] =
    udpLoop [64] [.datagram (Spec.frame 1 [] []), .eof] := by decide

end Tcpx
