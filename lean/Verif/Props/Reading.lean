import Verif.Spec.Sent
import Verif.Lemmas.Reader
import Verif.Lemmas.DemoCodec
import Verif.Props.Codec
/-!
# C08–C10, C12, C17: reading blocks from a connection

`Spec.stream r` is what the connection delivers: all bytes in order and how the stream ends.
-/
namespace Tcpx
open Spec

/-! ## C08 -/

/-- C08: if the stream holds a complete block, `FirstBlockOf` returns precisely its 4 + length bytes and leaves
precisely the following bytes, however the stream is split into reads (including empty reads). -/
theorem C08_reads_exact_block (r : Reader) (hL : declaredLength (stream r).1 < 2^31)
    (hlen : 4 + declaredLength (stream r).1 ≤ (stream r).1.length) :
    ∃ r', firstBlockOf (some r) = .ok ((stream r).1.take (4 + declaredLength (stream r).1)) r' ∧
      stream r' = ((stream r).1.drop (4 + declaredLength (stream r).1), (stream r).2) := by
  obtain ⟨r1, e1, e2, _⟩ := block_have4 r (by omega)
  obtain ⟨r', e3, e4⟩ := (afterLength_small ((stream r).1.take 4) ((stream r).1.drop 4) _ hL _
    (declared_toInt _ _ _ rfl hL) r1 (stream r).2 e1).1 (by simp; omega)
  refine ⟨r', ?_, ?_⟩
  · unfold firstBlockOf; rw [e2]
    refine e3.trans ?_
    rw [take_append_take_drop]
  · rw [e4, List.drop_drop]

example := C08_reads_exact_block [.chunk [0,0,0], .chunk [], .chunk [12, 0,0,0,1, 0,0,0,0, 0,0,0,0, 7], .eof] (by decide) (by decide)

/-- C08: two fragmentations of the same stream (with the end reported separately from data) are indistinguishable:
same block and same remaining stream, same error, or both block. -/
theorem C08_fragmentation_independent (r1 r2 : Reader) (h : stream r1 = stream r2) (hp : (stream r1).2.plain)
    (hL : declaredLength (stream r1).1 < 2^31) :
    (∃ b r1' r2', firstBlockOf (some r1) = .ok b r1' ∧ firstBlockOf (some r2) = .ok b r2' ∧ stream r1' = stream r2') ∨
    (∃ e r1' r2', firstBlockOf (some r1) = .err e r1' ∧ firstBlockOf (some r2) = .err e r2') ∨
    (firstBlockOf (some r1) = .block ∧ firstBlockOf (some r2) = .block) := by
  have both : ∀ o1 o2 : ReadOut Bytes, shortOut o1 (stream r1).2 → shortOut o2 (stream r1).2 →
      (∃ e r1' r2', o1 = .err e r1' ∧ o2 = .err e r2') ∨ (o1 = .block ∧ o2 = .block) := by
    intro o1 o2 h1 h2
    cases he : (stream r1).2 with
    | stillOpen => rw [he] at h1 h2; exact Or.inr ⟨h1, h2⟩
    | closed => rw [he] at h1 h2; obtain ⟨a, h1⟩ := h1; obtain ⟨b, h2⟩ := h2; exact Or.inl ⟨_, a, b, h1, h2⟩
    | failed => rw [he] at h1 h2; obtain ⟨a, h1⟩ := h1; obtain ⟨b, h2⟩ := h2; exact Or.inl ⟨_, a, b, h1, h2⟩
    | closedWith _ => rw [he] at hp; exact hp.elim
  by_cases h4 : 4 ≤ (stream r1).1.length
  · by_cases hlen : 4 + declaredLength (stream r1).1 ≤ (stream r1).1.length
    · obtain ⟨a, a1, a2⟩ := C08_reads_exact_block r1 hL hlen
      obtain ⟨b, b1, b2⟩ := C08_reads_exact_block r2 (h ▸ hL) (h ▸ hlen)
      refine Or.inl ⟨_, a, b, a1, ?_, ?_⟩
      · rw [b1, h]
      · rw [a2, b2, h]
    · right
      obtain ⟨a, a1, a2, _⟩ := block_have4 r1 h4
      obtain ⟨b, b1, b2, _⟩ := block_have4 r2 (h ▸ h4)
      unfold firstBlockOf; rw [a2, b2]
      rw [← h] at b1 ⊢
      apply both
      · exact (afterLength_small _ _ _ hL _ (declared_toInt _ _ _ rfl hL) a _ a1).2 (by simp; omega)
      · exact (afterLength_small _ _ _ hL _ (declared_toInt _ _ _ rfl hL) b _ b1).2 (by simp; omega)
  · right
    apply both
    · exact shortOut_bind _ (readUntil_short r1 4 (by omega))
    · rw [h]; exact shortOut_bind _ (readUntil_short r2 4 (by rw [← h]; omega))

example := C08_fragmentation_independent [.chunk [0,0,0], .chunk [], .chunk [1, 5, 7], .eof] [.chunk [0,0,0,1,5], .chunk [7], .eof]
  (by decide) trivial (by decide)

/-- C08: a packed frame arriving in any fragmentation, followed by anything, is read back by `UnPackFromReader` with
its id, decoded header and body, leaving exactly what follows. -/
theorem C08_unPackFromReader (json : JSONCodec) (r : Reader) (id : Int32) (hb bb rest : Bytes) (h' : Header) (e : Ending)
    (hr : stream r = (Spec.frame id.toInt hb bb ++ rest, e)) (hp : payload hb bb < 2^31 - 4)
    (hdec : json.unmarshal hb = some h') :
    ∃ r', unPackFromReader json (some r) = .ok (id, h', bb) r' ∧ stream r' = (rest, e) := by
  have hd : declaredLength (stream r).1 = payload hb bb := by rw [hr]; exact frame_field0 _ _ _ _ (by omega)
  have hl := frame_length id.toInt hb bb
  obtain ⟨r', e1, e2⟩ := C08_reads_exact_block r (by rw [hd]; omega) (by rw [hd, hr, List.length_append]; omega)
  rw [hd, hr, ← hl] at e1 e2
  simp only [List.take_left', List.drop_left'] at e1 e2
  refine ⟨r', ?_, e2⟩
  unfold firstBlockOf at e1
  have acc := C02_accessors ⟨Spec.frame id.toInt hb bb ++ [], []⟩ id hb bb [] rfl hp
  rw [List.append_nil] at acc
  obtain ⟨_, a2, _, _, ⟨t, a5, a5'⟩, ⟨t', a6, a6'⟩⟩ := acc
  unfold unPackFromReader
  rw [e1]
  simp [ReadOut.lift, a2, headerOf, a5, a5', hdec, orErr, a6, a6']

example := C08_unPackFromReader Demo.json [.chunk (Spec.frame 3 [110] [1, 2]), .chunk [9], .eof] 3 [110] [1, 2] [9] none .closed
  (by decide) (by decide) rfl

example : stream [.chunk [0,0,0], .chunk [], .chunk [12, 0,0,0,1, 0,0,0,0, 0,0,0,0, 7], .eof]
    = ([0,0,0,12, 0,0,0,1, 0,0,0,0, 0,0,0,0, 7], .closed) ∧
    declaredLength [0,0,0,12, 0,0,0,1, 0,0,0,0, 0,0,0,0, 7] = 12 := by decide

/-! ## C09 -/

/-- C09: if fewer bytes than the block needs arrive, no block is returned: end of stream gives `io.EOF`, a transport
failure gives an error, silence blocks. -/
theorem C09_truncated (r : Reader) (hL : declaredLength (stream r).1 < 2^31)
    (hlen : (stream r).1.length < 4 ∨ (stream r).1.length < 4 + declaredLength (stream r).1) :
    match (stream r).2 with
    | .stillOpen => firstBlockOf (some r) = .block
    | .closed => ∃ r', firstBlockOf (some r) = .err .eof r'
    | .failed => ∃ e r', firstBlockOf (some r) = .err e r' ∧ e ≠ .eof
    | .closedWith _ => True := by
  have key : shortOut (firstBlockOf (some r)) (stream r).2 := by
    by_cases h4 : 4 ≤ (stream r).1.length
    · obtain ⟨a, a1, a2, _⟩ := block_have4 r h4
      unfold firstBlockOf; rw [a2]
      exact (afterLength_small _ _ _ hL _ (declared_toInt _ _ _ rfl hL) a _ a1).2 (by simp; omega)
    · exact shortOut_bind _ (readUntil_short r 4 (by omega))
  cases he : (stream r).2 with
  | stillOpen => rw [he] at key; exact key
  | closed => rw [he] at key; exact key
  | failed => rw [he] at key; obtain ⟨r', h⟩ := key; exact ⟨_, r', h, by decide⟩
  | closedWith _ => trivial

example := C09_truncated [.chunk [0,0,0,12, 0,0], .eof] (by decide) (by decide)

theorem readUntil_ok_bytes {r : Reader} {n : Nat} {bs : Bytes} {r' : Reader} (h : readUntil r n = .ok bs r') :
    bs.length = n := by
  induction r generalizing n bs r' with
  | nil =>
    cases n with
    | zero => simp [readUntil] at h; simp [h.1.symm]
    | succ n => simp [readUntil] at h
  | cons e r ih =>
    cases n with
    | zero => simp [readUntil] at h; simp [h.1.symm]
    | succ n =>
      cases e with
      | chunk c =>
        simp only [readUntil] at h
        split at h
        · cases hr : readUntil r (n + 1 - c.length) with
          | ok a r'' =>
            rw [hr] at h; simp only [ReadOut.prepend, ReadOut.ok.injEq] at h
            have := ih hr
            rw [← h.1, List.length_append]; omega
          | err e r'' => rw [hr] at h; cases h
          | panic => rw [hr] at h; cases h
          | block => rw [hr] at h; cases h
        · split at h
          · injection h with h1 h2; subst h1; omega
          · injection h with h1 h2; subst h1; simp; omega
      | chunkEOF c =>
        simp only [readUntil] at h
        split at h
        · cases h
        · injection h with h1 h2; subst h1; simp; omega
      | eof => cases h
      | fail => cases h

/-- C09: conversely, whatever the reader does, a returned block is complete: it has exactly the announced size. -/
theorem C09_block_complete (r : Reader) (b : Bytes) (r' : Reader) (h : firstBlockOf (some r) = .ok b r') :
    b.length = 4 + declaredLength b := by
  unfold firstBlockOf unpackToBlockFromReader at h
  simp only [] at h
  cases h1 : readUntil r 4 with
  | ok info r1 =>
    rw [h1] at h
    simp only [ReadOut.bind_ok] at h
    have hi : info.length = 4 := readUntil_ok_bytes h1
    have ha := announced_eq info (by omega)
    rw [List.take_of_length_le (by omega)] at ha
    rw [ha] at h
    simp only [readContent] at h
    split at h
    · cases h
    · rename_i hneg
      cases h2 : readUntil r1 (UInt32.ofNat (declaredLength info)).toInt32.toInt.toNat with
      | ok c r2 =>
        rw [h2] at h
        simp only [ReadOut.bind_ok, ReadOut.ok.injEq] at h
        have hc := readUntil_ok_bytes h2
        rw [announced_toInt] at hneg hc
        have hd : declaredLength (info ++ c) = declaredLength info := fieldAt_append_left (by omega)
        rw [← h.1, List.length_append, hd, hc, hi]
        have := fieldAt_lt info 0
        have hlt : declaredLength info < 2^32 := this
        generalize declaredLength info = n at *
        unfold signed32 at *
        split <;> split at hneg <;> omega
      | err e r2 => rw [h2] at h; cases h
      | panic => rw [h2] at h; cases h
      | block => rw [h2] at h; cases h
  | err e r1 => rw [h1] at h; cases h
  | panic => rw [h1] at h; cases h
  | block => rw [h1] at h; cases h

example : (stream [.chunk [0,0,0,12, 0,0], .eof]).1.length < 4 + declaredLength (stream [.chunk [0,0,0,12, 0,0], .eof]).1 := by decide

/-! ## C10 -/

/-- C10: with a positive limit, a frame announcing more than the limit (and less than 2^31) is rejected having consumed
only its 4 length bytes, whatever follows (nothing need follow). -/
theorem C10_oversized_rejected (r : Reader) (max : Int32) (hm : 0 < max.toInt) (h4 : 4 ≤ (stream r).1.length)
    (hL : declaredLength (stream r).1 < 2^31) (hbig : max.toInt < declaredLength (stream r).1) :
    ∃ r', firstBlockOfLimitMaxByte (some r) max = .err .tooBig r' ∧
      stream r' = ((stream r).1.drop 4, (stream r).2) := by
  obtain ⟨r1, e1, _, e3⟩ := block_have4 r h4
  refine ⟨r1, ?_, e1⟩
  unfold firstBlockOfLimitMaxByte
  rw [if_neg (by omega), e3 max, if_pos]
  unfold signed32; rw [if_pos hL]; exact hbig

example := C10_oversized_rejected [.chunk [0,0,1,0], .chunk [5]] 100 (by decide) (by decide) (by decide) (by decide)

/-- Reading with a limit either reports `tooBig` or behaves as reading without; the former never for an announced
length within the limit. -/
theorem limit_cases (r : Reader) (max : Int32) :
    unpackToBlockFromReaderLimit max (some r) = unpackToBlockFromReader (some r) ∨
    ∃ info r1, readUntil r 4 = .ok info r1 ∧ max.toInt < signed32 (declaredLength info) ∧
      unpackToBlockFromReaderLimit max (some r) = .err .tooBig r1 := by
  unfold unpackToBlockFromReaderLimit unpackToBlockFromReader
  simp only []
  cases h1 : readUntil r 4 with
  | ok info r1 =>
    have hi : info.length = 4 := readUntil_ok_bytes h1
    have ha := announced_eq info (by omega)
    rw [List.take_of_length_le (by omega)] at ha
    simp only [ReadOut.bind_ok, ha, announced_toInt]
    by_cases hc : signed32 (declaredLength info) > max.toInt
    · right; rw [if_pos hc]; exact ⟨info, r1, rfl, hc, rfl⟩
    · left; rw [if_neg hc]
  | err e r1 => left; rfl
  | panic => left; rfl
  | block => left; rfl

/-- C10: a frame announcing at most the limit is read exactly as without limit (same block, error or blocking); so is
everything if the limit is not positive. -/
theorem C10_within_limit (r : Reader) (max : Int32) (hp : (stream r).2.plain)
    (h : max.toInt ≤ 0 ∨ (declaredLength (stream r).1 : Int) ≤ max.toInt) :
    firstBlockOfLimitMaxByte (some r) max = firstBlockOf (some r) := by
  unfold firstBlockOfLimitMaxByte firstBlockOf
  by_cases hm : max.toInt ≤ 0
  · rw [if_pos hm]
  · rw [if_neg hm]
    rcases h with h | h
    · exact absurd h hm
    · rcases limit_cases r max with e | ⟨info, r1, e1, e2, _⟩
      · exact e
      · exfalso
        have hmx := max.toInt_lt
        by_cases h4 : 4 ≤ (stream r).1.length
        · obtain ⟨r', e3, _⟩ := readUntil_enough r 4 h4
          rw [e1] at e3
          injection e3 with e3
          rw [e3, declaredLength_take h4] at e2
          unfold signed32 at e2; rw [if_pos (by omega)] at e2; omega
        · have hsh := readUntil_short r 4 (by omega)
          rw [e1] at hsh
          cases he : (stream r).2 with
          | stillOpen => rw [he] at hsh; cases hsh
          | closed => rw [he] at hsh; obtain ⟨_, hsh⟩ := hsh; cases hsh
          | failed => rw [he] at hsh; obtain ⟨_, hsh⟩ := hsh; cases hsh
          | closedWith lost => rw [he] at hp; exact hp

/-- C10: whatever the reader does (any events whatsoever), a block returned under a positive limit has at most that
many payload bytes and is the block that would have been returned without limit. -/
theorem C10_no_oversized_block (r : Reader) (max : Int32) (hm : 0 < max.toInt) (b : Bytes) (r' : Reader)
    (h : firstBlockOfLimitMaxByte (some r) max = .ok b r') :
    (b.length : Int) ≤ 4 + max.toInt ∧ firstBlockOf (some r) = .ok b r' := by
  unfold firstBlockOfLimitMaxByte at h
  rw [if_neg (by omega)] at h
  have h0 := h
  rcases limit_cases r max with e | ⟨info, r1, e1, e2, e3⟩
  · rw [e] at h
    refine ⟨?_, h⟩
    have hc := C09_block_complete r b r' h
    have hcases := limit_cases r max
    -- the announced length is within the limit
    unfold unpackToBlockFromReaderLimit at h0
    simp only [] at h0
    cases h1 : readUntil r 4 with
    | ok info r1 =>
      rw [h1] at h0
      have hi : info.length = 4 := readUntil_ok_bytes h1
      have ha := announced_eq info (by omega)
      rw [List.take_of_length_le (by omega)] at ha
      simp only [ReadOut.bind_ok, ha, announced_toInt] at h0
      split at h0
      · cases h0
      · rename_i hle
        simp only [readContent, announced_toInt] at h0
        split at h0
        · cases h0
        · rename_i hneg
          cases h2 : readUntil r1 (signed32 (declaredLength info)).toNat with
          | ok c r2 =>
            rw [h2] at h0
            simp only [ReadOut.bind_ok, ReadOut.ok.injEq] at h0
            have hcl := readUntil_ok_bytes h2
            rw [← h0.1, List.length_append, hi, hcl]; omega
          | err e r2 => rw [h2] at h0; cases h0
          | panic => rw [h2] at h0; cases h0
          | block => rw [h2] at h0; cases h0
    | err e r1 => rw [h1] at h0; cases h0
    | panic => rw [h1] at h0; cases h0
    | block => rw [h1] at h0; cases h0
  · rw [e3] at h; cases h

example : (0 : Int) < (100 : Int32).toInt ∧ 4 ≤ (stream [.chunk [0,0,1,0], .chunk [5]]).1.length ∧
    (100 : Int32).toInt < declaredLength (stream [.chunk [0,0,1,0], .chunk [5]]).1 := by decide
example : (stream [.chunk [0,0,0,3, 1,2,3]]).2.plain ∧ ((declaredLength (stream [.chunk [0,0,0,3, 1,2,3]]).1 : Nat) : Int) ≤ (100 : Int32).toInt :=
  ⟨trivial, by decide⟩
example : firstBlockOfLimitMaxByte (some [.chunk [0,0,0,3, 1,2,3]]) 3 = .ok [0,0,0,3, 1,2,3] [] := by decide

/-! ## C12 -/

/-- What is read is the beginning of what was sent. -/
theorem readUntil_sent (r : Reader) (n : Nat) (b : Bytes) (r' : Reader) (h : readUntil r n = .ok b r') : b = (sent r).take n := by
  induction r generalizing n b r' with
  | nil =>
    cases n with
    | zero => simp only [readUntil, ReadOut.ok.injEq] at h; simp [h.1.symm]
    | succ n => simp [readUntil] at h
  | cons e r ih =>
    cases n with
    | zero => simp only [readUntil, ReadOut.ok.injEq] at h; simp [h.1.symm]
    | succ n =>
      cases e with
      | chunk bs =>
        have hs : sent (.chunk bs :: r) = bs ++ sent r := by simp [sent, stream]
        rw [hs]
        simp only [readUntil] at h
        split at h
        · rename_i hlt
          cases hx : readUntil r (n + 1 - bs.length) <;> rw [hx] at h <;> simp [ReadOut.prepend] at h
          rw [← h.1, ih _ _ _ hx, List.take_append]
          simp [List.take_of_length_le (Nat.le_of_lt hlt)]
        · split at h
          · rename_i hl
            simp only [ReadOut.ok.injEq] at h
            rw [← h.1, ← hl, List.take_left]
          · simp only [ReadOut.ok.injEq] at h
            rw [← h.1, List.take_append_of_le_length (by omega)]
      | chunkEOF bs =>
        simp only [readUntil] at h
        split at h
        · simp at h
        · simp only [ReadOut.ok.injEq] at h
          simp [sent, stream, h.1.symm]
      | eof => simp [readUntil] at h
      | fail => simp [readUntil] at h

/-- C12 (partial): an announced length below 2^31 never crashes the reader, whatever follows, with or without limit.
Missing: larger announced lengths, where the code panics (`C12_negative_length_violated`). -/
theorem C12_no_panic_partial (r : Reader) (max : Int32) (hL : declaredLength (sent r) < 2^31) :
    firstBlockOf (some r) ≠ .panic ∧ firstBlockOfLimitMaxByte (some r) max ≠ .panic := by
  have np : ∀ (r : Reader) n, readUntil r n ≠ .panic := by
    intro r
    induction r with
    | nil => intro n; cases n <;> simp [readUntil]
    | cons e r ih =>
      intro n
      cases n with
      | zero => simp [readUntil]
      | succ n =>
        cases e with
        | chunk bs =>
          simp only [readUntil]
          split
          · have := ih (n + 1 - bs.length)
            cases h : readUntil r (n + 1 - bs.length) <;> simp_all [ReadOut.prepend]
          · split <;> simp
        | chunkEOF bs => simp only [readUntil]; split <;> simp
        | eof => simp [readUntil]
        | fail => simp [readUntil]
  have key : unpackToBlockFromReader (some r) ≠ .panic := by
    unfold unpackToBlockFromReader
    simp only []
    cases h1 : readUntil r 4 with
    | ok info r1 =>
      have hi : info.length = 4 := readUntil_ok_bytes h1
      have ha := announced_eq info (by omega)
      rw [List.take_of_length_le (by omega)] at ha
      have hd : declaredLength info < 2^31 := by
        have hs := readUntil_sent r 4 info r1 h1
        have h4 : 4 ≤ (sent r).length := by rw [hs, List.length_take] at hi; omega
        rw [hs, declaredLength_take h4]; exact hL
      simp only [ReadOut.bind_ok, ha, readContent, announced_toInt]
      rw [if_neg (by unfold signed32; rw [if_pos hd]; omega)]
      cases h2 : readUntil r1 (signed32 (declaredLength info)).toNat with
      | ok c r2 => simp
      | err e r2 => simp
      | panic => exact absurd h2 (np _ _)
      | block => simp
    | err e r1 => simp
    | panic => exact absurd h1 (np _ _)
    | block => simp
  refine ⟨key, ?_⟩
  unfold firstBlockOfLimitMaxByte
  split
  · exact key
  · rcases limit_cases r max with e | ⟨_, _, _, _, e⟩
    · rw [e]; exact key
    · rw [e]; simp

/-- C12 is false: four bytes announcing 2^31 or more crash the reading goroutine, for every continuation and every
size limit. -/
theorem C12_negative_length_violated (r : Reader) (max : Int32)
    (h4 : 4 ≤ (stream r).1.length) (hL : 2^31 ≤ declaredLength (stream r).1) :
    firstBlockOf (some r) = .panic ∧ firstBlockOfLimitMaxByte (some r) max = .panic := by
  obtain ⟨r1, _, e2, e3⟩ := block_have4 r h4
  have hlt : declaredLength (stream r).1 < 2^32 := fieldAt_lt _ _
  have hs : signed32 (declaredLength (stream r).1) < 0 := by
    unfold signed32; rw [if_neg (by omega)]; omega
  have hp : ∀ info, afterLength info (UInt32.ofNat (declaredLength (stream r).1)).toInt32 r1 = .panic := by
    intro info
    unfold afterLength readContent
    rw [announced_toInt, if_pos hs]; rfl
  refine ⟨by unfold firstBlockOf; rw [e2, hp], ?_⟩
  unfold firstBlockOfLimitMaxByte
  split
  · rw [e2, hp]
  · rw [e3 max, if_neg (by omega), hp]

example : 4 ≤ (stream [.chunk [255,255,255,255]]).1.length ∧ 2^31 ≤ declaredLength (stream [.chunk [255,255,255,255]]).1 := by
  decide
example : firstBlockOf (some [.chunk [128,0,0,0]]) = .panic := by decide
example : declaredLength (sent [.chunk [0,0], .chunkEOF [0,3,7,8]]) < 2^31 := by decide

/-- C08, whatever length is announced: two fragmentations of the same stream give the same block and leave the same bytes, give the same
error, both block, or both panic; and they panic exactly if a length of 2^31 or more is announced (C12). -/
theorem C08_any_length (r1 r2 : Reader) (h : stream r1 = stream r2) (hp : (stream r1).2.plain) :
    ((∃ b r1' r2', firstBlockOf (some r1) = .ok b r1' ∧ firstBlockOf (some r2) = .ok b r2' ∧ stream r1' = stream r2') ∨
      (∃ e r1' r2', firstBlockOf (some r1) = .err e r1' ∧ firstBlockOf (some r2) = .err e r2') ∨
      (firstBlockOf (some r1) = .block ∧ firstBlockOf (some r2) = .block) ∨
      (firstBlockOf (some r1) = .panic ∧ firstBlockOf (some r2) = .panic)) ∧
    (firstBlockOf (some r1) = .panic ↔ 4 ≤ (stream r1).1.length ∧ 2^31 ≤ declaredLength (stream r1).1) := by
  by_cases hbig : 4 ≤ (stream r1).1.length ∧ 2^31 ≤ declaredLength (stream r1).1
  · have h1 := (C12_negative_length_violated r1 0 hbig.1 hbig.2).1
    have h2 := (C12_negative_length_violated r2 0 (h ▸ hbig.1) (h ▸ hbig.2)).1
    exact ⟨.inr (.inr (.inr ⟨h1, h2⟩)), fun _ => hbig, fun _ => h1⟩
  · by_cases hL : declaredLength (stream r1).1 < 2^31
    · have hi := C08_fragmentation_independent r1 r2 h hp hL
      rcases hi with hi | hi | hi
      · refine ⟨.inl hi, fun hx => ?_, fun hx => absurd hx hbig⟩
        obtain ⟨b, a, _, ha, _⟩ := hi
        rw [ha] at hx; simp at hx
      · refine ⟨.inr (.inl hi), fun hx => ?_, fun hx => absurd hx hbig⟩
        obtain ⟨b, a, _, ha, _⟩ := hi
        rw [ha] at hx; simp at hx
      · refine ⟨.inr (.inr (.inl hi)), fun hx => ?_, fun hx => absurd hx hbig⟩
        rw [hi.1] at hx; simp at hx
    · have h4 : (stream r1).1.length < 4 := by omega
      have s1 : shortOut (firstBlockOf (some r1)) (stream r1).2 := shortOut_bind _ (readUntil_short r1 4 (by omega))
      have s2 : shortOut (firstBlockOf (some r2)) (stream r1).2 := by
        rw [h]; exact shortOut_bind _ (readUntil_short r2 4 (by rw [← h]; omega))
      cases he : (stream r1).2 with
      | stillOpen =>
        rw [he] at s1 s2
        refine ⟨.inr (.inr (.inl ⟨s1, s2⟩)), fun hx => ?_, fun hx => absurd hx hbig⟩
        rw [show firstBlockOf (some r1) = .block from s1] at hx; simp at hx
      | closed =>
        rw [he] at s1 s2
        obtain ⟨a, s1⟩ := s1; obtain ⟨b, s2⟩ := s2
        refine ⟨.inr (.inl ⟨_, a, b, s1, s2⟩), fun hx => ?_, fun hx => absurd hx hbig⟩
        rw [s1] at hx; simp at hx
      | failed =>
        rw [he] at s1 s2
        obtain ⟨a, s1⟩ := s1; obtain ⟨b, s2⟩ := s2
        refine ⟨.inr (.inl ⟨_, a, b, s1, s2⟩), fun hx => ?_, fun hx => absurd hx hbig⟩
        rw [s1] at hx; simp at hx
      | closedWith _ => rw [he] at hp; exact hp.elim

example := C08_any_length [.chunk [255, 0], .chunk [0, 0, 7], .eof] [.chunk [255, 0, 0, 0, 7], .eof] (by decide) trivial

/-! ## C17 -/

/-- C17 (partial): a complete frame followed by a separately reported end of stream is returned.
Missing: the end reported together with the last bytes, where the frame is lost (`C17_eof_with_data_violated`). -/
theorem C17_eof_after_data_partial (r : Reader) (frame : Bytes) (hr : stream r = (frame, .closed))
    (hL : declaredLength frame < 2^31) (hlen : frame.length = 4 + declaredLength frame) :
    ∃ r', firstBlockOf (some r) = .ok frame r' ∧ stream r' = ([], .closed) := by
  obtain ⟨r', e1, e2⟩ := C08_reads_exact_block r (by rw [hr]; exact hL) (by rw [hr]; exact Nat.le_of_eq hlen.symm)
  rw [hr] at e1 e2
  refine ⟨r', ?_, ?_⟩
  · rw [e1, List.take_of_length_le (by simp only; omega)]
  · rw [e2, List.drop_of_length_le (by simp only; omega)]

example := C17_eof_after_data_partial [.chunk [0,0,0,1], .chunk [7], .eof] [0,0,0,1,7] (by decide) (by decide) (by decide)

/-- C17 is false: every complete frame whose last bytes (here: all bytes after the length) come with `io.EOF` is
lost. -/
theorem C17_eof_with_data_violated (frame : Bytes) (hL : 0 < declaredLength frame) (hL' : declaredLength frame < 2^31)
    (hlen : frame.length = 4 + declaredLength frame) :
    ∃ r', firstBlockOf (some [.chunk (frame.take 4), .chunkEOF (frame.drop 4)]) = .err .eof r' := by
  unfold firstBlockOf unpackToBlockFromReader
  simp only [readUntil]
  rw [if_neg (by simp; omega), if_pos (by simp; omega)]
  simp only [ReadOut.bind_ok, announced_eq frame (by omega), readContent]
  have hd := declared_toInt frame 0 _ rfl hL'
  rw [show (UInt32.ofNat (declaredLength frame)).toInt32.toInt = (declaredLength frame : Int) from hd]
  rw [if_neg (by omega), Int.toNat_natCast]
  obtain ⟨n, hn⟩ : ∃ n, declaredLength frame = n + 1 := ⟨declaredLength frame - 1, by omega⟩
  rw [hn]
  simp only [readUntil]
  rw [if_pos (by simp; omega)]
  exact ⟨_, rfl⟩

example := C17_eof_with_data_violated [0,0,0,1,7] (by decide) (by decide) (by decide)

example : firstBlockOf (some [.chunkEOF [0,0,0,1, 7]]) = .err .eof [.eof] := by decide
example : stream [.chunk [0,0,0,1], .chunk [7], .eof] = ([0,0,0,1,7], .closed) := by decide

end Tcpx
