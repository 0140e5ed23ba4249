import Verif.Spec.Stream
import Verif.Lemmas.Codec
namespace Tcpx
open Spec

/-- What a shortage of bytes looks like for each ending (separately reported). -/
def shortOut {α : Type} (o : ReadOut α) : Ending → Prop
  | .stillOpen => o = .block
  | .closed => ∃ r, o = .err .eof r
  | .failed => ∃ r, o = .err .io r
  | .closedWith _ => True

theorem readUntil_enough (r : Reader) (n : Nat) (h : n ≤ (stream r).1.length) :
    ∃ r', readUntil r n = .ok ((stream r).1.take n) r' ∧ stream r' = ((stream r).1.drop n, (stream r).2) := by
  induction r generalizing n with
  | nil =>
    simp only [stream, List.length_nil, Nat.le_zero] at h
    subst h
    exact ⟨[], by simp [readUntil, stream]⟩
  | cons e r ih =>
    cases n with
    | zero => exact ⟨e :: r, by simp [readUntil]⟩
    | succ n =>
      cases e with
      | chunk bs =>
        simp only [stream, List.length_append] at h
        simp only [readUntil, stream]
        by_cases h1 : bs.length < n + 1
        · rw [if_pos h1]
          obtain ⟨r', e1, e2⟩ := ih (n + 1 - bs.length) (by omega)
          refine ⟨r', ?_, ?_⟩
          · rw [e1]
            simp only [ReadOut.prepend]
            rw [List.take_append, List.take_of_length_le (show bs.length ≤ n + 1 by omega)]
          · rw [e2, List.drop_append, List.drop_of_length_le (show bs.length ≤ n + 1 by omega), List.nil_append]
        · rw [if_neg h1]
          by_cases h2 : bs.length = n + 1
          · rw [if_pos h2]
            refine ⟨r, ?_, ?_⟩
            · rw [← h2]; simp
            · rw [← h2]; simp
          · rw [if_neg h2]
            refine ⟨.chunk (bs.drop (n+1)) :: r, ?_, ?_⟩
            · rw [List.take_append_of_le_length (by omega)]
            · simp only [stream]
              rw [List.drop_append_of_le_length (by omega)]
      | chunkEOF bs => simp [stream] at h
      | eof => simp [stream] at h
      | fail => simp [stream] at h

theorem shortOut_prepend {o : ReadOut Bytes} {e : Ending} (bs : Bytes) (h : shortOut o e) : shortOut (o.prepend bs) e := by
  cases e with
  | stillOpen => simp only [shortOut] at h ⊢; rw [h]; rfl
  | closed => obtain ⟨r, h⟩ := h; exact ⟨r, by rw [h]; rfl⟩
  | failed => obtain ⟨r, h⟩ := h; exact ⟨r, by rw [h]; rfl⟩
  | closedWith _ => trivial

theorem shortOut_bind {α β : Type} {o : ReadOut α} {e : Ending} (f : α → Reader → ReadOut β) (h : shortOut o e) :
    shortOut (o.bind f) e := by
  cases e with
  | stillOpen => simp only [shortOut] at h ⊢; rw [h]; rfl
  | closed => obtain ⟨r, h⟩ := h; exact ⟨r, by rw [h]; rfl⟩
  | failed => obtain ⟨r, h⟩ := h; exact ⟨r, by rw [h]; rfl⟩
  | closedWith _ => trivial

theorem readUntil_short (r : Reader) (n : Nat) (h : (stream r).1.length < n) :
    shortOut (readUntil r n) (stream r).2 := by
  induction r generalizing n with
  | nil =>
    cases n with
    | zero => omega
    | succ n => rfl
  | cons e r ih =>
    cases n with
    | zero => omega
    | succ n =>
      cases e with
      | chunk bs =>
        simp only [stream, List.length_append] at h ⊢
        simp only [readUntil]
        rw [if_pos (by omega)]
        exact shortOut_prepend bs (ih _ (by omega))
      | chunkEOF bs => trivial
      | eof => exact ⟨_, rfl⟩
      | fail => exact ⟨_, rfl⟩

theorem declaredLength_take {l : Bytes} (h : 4 ≤ l.length) : declaredLength (l.take 4) = declaredLength l := by
  unfold declaredLength
  have := fieldAt_append_left (l := l.take 4) (r := l.drop 4) (k := 0) (by simp; omega)
  rw [List.take_append_drop] at this
  exact this.symm

theorem announced_eq (l : Bytes) (h : 4 ≤ l.length) :
    announcedLength (l.take 4) = .ok (UInt32.ofNat (declaredLength l)).toInt32 := by
  unfold announcedLength
  rw [lengthOf_eq, if_neg (by simp [Slice.len]; omega)]
  simp only [declaredLength_take h]

theorem announced_toInt (l : Bytes) :
    (UInt32.ofNat (declaredLength l)).toInt32.toInt = signed32 (declaredLength l) :=
  toInt32_toInt _ (fieldAt_lt _ _)

theorem take_append_take_drop (l : Bytes) (a b : Nat) : l.take a ++ (l.drop a).take b = l.take (a + b) := by
  rw [List.take_add]

/-- The part of the reading functions after the length has been read. -/
def afterLength (info : Bytes) (length : Int32) (r : Reader) : ReadOut Bytes :=
  (readContent r length).bind fun content r => .ok (info ++ content) r

theorem block_have4 (r : Reader) (h : 4 ≤ (stream r).1.length) :
    ∃ r', stream r' = ((stream r).1.drop 4, (stream r).2) ∧
      unpackToBlockFromReader (some r) =
        afterLength ((stream r).1.take 4) (UInt32.ofNat (declaredLength (stream r).1)).toInt32 r' ∧
      ∀ max, unpackToBlockFromReaderLimit max (some r) =
        if signed32 (declaredLength (stream r).1) > max.toInt then .err .tooBig r'
        else afterLength ((stream r).1.take 4) (UInt32.ofNat (declaredLength (stream r).1)).toInt32 r' := by
  obtain ⟨r', e1, e2⟩ := readUntil_enough r 4 h
  refine ⟨r', e2, ?_, ?_⟩
  · unfold unpackToBlockFromReader
    simp only [e1, ReadOut.bind_ok, announced_eq _ h, afterLength]
  · intro max
    unfold unpackToBlockFromReaderLimit
    simp only [e1, ReadOut.bind_ok, announced_eq _ h, afterLength, announced_toInt]

theorem afterLength_small (info l : Bytes) (L : Nat) (hL : L < 2^31) (length : Int32) (hl : length.toInt = L)
    (r : Reader) (e : Ending) (hs : stream r = (l, e)) :
    (L ≤ l.length → ∃ r', afterLength info length r = .ok (info ++ l.take L) r' ∧ stream r' = (l.drop L, e)) ∧
    (l.length < L → shortOut (afterLength info length r) e) := by
  unfold afterLength readContent
  rw [hl, if_neg (by omega), Int.toNat_natCast]
  constructor
  · intro h
    obtain ⟨r', e1, e2⟩ := readUntil_enough r L (by rw [hs]; exact h)
    rw [hs] at e1 e2
    exact ⟨r', by rw [e1]; rfl, e2⟩
  · intro h
    have := readUntil_short r L (by rw [hs]; exact h)
    rw [hs] at this
    exact shortOut_bind _ this

end Tcpx
