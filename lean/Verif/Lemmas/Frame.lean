import Verif.Lemmas.Slices
namespace Tcpx
open Spec

theorem fieldAt_append_right (p l : Bytes) (k : Nat) : fieldAt (p ++ l) (p.length + k) = fieldAt l k := by
  unfold fieldAt
  have g : ∀ i, (p ++ l).getD (p.length + i) 0 = l.getD i 0 := by
    intro i; rw [List.getD_eq_getElem?_getD, List.getD_eq_getElem?_getD, List.getElem?_append_right (by omega), Nat.add_sub_cancel_left]
  rw [g, show p.length + k + 1 = p.length + (k+1) by omega, show p.length + k + 2 = p.length + (k+2) by omega,
    show p.length + k + 3 = p.length + (k+3) by omega, g, g, g]

theorem fieldAt_be4 (n : Nat) (r : Bytes) (h : n < 2^32) : fieldAt (be4 n ++ r) 0 = n := by
  have := value4_be4 n h
  simpa [fieldAt, be4] using this

/-- The bytes of a frame followed by `rest`, regrouped. -/
theorem frame_append (id : Int) (h b rest : Bytes) :
    Spec.frame id h b ++ rest =
      be4 (12 + h.length + b.length) ++ (be4 (pattern32 id) ++ (be4 h.length ++ (be4 b.length ++ (h ++ (b ++ rest))))) := by
  simp [Spec.frame, List.append_assoc]

theorem pattern32_lt (id : Int) : pattern32 id < 2^32 := by unfold pattern32; omega

theorem frame_field0 (id : Int) (h b rest : Bytes) (hs : payload h b < 2^32) :
    fieldAt (Spec.frame id h b ++ rest) 0 = payload h b := by
  rw [frame_append]; exact fieldAt_be4 _ _ hs

theorem frame_field4 (id : Int) (h b rest : Bytes) :
    fieldAt (Spec.frame id h b ++ rest) 4 = pattern32 id := by
  rw [frame_append]
  have := fieldAt_append_right (be4 (12 + h.length + b.length))
    (be4 (pattern32 id) ++ (be4 h.length ++ (be4 b.length ++ (h ++ (b ++ rest))))) 0
  rw [be4_length] at this
  rw [show 4 = 4 + 0 by omega, this]
  exact fieldAt_be4 _ _ (pattern32_lt id)

theorem frame_field8 (id : Int) (h b rest : Bytes) (hs : payload h b < 2^32) :
    fieldAt (Spec.frame id h b ++ rest) 8 = h.length := by
  unfold payload at hs
  rw [frame_append, ← List.append_assoc]
  have := fieldAt_append_right (be4 (12 + h.length + b.length) ++ be4 (pattern32 id))
    (be4 h.length ++ (be4 b.length ++ (h ++ (b ++ rest)))) 0
  simp only [List.length_append, be4_length] at this
  rw [show 8 = 4 + 4 + 0 by omega, this]
  exact fieldAt_be4 _ _ (by omega)

theorem frame_field12 (id : Int) (h b rest : Bytes) (hs : payload h b < 2^32) :
    fieldAt (Spec.frame id h b ++ rest) 12 = b.length := by
  unfold payload at hs
  rw [frame_append, ← List.append_assoc, ← List.append_assoc]
  have := fieldAt_append_right (be4 (12 + h.length + b.length) ++ be4 (pattern32 id) ++ be4 h.length)
    (be4 b.length ++ (h ++ (b ++ rest))) 0
  simp only [List.length_append, be4_length] at this
  rw [show 12 = 4 + 4 + 4 + 0 by omega, this]
  exact fieldAt_be4 _ _ (by omega)

theorem frame_length (id : Int) (h b : Bytes) : (Spec.frame id h b).length = 4 + payload h b := by
  simp [Spec.frame, be4_length, payload]; omega

theorem frame_drop16 (id : Int) (h b rest : Bytes) :
    (Spec.frame id h b ++ rest).drop 16 = h ++ (b ++ rest) := by
  rw [frame_append]
  simp [be4]

theorem range_drop (l : Bytes) (a n m : Nat) : Spec.range l (a + n) (a + m) = Spec.range (l.drop a) n m := by
  unfold Spec.range
  rw [List.drop_drop]
  congr 1; omega

theorem frame_header (id : Int) (h b rest : Bytes) (hs : payload h b < 2^32) :
    declaredHeader (Spec.frame id h b ++ rest) = h := by
  unfold declaredHeader declaredHeaderLen
  rw [frame_field8 _ _ _ _ hs]
  have := range_drop (Spec.frame id h b ++ rest) 16 0 h.length
  rw [Nat.add_zero] at this
  rw [this, frame_drop16]
  simp [Spec.range]

theorem frame_body (id : Int) (h b rest : Bytes) (hs : payload h b < 2^32) :
    declaredBody (Spec.frame id h b ++ rest) = b := by
  unfold declaredBody declaredHeaderLen declaredBodyLen
  rw [frame_field8 _ _ _ _ hs, frame_field12 _ _ _ _ hs]
  rw [Nat.add_assoc, range_drop, frame_drop16]
  simp [Spec.range]

theorem range_append_left {l r : Bytes} {a b : Nat} (h : b ≤ l.length) :
    Spec.range (l ++ r) a b = Spec.range l a b := by
  unfold Spec.range
  by_cases ha : a ≤ l.length
  · rw [List.drop_append_of_le_length ha, List.take_append_of_le_length (by simp; omega)]
  · have : b - a = 0 := by omega
    simp [this]

theorem fieldAt_append_left {l r : Bytes} {k : Nat} (h : k + 4 ≤ l.length) :
    fieldAt (l ++ r) k = fieldAt l k := by
  unfold fieldAt
  have g : ∀ i, i < l.length → (l ++ r).getD i 0 = l.getD i 0 := by
    intro i hi; simp [List.getD_eq_getElem?_getD, List.getElem?_append_left hi]
  rw [g _ (by omega), g _ (by omega), g _ (by omega), g _ (by omega)]

theorem int32_16_add {n : Nat} {a : Int32} (hn : n < 2^31 - 16) (h : a.toInt = n) :
    (16 + a : Int32).toInt = 16 + (n : Int) := by
  have h16i : (16 : Int32).toInt = 16 := by decide
  rw [int32_add_toInt]
  · rw [h, h16i]
  · rw [h, h16i]; omega
  · rw [h, h16i]; omega

theorem headerBytesOf_aux (s : Slice) (n : Nat) (hn : n < 2^31 - 16)
    (hl : (UInt32.ofNat (fieldAt s.live 8)).toInt32.toInt = (n : Int)) :
    headerBytesOf s =
      if s.len < 16 + n then .err .short
      else .ok { live := Spec.range s.live 16 (16+n), spare := s.live.drop (16 + n) ++ s.spare } := by
  have e := int32_16_add hn hl
  unfold headerBytesOf
  rw [headerLengthOf_eq]
  by_cases h12 : s.len < 12
  · rw [if_pos h12, if_pos (by omega)]; rfl
  · rw [if_neg h12, Res.bind_ok]
    simp only [hl]
    rw [e]
    by_cases hc : s.len < 16 + n
    · rw [if_pos (by omega), if_pos hc]
    · rw [if_neg (by omega), if_neg hc]
      have := sub_in (s := s) (lo := 16) (hi := 16 + n) (by omega) (by omega)
      rw [Int.natCast_add] at this
      exact this

theorem bodyBytesOf_aux (s : Slice) (n k : Nat) (hn : n + k < 2^31 - 16)
    (hl : (UInt32.ofNat (fieldAt s.live 8)).toInt32.toInt = (n : Int))
    (hb : (UInt32.ofNat (fieldAt s.live 12)).toInt32.toInt = (k : Int)) :
    bodyBytesOf s =
      if s.len < 16 + n + k then .err .short
      else .ok { live := Spec.range s.live (16+n) (16+n+k), spare := s.live.drop (16 + n + k) ++ s.spare } := by
  have e := int32_16_add (by omega) hl
  have e2 : (16 + (UInt32.ofNat (fieldAt s.live 8)).toInt32 + (UInt32.ofNat (fieldAt s.live 12)).toInt32 : Int32).toInt
      = 16 + (n : Int) + k := by
    rw [int32_add_toInt, e, hb]
    · rw [e, hb]; omega
    · rw [e, hb]; omega
  unfold bodyBytesOf
  rw [headerLengthOf_eq, bodyLengthOf_eq]
  by_cases h12 : s.len < 12
  · rw [if_pos h12, Res.bind_err, if_pos (by omega)]
  by_cases h16 : s.len < 16
  · rw [if_neg h12, if_pos h16, if_pos (by omega)]; rfl
  · rw [if_neg h12, if_neg h16, Res.bind_ok, Res.bind_ok]
    simp only [hl, hb]
    rw [e, e2]
    by_cases hc : s.len < 16 + n + k
    · rw [if_pos (by omega), if_pos hc]
    · rw [if_neg (by omega), if_neg hc]
      have := sub_in (s := s) (lo := 16 + n) (hi := 16 + n + k) (by omega) (by omega)
      rw [Int.natCast_add, Int.natCast_add] at this
      exact this

theorem declared_toInt (l : Bytes) (k n : Nat) (h : fieldAt l k = n) (hn : n < 2^31) :
    (UInt32.ofNat (fieldAt l k)).toInt32.toInt = (n : Int) := by
  rw [toInt32_toInt _ (fieldAt_lt _ _), h]
  exact if_pos hn

/-- Behaviour of `HeaderBytesOf` on arbitrary bytes whose declared header length is not absurd. -/
theorem headerBytesOf_small (s : Slice) (hn : declaredHeaderLen s.live < 2^31 - 16) :
    headerBytesOf s =
      if s.len < 16 + declaredHeaderLen s.live then .err .short
      else .ok { live := declaredHeader s.live, spare := s.live.drop (16 + declaredHeaderLen s.live) ++ s.spare } := by
  unfold declaredHeader
  exact headerBytesOf_aux s _ hn (declared_toInt _ _ _ rfl (by omega))

/-- Behaviour of `BodyBytesOf` on arbitrary bytes whose declared lengths are not absurd. -/
theorem bodyBytesOf_small (s : Slice)
    (hn : declaredHeaderLen s.live + declaredBodyLen s.live < 2^31 - 16) :
    bodyBytesOf s =
      if s.len < 16 + declaredHeaderLen s.live + declaredBodyLen s.live then .err .short
      else .ok { live := declaredBody s.live,
                 spare := s.live.drop (16 + declaredHeaderLen s.live + declaredBodyLen s.live) ++ s.spare } := by
  unfold declaredBody
  exact bodyBytesOf_aux s _ _ hn (declared_toInt _ _ _ rfl (by omega)) (declared_toInt _ _ _ rfl (by omega))

end Tcpx
