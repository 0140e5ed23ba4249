import Verif.Lemmas.Wire
namespace Tcpx
open Spec

theorem fieldAt_lt (l : Bytes) (k : Nat) : fieldAt l k < 2^32 := value4_lt _ _ _ _

theorem take4_eq {l : Bytes} (h : 4 ≤ l.length) :
    ∃ r, l = l.getD 0 0 :: l.getD 1 0 :: l.getD 2 0 :: l.getD 3 0 :: r := by
  match l, h with
  | a :: b :: c :: d :: r, _ => exact ⟨r, by simp⟩

theorem uint32Of_field {l : Bytes} {k : Nat} (h : k + 4 ≤ l.length) :
    uint32Of ((l.drop k).take 4) = .ok (UInt32.ofNat (fieldAt l k)) := by
  have h4 : 4 ≤ ((l.drop k).take 4).length := by simp; omega
  obtain ⟨r, hr⟩ := take4_eq h4
  rw [hr]
  simp only [uint32Of]
  congr 1
  apply UInt32.toNat_inj.mp
  rw [beUint32_toNat]
  have : fieldAt l k < 2^32 := fieldAt_lt l k
  simp only [UInt32.toNat_ofNat', Nat.mod_eq_of_lt this]
  unfold fieldAt
  have g : ∀ i, i < 4 → ((l.drop k).take 4).getD i 0 = l.getD (k+i) 0 := by
    intro i hi
    simp [List.getD_eq_getElem?_getD, hi, List.getElem?_drop]
  rw [g 0 (by omega), g 1 (by omega), g 2 (by omega), g 3 (by omega)]
  rfl

theorem toInt32_toInt (n : Nat) (h : n < 2^32) : (UInt32.ofNat n).toInt32.toInt = signed32 n := by
  have e : (UInt32.ofNat n).toInt32.toInt = (UInt32.ofNat n).toBitVec.toInt := rfl
  have e2 : (UInt32.ofNat n).toBitVec.toNat = n := by
    show (UInt32.ofNat n).toNat = n
    simp; omega
  rw [e, BitVec.toInt_eq_toNat_cond, e2]
  unfold signed32; split <;> split <;> omega

theorem signed32_pattern32 (i : Int32) : signed32 (pattern32 i.toInt) = i.toInt := by
  have h1 := i.toInt_lt; have h2 := i.le_toInt
  unfold signed32 pattern32; split <;> omega

theorem int32_ext {a b : Int32} (h : a.toInt = b.toInt) : a = b := Int32.toInt_inj.mp h

/-- `s[lo:hi]` inside the length. -/
theorem sub_in {s : Slice} {lo hi : Nat} (h1 : lo ≤ hi) (h2 : hi ≤ s.len) :
    s.sub lo hi = .ok { live := Spec.range s.live lo hi, spare := s.live.drop hi ++ s.spare } := by
  unfold Slice.sub Slice.cap Spec.range
  unfold Slice.len at h2
  rw [if_pos (by omega)]
  simp only [Int.toNat_natCast]
  rw [List.drop_append_of_le_length h2]
  congr 2
  rw [List.drop_append_of_le_length (by omega), List.take_append_of_le_length (by simp; omega)]

/-- General form: `s[lo:hi]` inside the capacity. -/
theorem sub_cap {s : Slice} {lo hi : Nat} (h1 : lo ≤ hi) (h2 : hi ≤ s.cap) :
    s.sub lo hi = .ok { live := Spec.range (s.live ++ s.spare) lo hi, spare := (s.live ++ s.spare).drop hi } := by
  unfold Slice.sub Spec.range
  rw [if_pos (by omega)]
  simp

theorem sub_bad {s : Slice} {lo hi : Int} (h : ¬ (0 ≤ lo ∧ lo ≤ hi ∧ hi ≤ s.cap)) : s.sub lo hi = .panic := by
  unfold Slice.sub; rw [if_neg h]

theorem lengthOf_eq (s : Slice) :
    lengthOf s = if s.len < 4 then .err .short else .ok (UInt32.ofNat (declaredLength s.live)).toInt32 := by
  unfold lengthOf declaredLength
  split
  · rfl
  · have := sub_in (s := s) (lo := 0) (hi := 4) (by omega) (by omega)
    rw [show s.sub 0 4 = _ from this]
    have h' := uint32Of_field (l := s.live) (k := 0) (by unfold Slice.len at *; omega)
    simp only [List.drop_zero] at h'
    simp [Spec.range, h']

theorem messageIDOf_eq (s : Slice) :
    messageIDOf s = if s.len < 8 then .err .short else .ok (UInt32.ofNat (fieldAt s.live 4)).toInt32 := by
  unfold messageIDOf
  split
  · rfl
  · have := sub_in (s := s) (lo := 4) (hi := 8) (by omega) (by omega)
    rw [show s.sub 4 8 = _ from this]
    have h' := uint32Of_field (l := s.live) (k := 4) (by unfold Slice.len at *; omega)
    simp [Spec.range, h']

theorem headerLengthOf_eq (s : Slice) :
    headerLengthOf s = if s.len < 12 then .err .short else .ok (UInt32.ofNat (fieldAt s.live 8)).toInt32 := by
  unfold headerLengthOf
  split
  · rfl
  · have := sub_in (s := s) (lo := 8) (hi := 12) (by omega) (by omega)
    rw [show s.sub 8 12 = _ from this]
    have h' := uint32Of_field (l := s.live) (k := 8) (by unfold Slice.len at *; omega)
    simp [Spec.range, h']

theorem bodyLengthOf_eq (s : Slice) :
    bodyLengthOf s = if s.len < 16 then .err .short else .ok (UInt32.ofNat (fieldAt s.live 12)).toInt32 := by
  unfold bodyLengthOf
  split
  · rfl
  · have := sub_in (s := s) (lo := 12) (hi := 16) (by omega) (by omega)
    rw [show s.sub 12 16 = _ from this]
    have h' := uint32Of_field (l := s.live) (k := 12) (by unfold Slice.len at *; omega)
    simp [Spec.range, h']

/-- The 32-bit wrapped sum, when it does not wrap. -/
theorem int32_add_toInt {a b : Int32} (h1 : -2^31 ≤ a.toInt + b.toInt) (h2 : a.toInt + b.toInt < 2^31) :
    (a + b).toInt = a.toInt + b.toInt := by
  rw [Int32.toInt_add]
  rw [Int.bmod_eq_of_le] <;> omega

end Tcpx
