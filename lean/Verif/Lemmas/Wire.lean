import Verif.Model.Packx
import Verif.Spec.Wire
namespace Tcpx

theorem value4_lt (b0 b1 b2 b3 : UInt8) : Spec.value4 b0 b1 b2 b3 < 2^32 := by
  have h0 := b0.toNat_lt; have h1 := b1.toNat_lt; have h2 := b2.toNat_lt; have h3 := b3.toNat_lt
  unfold Spec.value4; omega

theorem beUint32_toNat (b0 b1 b2 b3 : UInt8) : (beUint32 b0 b1 b2 b3).toNat = Spec.value4 b0 b1 b2 b3 := by
  have h0 := b0.toNat_lt; have h1 := b1.toNat_lt; have h2 := b2.toNat_lt; have h3 := b3.toNat_lt
  unfold beUint32 Spec.value4
  simp only [UInt32.toNat_or, UInt32.toNat_shiftLeft, UInt8.toNat_toUInt32]
  have e1 : (b2.toNat <<< (UInt32.toNat 8 % 32)) % 2^32 = b2.toNat <<< 8 := by
    simp [Nat.shiftLeft_eq]; omega
  have e2 : (b1.toNat <<< (UInt32.toNat 16 % 32)) % 2^32 = b1.toNat <<< 16 := by
    simp [Nat.shiftLeft_eq]; omega
  have e3 : (b0.toNat <<< (UInt32.toNat 24 % 32)) % 2^32 = b0.toNat <<< 24 := by
    simp [Nat.shiftLeft_eq]; omega
  rw [e1, e2, e3]
  rw [Nat.or_comm b3.toNat, ← Nat.shiftLeft_add_eq_or_of_lt (by omega)]
  rw [Nat.or_comm _ (b1.toNat <<< 16), ← Nat.shiftLeft_add_eq_or_of_lt (by simp [Nat.shiftLeft_eq]; omega)]
  rw [Nat.or_comm _ (b0.toNat <<< 24), ← Nat.shiftLeft_add_eq_or_of_lt (by simp [Nat.shiftLeft_eq]; omega)]
  simp [Nat.shiftLeft_eq]; omega

theorem putUint32_eq (v : UInt32) : putUint32 v = Spec.be4 v.toNat := by
  have hv := v.toNat_lt
  unfold putUint32 Spec.be4
  have k : ∀ n : Nat, UInt8.ofNat (n % 256) = UInt8.ofNat n := by
    intro n; apply UInt8.toNat_inj.mp; simp
  simp only [List.cons.injEq, and_true, k]
  refine ⟨?_, ?_, ?_, ?_⟩ <;> apply UInt8.toNat_inj.mp <;>
    simp [UInt32.toNat_shiftRight, Nat.shiftRight_eq_div_pow]

theorem be4_length (n : Nat) : (Spec.be4 n).length = 4 := rfl

theorem value4_be4 (n : Nat) (h : n < 2^32) :
    Spec.value4 (UInt8.ofNat (n / 2^24 % 256)) (UInt8.ofNat (n / 2^16 % 256)) (UInt8.ofNat (n / 2^8 % 256))
      (UInt8.ofNat (n % 256)) = n := by
  unfold Spec.value4; simp only [UInt8.toNat_ofNat']; omega

theorem be4_injective {a b : Nat} (ha : a < 2^32) (hb : b < 2^32) (h : Spec.be4 a = Spec.be4 b) : a = b := by
  unfold Spec.be4 at h
  simp only [List.cons.injEq, and_true] at h
  obtain ⟨h0, h1, h2, h3⟩ := h
  rw [← value4_be4 a ha, ← value4_be4 b hb, h0, h1, h2, h3]

theorem uint32Of_append (v : UInt32) (r : Bytes) : uint32Of (putUint32 v ++ r) = .ok v := by
  rw [putUint32_eq]
  simp only [Spec.be4, uint32Of, List.cons_append]
  congr 1
  apply UInt32.toNat_inj.mp
  rw [beUint32_toNat, value4_be4 _ v.toNat_lt]

theorem putUint32_length (v : UInt32) : (putUint32 v).length = 4 := rfl

theorem lenU32_toNat {b : Bytes} (h : b.length < 2^32) : (lenU32 b).toNat = b.length := by
  simp [lenU32]; omega

theorem int32_toUInt32_toNat (i : Int32) : i.toUInt32.toNat = Spec.pattern32 i.toInt := by
  unfold Spec.pattern32
  have : i.toInt = i.toUInt32.toBitVec.toInt := rfl
  rw [this, BitVec.toInt_eq_toNat_cond]
  have hlt := i.toUInt32.toBitVec.isLt
  have : i.toUInt32.toNat = i.toUInt32.toBitVec.toNat := rfl
  rw [this]
  split <;> omega

/-- The model's assembled packet is the documented frame whenever it fits the length field. -/
theorem frame_eq_spec (id : Int32) (h b : Bytes) (hs : Spec.payload h b < 2^32) :
    frame id h b = Spec.frame id.toInt h b := by
  unfold Spec.payload at hs
  unfold frame Spec.frame
  simp only [putUint32_eq, int32_toUInt32_toNat]
  have e1 : (lenU32 h).toNat = h.length := lenU32_toNat (by omega)
  have e2 : (lenU32 b).toNat = b.length := lenU32_toNat (by omega)
  rw [lenU32_toNat]
  · rw [e1, e2]
    simp only [List.length_append, be4_length, List.append_assoc]
    congr 2; omega
  · simp only [List.length_append, be4_length]; omega

end Tcpx
