import Verif.Lemmas.Frame
namespace Tcpx
open Spec
variable {V : Type}

/-- All bytes of the backing array seen from a slice. -/
def Slice.full (s : Slice) : Bytes := s.live ++ s.spare

theorem full_length (s : Slice) : s.full.length = s.cap := by simp [Slice.full, Slice.cap]

theorem sub_full {s t : Slice} {hi : Nat} (h : s.sub 0 hi = .ok t) : t.full = s.full ∧ hi ≤ s.cap := by
  unfold Slice.sub at h
  split at h
  · rename_i hc
    injection h with h
    subst h
    refine ⟨?_, by omega⟩
    simp only [Slice.full, Int.toNat_zero, Int.toNat_natCast, List.drop_zero, Nat.sub_zero]
    exact List.take_append_drop _ _
  · cases h

/-- The three possible outcomes of a slice expression with natural bounds. -/
theorem sub_nat (s : Slice) (lo hi : Nat) :
    s.sub lo hi = if lo ≤ hi ∧ hi ≤ s.cap then
      .ok { live := Spec.range s.full lo hi, spare := s.full.drop hi } else .panic := by
  split
  · rename_i h; exact sub_cap h.1 h.2
  · rename_i h; apply sub_bad; omega

theorem uint32Of_range {l : Bytes} {k : Nat} (h : k + 4 ≤ l.length) :
    uint32Of (Spec.range l k (k+4)) = .ok (UInt32.ofNat (fieldAt l k)) := by
  unfold Spec.range
  rw [Nat.add_sub_cancel_left]
  exact uint32Of_field h

/-- Reading a 4-byte field through a slice expression. -/
theorem field_sub (s : Slice) (k : Nat) :
    (s.sub k (k + 4 : Nat) >>= fun b => uint32Of b.live) =
      if k + 4 ≤ s.cap then .ok (UInt32.ofNat (fieldAt s.full k)) else .panic := by
  rw [sub_nat]
  split
  · rename_i h; rw [if_pos h.2, Res.bind_ok]; exact uint32Of_range (by rw [full_length]; exact h.2)
  · rename_i h; rw [if_neg (by omega)]; rfl

/-- Closed form of `UnpackWithMarshaller`. -/
theorem unpack_eq (env : Env V) (s : Slice) (dest : V) (m : Option (Marshaller V)) :
    unpackWithMarshaller env s dest m =
      (let d := s.full
       let hl := UInt32.ofNat (fieldAt d 8)
       let bl := UInt32.ofNat (fieldAt d 12)
       if s.cap < 16 ∨ s.cap < (UInt32.ofNat (fieldAt d 0) + 4).toNat then .panic
       else do
         let header ← (if hl = 0 then .ok none
            else if (16 + hl).toNat < 16 ∨ s.cap < (16 + hl).toNat then .panic
            else orErr (env.json.unmarshal (Spec.range d 16 (16 + hl).toNat)) .json)
         let dest ← (if bl = 0 then .ok dest
            else if (16 + hl + bl).toNat < (16 + hl).toNat ∨ s.cap < (16 + hl + bl).toNat then .panic
            else orErr ((m.getD (env.builtin .json)).unmarshal
                  (Spec.range d (16 + hl).toNat (16 + hl + bl).toNat) dest) .marshal)
         .ok { id := (UInt32.ofNat (fieldAt d 4)).toInt32, header := header, body := some dest }) := by
  have assoc : ∀ {α β γ : Type} (x : Res α) (f : α → Res β) (g : β → Res γ),
      ((x >>= f) >>= g) = (x >>= fun a => f a >>= g) := by
    intro α β γ x f g; cases x <;> rfl
  have fld : ∀ (t : Slice) (k : Nat) {β : Type} (g : UInt32 → Res β),
      (t.sub k (k + 4 : Nat) >>= fun b => uint32Of b.live >>= g) =
        if k + 4 ≤ t.cap then g (UInt32.ofNat (fieldAt t.full k)) else .panic := by
    intro t k β g
    rw [← assoc, field_sub]; split <;> rfl
  unfold unpackWithMarshaller
  simp only []
  rw [show s.sub 0 4 = s.sub ((0 : Nat) : Int) ((0 + 4 : Nat) : Int) from rfl, fld]
  by_cases hc : s.cap < 16 ∨ s.cap < (UInt32.ofNat (fieldAt s.full 0) + 4).toNat
  · rw [if_pos hc]
    split
    · have hs := sub_nat s 0 (UInt32.ofNat (fieldAt s.full 0) + 4).toNat
      rw [show ((0 : Nat) : Int) = 0 from rfl] at hs
      rw [hs]
      split
      · rename_i h4 h
        rw [Res.bind_ok]
        generalize ht : ({ live := Spec.range s.full 0 _, spare := _ } : Slice) = t
        have hcap : t.cap = s.cap := by
          have e := sub_full (hs.trans (if_pos h))
          rw [← full_length, ← full_length, ← ht]; rw [e.1]
        rw [show t.sub 4 8 = t.sub ((4 : Nat) : Int) ((4 + 4 : Nat) : Int) from rfl, fld,
          show t.sub 8 12 = t.sub ((8 : Nat) : Int) ((8 + 4 : Nat) : Int) from rfl, fld,
          show t.sub 12 16 = t.sub ((12 : Nat) : Int) ((12 + 4 : Nat) : Int) from rfl, fld]
        rw [hcap, if_neg (show ¬ 12 + 4 ≤ s.cap by omega)]
        simp
      · rfl
    · rfl
  · rw [if_neg hc, if_pos (by omega)]
    have hs := sub_nat s 0 (UInt32.ofNat (fieldAt s.full 0) + 4).toNat
    rw [show ((0 : Nat) : Int) = 0 from rfl] at hs
    rw [if_pos (by omega)] at hs
    rw [hs, Res.bind_ok]
    have e := sub_full hs
    generalize ht : ({ live := Spec.range s.full 0 _, spare := _ } : Slice) = t
    have hcap : t.cap = s.cap := by rw [← full_length, ← full_length, ← ht, e.1]
    have hfull : t.full = s.full := by rw [← ht, e.1]
    rw [show t.sub 4 8 = t.sub ((4 : Nat) : Int) ((4 + 4 : Nat) : Int) from rfl, fld,
      show t.sub 8 12 = t.sub ((8 : Nat) : Int) ((8 + 4 : Nat) : Int) from rfl, fld,
      show t.sub 12 16 = t.sub ((12 : Nat) : Int) ((12 + 4 : Nat) : Int) from rfl, fld]
    rw [hcap, hfull, if_pos (by omega), if_pos (by omega), if_pos (by omega)]
    congr 1
    · by_cases h0 : UInt32.ofNat (fieldAt s.full 8) = 0
      · simp [h0]
      · rw [if_pos h0, if_neg h0]
        have := sub_nat t 16 (16 + UInt32.ofNat (fieldAt s.full 8)).toNat
        rw [show ((16 : Nat) : Int) = 16 from rfl] at this
        rw [this, hcap, hfull]
        by_cases hh : (16 + UInt32.ofNat (fieldAt s.full 8)).toNat < 16 ∨ s.cap < (16 + UInt32.ofNat (fieldAt s.full 8)).toNat
        · rw [if_neg (by omega), if_pos hh]; rfl
        · rw [if_pos (by omega), if_neg hh]; rfl
    · funext header
      congr 1
      by_cases h0 : UInt32.ofNat (fieldAt s.full 12) = 0
      · simp [h0]
      · rw [if_pos h0, if_neg h0]
        rw [sub_nat, hcap, hfull]
        generalize (16 + UInt32.ofNat (fieldAt s.full 8)).toNat = lo
        generalize (16 + UInt32.ofNat (fieldAt s.full 8) + UInt32.ofNat (fieldAt s.full 12)).toNat = hi
        by_cases hh : hi < lo ∨ s.cap < hi
        · rw [if_neg (by omega), if_pos hh]; rfl
        · rw [if_pos (by omega), if_neg hh]; rfl

end Tcpx
