import Verif.Lemmas.Unpack
import Verif.Spec.JSONLaw
namespace Tcpx
open Spec
variable {V : Type}

theorem get?_foldl_set (m : HMap) (hm : m.keys.Nodup) (acc : HMap) (k : String) :
    GoMap.get? (m.foldl (fun acc e => acc.set e.1 e.2) acc) k = (GoMap.get? m k).or (GoMap.get? acc k) := by
  induction m generalizing acc with
  | nil => rfl
  | cons e m ih =>
    obtain ⟨a, v⟩ := e
    simp only [GoMap.keys, List.map_cons, List.nodup_cons] at hm
    rw [List.foldl_cons, ih hm.2]
    simp only [GoMap.get?, GoMap.get?_set]
    by_cases hk : a = k
    · subst hk
      have : GoMap.get? m a = none := by
        cases hg : GoMap.get? m a with
        | none => rfl
        | some w =>
          have := (GoMap.get?_isSome_iff_mem m a).mp (by rw [hg]; rfl)
          exact absurd this hm.1
      simp [this]
    · simp [hk, Ne.symm hk]

theorem get?_mergeHeaders (hs : List Header) (hp : ∀ h ∈ hs, ProperMap h) (acc : HMap) (k : String) :
    GoMap.get? (hs.foldl (fun acc h => (h.getD []).foldl (fun acc e => acc.set e.1 e.2) acc) acc) k
      = (lastWins hs k).or (GoMap.get? acc k) := by
  induction hs generalizing acc with
  | nil => rfl
  | cons h hs ih =>
    rw [List.foldl_cons, ih (fun x hx => hp x (List.mem_cons_of_mem _ hx))]
    have : GoMap.get? ((h.getD []).foldl (fun acc e => acc.set e.1 e.2) acc) k
        = (h.get? k).or (GoMap.get? acc k) := by
      cases h with
      | none => rfl
      | some m => exact get?_foldl_set m (hp (some m) List.mem_cons_self m rfl) acc k
    rw [this]
    simp only [lastWins, List.reverse_cons, List.findSome?_append, List.findSome?_singleton]
    cases List.findSome? (fun h => Header.get? h k) hs.reverse <;> simp

theorem unpack_frame (env : Env V) (s : Slice) (dest : V) (m : Option (Marshaller V)) (id : Int) (h b rest : Bytes)
    (hs : s.live = Spec.frame id h b ++ rest) (hp : payload h b + 4 < 2^32) :
    unpackWithMarshaller env s dest m = (do
         let header ← (if h = [] then .ok none else orErr (env.json.unmarshal h) .json)
         let dest ← (if b = [] then .ok dest else orErr ((m.getD (env.builtin .json)).unmarshal b dest) .marshal)
         .ok { id := (UInt32.ofNat (pattern32 id)).toInt32, header := header, body := some dest }) := by
  have hp' : payload h b < 2^32 := by omega
  have hfull : s.full = Spec.frame id h b ++ (rest ++ s.spare) := by
    simp [Slice.full, hs, List.append_assoc]
  have hcap : 4 + payload h b ≤ s.cap := by
    rw [← full_length, hfull, List.length_append, frame_length]; omega
  have f0 := frame_field0 id h b (rest ++ s.spare) hp'
  have f4 := frame_field4 id h b (rest ++ s.spare)
  have f8 := frame_field8 id h b (rest ++ s.spare) hp'
  have f12 := frame_field12 id h b (rest ++ s.spare) hp'
  have eh := frame_header id h b (rest ++ s.spare) hp'
  have eb := frame_body id h b (rest ++ s.spare) hp'
  unfold declaredHeader declaredHeaderLen at eh
  unfold declaredBody declaredHeaderLen declaredBodyLen at eb
  rw [unpack_eq, hfull]
  simp only []
  rw [f0, f4, f8, f12]
  rw [f8] at eh
  rw [f8, f12] at eb
  unfold payload at *
  have n0 : (UInt32.ofNat (12 + h.length + b.length) + 4).toNat = 16 + h.length + b.length := by
    rw [UInt32.toNat_add]; simp only [UInt32.toNat_ofNat', UInt32.reduceToNat]; omega
  have n1 : (16 + UInt32.ofNat h.length).toNat = 16 + h.length := by
    rw [UInt32.toNat_add]; simp only [UInt32.toNat_ofNat', UInt32.reduceToNat]; omega
  have n2 : (16 + UInt32.ofNat h.length + UInt32.ofNat b.length).toNat = 16 + h.length + b.length := by
    rw [UInt32.toNat_add, n1]; simp only [UInt32.toNat_ofNat']; omega
  have z : ∀ l : Bytes, l.length < 2^32 → (UInt32.ofNat l.length = 0 ↔ l = []) := by
    intro l hl
    rw [← UInt32.toNat_inj]
    simp only [UInt32.toNat_ofNat', UInt32.reduceToNat, Nat.mod_eq_of_lt hl]
    exact List.length_eq_zero_iff
  rw [n0, n1, n2, if_neg (by omega), eh, eb]
  congr 1
  · by_cases hh : h = []
    · rw [if_pos ((z h (by omega)).mpr hh), if_pos hh]
    · rw [if_neg (fun x => hh ((z h (by omega)).mp x)), if_neg hh, if_neg (by omega)]
  · funext header
    congr 1
    by_cases hh : b = []
    · rw [if_pos ((z b (by omega)).mpr hh), if_pos hh]
    · rw [if_neg (fun x => hh ((z b (by omega)).mp x)), if_neg hh, if_neg (by omega)]

theorem pack_ok {env : Env V} {msg : Message V} {m : Option (Marshaller V)} {bs : Bytes}
    (h : packWithMarshaller env msg m = .ok bs) :
    ∃ hb bb, env.json.marshal msg.header = some hb ∧
      (match msg.body with | none => bb = [] | some v => (m.getD (env.builtin .json)).marshal v = some bb) ∧
      bs = Tcpx.frame msg.id hb bb := by
  unfold packWithMarshaller at h
  cases hj : env.json.marshal msg.header with
  | none => simp [hj, orErr] at h
  | some hb =>
    simp only [hj, orErr, Res.bind_ok] at h
    cases hbd : msg.body with
    | none =>
      simp only [hbd] at h
      injection h with h
      exact ⟨hb, [], rfl, rfl, h.symm⟩
    | some v =>
      simp only [hbd] at h
      cases hm : (m.getD (env.builtin .json)).marshal v with
      | none => simp [hm] at h
      | some bb =>
        simp only [hm, Res.bind_ok] at h
        injection h with h
        exact ⟨hb, bb, rfl, hm, h.symm⟩

theorem id_of_pattern (id : Int32) : (UInt32.ofNat (pattern32 id.toInt)).toInt32 = id := by
  apply int32_ext
  rw [toInt32_toInt _ (pattern32_lt _), signed32_pattern32]

theorem firstBlockOfBytes_aux (s : Slice) (n : Nat) (hn : fieldAt s.live 0 = n) :
    firstBlockOfBytes s =
      if s.len < 16 ∨ s.len < 4 + n then .err .short
      else .ok { live := s.live.take (4 + n), spare := s.live.drop (4 + n) ++ s.spare } := by
  unfold firstBlockOfBytes
  by_cases h16 : s.len < 16
  · rw [if_pos h16, if_pos (Or.inl h16)]
  · rw [if_neg h16]
    have := sub_in (s := s) (lo := 0) (hi := 4) (by omega) (by omega)
    rw [show s.sub 0 4 = _ from this, Res.bind_ok]
    have h' := uint32Of_field (l := s.live) (k := 0) (by unfold Slice.len at *; omega)
    have hlt := fieldAt_lt s.live 0
    rw [hn] at h' hlt
    simp only [List.drop_zero] at h'
    have e : (UInt32.ofNat n).toNat = n := by
      simp only [UInt32.toNat_ofNat']; exact Nat.mod_eq_of_lt hlt
    simp only [Spec.range, List.drop_zero, Nat.sub_zero, h', Res.bind_ok, e]
    by_cases hn : s.len < 4 + n
    · rw [if_pos hn, if_pos (Or.inr hn)]
    · rw [if_neg hn, if_neg (by omega)]
      have h2 := sub_in (s := s) (lo := 0) (hi := 4 + n) (by omega) (by omega)
      rw [Int.natCast_add] at h2
      simp only [Spec.range, List.drop_zero, Nat.sub_zero] at h2
      exact h2

theorem firstBlockOfBytes_eq (s : Slice) :
    firstBlockOfBytes s =
      if s.len < 16 ∨ s.len < 4 + declaredLength s.live then .err .short
      else .ok { live := s.live.take (4 + declaredLength s.live),
                 spare := s.live.drop (4 + declaredLength s.live) ++ s.spare } :=
  firstBlockOfBytes_aux s (declaredLength s.live) rfl

end Tcpx
