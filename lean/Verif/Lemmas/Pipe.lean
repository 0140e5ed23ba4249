import Verif.Spec.Dispatch
import Verif.Lemmas.Frame
import Verif.Lemmas.Reader
/-! # Lemmas about the pipe marker -/
namespace Tcpx
open Spec

theorem digitVal_eq (c : Char) : digitVal c = if c.isDigit = true then some (c.toNat - 48) else none := by
  have : ('0' ≤ c ∧ c ≤ '9') ↔ c.isDigit = true := by
    simp only [Char.isDigit, Char.le_def, Bool.and_eq_true, decide_eq_true_eq, ge_iff_le]
  simp only [digitVal, this]
  rfl

theorem digitsVal_eq (ds : List Char) (acc : Nat) :
    digitsVal acc ds = if ∀ c ∈ ds, c.isDigit = true then some (ds.foldl (fun a c => 10 * a + (c.toNat - 48)) acc) else none := by
  induction ds generalizing acc with
  | nil => simp [digitsVal]
  | cons c cs ih =>
    simp only [digitsVal, digitVal_eq]
    by_cases hc : c.isDigit = true
    · simp only [hc, if_true, ih, List.mem_cons, forall_eq_or_imp, true_and, List.foldl_cons]
      rw [Nat.mul_comm acc 10]
    · simp [hc]

theorem digit_not_sign {c : Char} (h : c.isDigit = true) : c ≠ '-' ∧ c ≠ '+' ∧ c ≠ ';' := by
  refine ⟨?_, ?_, ?_⟩ <;> (rintro rfl; exact absurd h (by decide))

theorem atoi_iff (s : List Char) (z : Int) : atoi s = some z ↔ Numeral s z := by
  have core : ∀ ds n, ds ≠ [] → (digitsVal 0 ds = some n ↔ Digits ds n) := by
    intro ds n hne
    rw [digitsVal_eq]
    by_cases ha : ∀ c ∈ ds, c.isDigit = true
    · rw [if_pos ha]
      simp only [Option.some.injEq]
      exact ⟨fun h => ⟨hne, ha, h.symm⟩, fun h => h.2.2.symm⟩
    · rw [if_neg ha]
      exact ⟨fun h => by simp at h, fun h => absurd h.2.1 ha⟩
  cases s with
  | nil =>
    simp only [atoi, List.head?_nil, reduceCtorEq, or_self, if_false, if_true]
    refine ⟨fun h => by simp at h, ?_⟩
    rintro ⟨_, _, n, ds, hd, h | h | h⟩
    · exact absurd h.1.symm hd.1
    · exact absurd h.1 (by simp)
    · exact absurd h.1 (by simp)
  | cons c cs =>
    simp only [atoi, List.head?_cons, Option.some.injEq, List.drop_one, List.tail_cons]
    by_cases hm : c = '-'
    · subst hm
      simp only [true_or, if_true]
      by_cases hcs : cs = []
      · subst hcs
        simp only [if_true]
        refine ⟨fun h => by simp at h, ?_⟩
        rintro ⟨_, _, n, ds, hd, h | h | h⟩
        · rw [← h.1] at hd; exact absurd (hd.2.1 '-' (by simp)) (by decide)
        · exact absurd h.1 (by simp)
        · simp at h; exact absurd h.1 hd.1
      · simp only [hcs, if_false]
        cases hv : digitsVal 0 cs with
        | none =>
          refine ⟨fun h => by simp at h, ?_⟩
          rintro ⟨_, _, n, ds, hd, h | h | h⟩
          · rw [← h.1] at hd; exact absurd (hd.2.1 '-' (by simp)) (by decide)
          · exact absurd h.1 (by simp)
          · simp at h; rw [← h.1] at hd; rw [(core cs n hcs).2 hd] at hv; simp at hv
        | some n =>
          have hd := (core cs n hcs).1 hv
          constructor
          · intro h
            by_cases hn : n ≤ 2^63
            · simp only [hn, if_true, Option.some.injEq] at h
              exact ⟨by omega, by omega, n, cs, hd, .inr (.inr ⟨rfl, h.symm⟩)⟩
            · simp [hn] at h
          · rintro ⟨h1, h2, n', ds, hd', h | h | h⟩
            · rw [← h.1] at hd'; exact absurd (hd'.2.1 '-' (by simp)) (by decide)
            · exact absurd h.1 (by simp)
            · simp at h
              have : n' = n := by rw [hd'.2.2, hd.2.2, h.1]
              subst this
              have hn : n' ≤ 2^63 := by omega
              simp [hn, h.2]
    · by_cases hp : c = '+'
      · subst hp
        simp only [or_true, if_true, hm, if_false]
        by_cases hcs : cs = []
        · subst hcs
          simp only [if_true]
          refine ⟨fun h => by simp at h, ?_⟩
          rintro ⟨_, _, n, ds, hd, h | h | h⟩
          · rw [← h.1] at hd; exact absurd (hd.2.1 '+' (by simp)) (by decide)
          · simp at h; exact absurd h.1 hd.1
          · exact absurd h.1 (by simp)
        · simp only [hcs, if_false]
          cases hv : digitsVal 0 cs with
          | none =>
            refine ⟨fun h => by simp at h, ?_⟩
            rintro ⟨_, _, n, ds, hd, h | h | h⟩
            · rw [← h.1] at hd; exact absurd (hd.2.1 '+' (by simp)) (by decide)
            · simp at h; rw [← h.1] at hd; rw [(core cs n hcs).2 hd] at hv; simp at hv
            · exact absurd h.1 (by simp)
          | some n =>
            have hd := (core cs n hcs).1 hv
            constructor
            · intro h
              by_cases hn : n < 2^63
              · simp only [hn, if_true, Option.some.injEq] at h
                exact ⟨by omega, by omega, n, cs, hd, .inr (.inl ⟨rfl, h.symm⟩)⟩
              · simp [hn] at h
            · rintro ⟨h1, h2, n', ds, hd', h | h | h⟩
              · rw [← h.1] at hd'; exact absurd (hd'.2.1 '+' (by simp)) (by decide)
              · simp at h
                have : n' = n := by rw [hd'.2.2, hd.2.2, h.1]
                subst this
                have hn : n' < 2^63 := by omega
                simp [hn, h.2]
              · exact absurd h.1 (by simp)
      · simp only [hm, hp, or_self, if_false, reduceCtorEq]
        cases hv : digitsVal 0 (c :: cs) with
        | none =>
          refine ⟨fun h => by simp at h, ?_⟩
          rintro ⟨_, _, n, ds, hd, h | h | h⟩
          · rw [← h.1] at hd; rw [(core _ n (by simp)).2 hd] at hv; simp at hv
          · simp at h; exact absurd h.1.1 hp
          · simp at h; exact absurd h.1.1 hm
        | some n =>
          have hd := (core (c :: cs) n (by simp)).1 hv
          constructor
          · intro h
            by_cases hn : n < 2^63
            · simp only [hn, if_true, Option.some.injEq] at h
              exact ⟨by omega, by omega, n, c :: cs, hd, .inl ⟨rfl, h.symm⟩⟩
            · simp [hn] at h
          · rintro ⟨h1, h2, n', ds, hd', h | h | h⟩
            · have : n' = n := by rw [hd'.2.2, hd.2.2, h.1]
              subst this
              have hn : n' < 2^63 := by omega
              simp [hn, h.2]
            · simp at h; exact absurd h.1.1 hp
            · simp at h; exact absurd h.1.1 hm

theorem numeral_no_semicolon {b : List Char} {n : Int} (h : Numeral b n) : ';' ∉ b := by
  obtain ⟨_, _, k, ds, hd, h⟩ := h
  have hds : ';' ∉ ds := fun hx => (digit_not_sign (hd.2.1 _ hx)).2.2 rfl
  rcases h with h | h | h
  · rw [h.1]; exact hds
  · rw [h.1]; simp [hds]
  · rw [h.1]; simp [hds]

theorem splitChar_ne_nil (sep : Char) (l : List Char) : splitChar sep l ≠ [] := by
  cases l with
  | nil => simp [splitChar]
  | cons c cs =>
    simp only [splitChar]
    split
    · simp
    · split <;> simp

theorem splitChar_none (sep : Char) (l : List Char) (h : sep ∉ l) : splitChar sep l = [l] := by
  induction l with
  | nil => rfl
  | cons c cs ih =>
    simp only [List.mem_cons, not_or] at h
    simp only [splitChar, Ne.symm h.1, if_false, ih h.2]

theorem splitChar_cons (sep : Char) (a b : List Char) (h : sep ∉ a) : splitChar sep (a ++ sep :: b) = a :: splitChar sep b := by
  induction a with
  | nil => simp [splitChar]
  | cons c cs ih =>
    simp only [List.mem_cons, not_or] at h
    simp only [List.cons_append, splitChar, Ne.symm h.1, if_false, ih h.2]

theorem split_first (sep : Char) (l : List Char) (h : sep ∈ l) : ∃ a b, l = a ++ sep :: b ∧ sep ∉ a := by
  induction l with
  | nil => simp at h
  | cons c cs ih =>
    by_cases hc : c = sep
    · subst hc; exact ⟨[], cs, rfl, by simp⟩
    · have : sep ∈ cs := by
        rcases List.mem_cons.1 h with h | h
        · exact absurd h.symm hc
        · exact h
      obtain ⟨a, b, hab, ha⟩ := ih this
      exact ⟨c :: a, b, by rw [hab]; rfl, by simp [ha, Ne.symm hc]⟩

/-- The result of `isPipe` once the header is decoded, by marker. -/
def MarkerResult (r : Res (Bool × Int)) : Marker → Prop
  | .none => r = .ok (false, 0)
  | .group n => r = .ok (true, n)
  | .bad => (∃ e, r = .err e) ∨ r = .panic

/-- The part of `isPipe` after `HeaderOf`. -/
def pipeOfHeader (header : Header) : Res (Bool × Int) :=
  if header.len = 0 then .ok (false, 0)
  else match header.get? PIPED with
    | none => .ok (false, 0)
    | some v =>
      match v.asString with
      | none => if v = .null then .panic else .err .badPipe
      | some pipeArgs =>
        match splitChar ';' pipeArgs.toList with
        | [a, b] =>
          match atoi b with
          | none => .err .badPipe
          | some length => if a = "enable".toList then .ok (true, length) else .ok (false, 0)
        | _ => .err .badPipe

theorem isPipe_eq (json : JSONCodec) (b : Bytes) : isPipe json b =
    match headerOf json { live := b } with
    | .err e => .err (wrapErr e)
    | .panic => .panic
    | .block => .block
    | .ok header => pipeOfHeader header := rfl

theorem len_ne_zero_of_get {h : Header} {k : String} {v : Any} (hg : h.get? k = some v) : h.len ≠ 0 := by
  cases h with
  | none => simp [Header.get?] at hg
  | some m => cases m with
    | nil => simp [Header.get?] at hg
    | cons _ _ => simp [Header.len]

theorem enable_no_semicolon : ';' ∉ "enable".toList := by decide

theorem marker_result {h : Header} {m : Marker} (hm : MarkerOf h m) : MarkerResult (pipeOfHeader h) m := by
  cases hm with
  | absent hg =>
    simp only [MarkerResult, pipeOfHeader, hg]
    split <;> rfl
  | enable s b n hg hs hn =>
    have e1 : s.toList = "enable".toList ++ ';' :: b := hs
    simp only [MarkerResult, pipeOfHeader, hg, len_ne_zero_of_get hg, if_false, Any.asString, e1,
      splitChar_cons ';' _ b enable_no_semicolon, splitChar_none ';' b (numeral_no_semicolon hn), (atoi_iff b n).2 hn, if_true]
  | other s a b n hg hs ha hne hn =>
    simp only [MarkerResult, pipeOfHeader, hg, len_ne_zero_of_get hg, if_false, Any.asString, hs,
      splitChar_cons ';' _ b ha, splitChar_none ';' b (numeral_no_semicolon hn), (atoi_iff b n).2 hn, hne]
  | notString v hg hv =>
    have : v.asString = none := by cases v <;> first | rfl | exact absurd rfl (hv _)
    simp only [MarkerResult, pipeOfHeader, hg, len_ne_zero_of_get hg, if_false, this]
    split
    · exact .inr rfl
    · exact .inl ⟨_, rfl⟩
  | notNumber s a b hg hs ha hn =>
    simp only [MarkerResult, pipeOfHeader, hg, len_ne_zero_of_get hg, if_false, Any.asString, hs, splitChar_cons ';' _ b ha]
    refine .inl ⟨.badPipe, ?_⟩
    by_cases hb : ';' ∈ b
    · obtain ⟨a', b', hab, ha'⟩ := split_first ';' b hb
      rw [hab, splitChar_cons ';' a' b' ha']
      cases hx : splitChar ';' b' with
      | nil => exact absurd hx (splitChar_ne_nil _ _)
      | cons w ws => rfl
    · rw [splitChar_none ';' b hb]
      have : atoi b = none := by
        cases hx : atoi b with
        | none => rfl
        | some z => exact absurd ((atoi_iff b z).1 hx) (hn z)
      simp only [this]
  | noSemicolon s hg hs =>
    simp only [MarkerResult, pipeOfHeader, hg, len_ne_zero_of_get hg, if_false, Any.asString, splitChar_none ';' _ hs]
    exact .inl ⟨_, rfl⟩

/-- Every header has a marker. -/
theorem marker_total (h : Header) : ∃ m, MarkerOf h m := by
  cases hg : h.get? PIPED with
  | none => exact ⟨_, .absent h hg⟩
  | some v =>
    by_cases hv : ∀ s, v ≠ .str s
    · exact ⟨_, .notString h v hg hv⟩
    · have : ∃ s, v = .str s := by
        cases v with
        | str s => exact ⟨s, rfl⟩
        | _ => exact absurd (fun s hs => Any.noConfusion hs) hv
      obtain ⟨s, rfl⟩ := this
      by_cases hs : ';' ∈ s.toList
      · obtain ⟨a, b, hab, ha⟩ := split_first ';' s.toList hs
        cases hx : atoi b with
        | none => exact ⟨_, .notNumber h s a b hg hab ha (fun n hn => by rw [(atoi_iff b n).2 hn] at hx; simp at hx)⟩
        | some z =>
          have hn := (atoi_iff b z).1 hx
          by_cases he : a = "enable".toList
          · subst he; exact ⟨_, .enable h s b z hg hab hn⟩
          · exact ⟨_, .other h s a b z hg hab ha he hn⟩
      · exact ⟨_, .noSemicolon h s hg hs⟩

/-- The result of `isPipe`, by kind of frame. -/
def KindResult (r : Res (Bool × Int)) : Kind → Prop
  | .ordinary => r = .ok (false, 0)
  | .pipe n => r = .ok (true, n)
  | .bad => (∃ e, r = .err e) ∨ r = .panic

theorem big_aux (s : Slice) (n : Nat) (q : Int32) (hbig : 2^31 - 16 ≤ n) (hlt : n < 2^32) (hx : q.toInt = signed32 n) :
    (if (s.len : Int) < 16 + q.toInt then Res.err Err.short else s.sub 16 (16 + q : Int32).toInt) = .panic ∨
    (if (s.len : Int) < 16 + q.toInt then Res.err Err.short else s.sub 16 (16 + q : Int32).toInt) = .err .short := by
  split
  · exact .inr rfl
  · refine .inl (sub_bad ?_)
    have h16 : (16 : Int32).toInt = 16 := by decide
    rintro ⟨h1, h2, h3⟩
    simp only [signed32] at hx
    by_cases hneg : n < 2^31
    · rw [if_pos hneg] at hx
      have := Int32.toInt_add (16 : Int32) q
      rw [this, h16, hx] at h2
      have hw : (16 + (n : Int)).bmod (2^32) = 16 + (n : Int) - 2^32 := by
        rw [Int.bmod_def]; omega
      rw [hw] at h2
      omega
    · rw [if_neg hneg] at hx
      have := int32_add_toInt (a := 16) (b := q) (by rw [h16, hx]; omega) (by rw [h16, hx]; omega)
      rw [this, h16, hx] at h2
      omega

theorem headerBytesOf_ok_len (s : Slice) (q : Int32) (h : headerLengthOf s = .ok q) :
    headerBytesOf s = if (s.len : Int) < 16 + q.toInt then Res.err Err.short else s.sub 16 (16 + q : Int32).toInt := by
  unfold headerBytesOf
  rw [h]; rfl

theorem headerBytesOf_err_len (s : Slice) (e : Err) (h : headerLengthOf s = .err e) : headerBytesOf s = .err e := by
  unfold headerBytesOf
  rw [h]; rfl

theorem headerBytesOf_big (s : Slice) (n : Nat) (hn : declaredHeaderLen s.live = n) (hbig : 2^31 - 16 ≤ n) :
    headerBytesOf s = .panic ∨ ∃ e, headerBytesOf s = .err e := by
  have hf : fieldAt s.live 8 = n := by rw [← hn, declaredHeaderLen]
  have hlt : n < 2^32 := by rw [← hf]; exact fieldAt_lt s.live 8
  have hl := headerLengthOf_eq s
  rw [hf] at hl
  by_cases h12 : s.len < 12
  · rw [if_pos h12] at hl
    exact .inr ⟨_, headerBytesOf_err_len s _ hl⟩
  · rw [if_neg h12] at hl
    rw [headerBytesOf_ok_len s _ hl]
    rcases big_aux s n _ hbig hlt (toInt32_toInt n hlt) with h | h
    · exact .inl h
    · exact .inr ⟨_, h⟩

theorem headerOf_frame_none (json : JSONCodec) (f : Bytes) (h : frameHeader json f = none) :
    (∃ e, headerOf json { live := f } = .err e) ∨ headerOf json { live := f } = .panic := by
  unfold frameHeader at h
  generalize hn : declaredHeaderLen f = n at h
  by_cases hbig : 2^31 - 16 ≤ n
  · simp only [headerOf]
    rcases headerBytesOf_big { live := f } n hn hbig with hle | ⟨e, hle⟩
    · rw [hle]; exact .inr rfl
    · rw [hle]; exact .inl ⟨_, rfl⟩
  · have hs := headerBytesOf_small { live := f } (by show declaredHeaderLen f < _; rw [hn]; omega)
    simp only [Slice.len, hn] at hs
    by_cases hlen : f.length < 16 + n
    · rw [if_pos hlen] at hs
      simp only [headerOf, hs]; exact .inl ⟨_, rfl⟩
    · rw [if_neg hlen] at hs
      rw [if_neg (by omega)] at h
      simp only [headerOf, hs, h]
      exact .inl ⟨_, rfl⟩

theorem headerOf_frame_some (json : JSONCodec) (f : Bytes) (hd : Header) (h : frameHeader json f = some hd) :
    headerOf json { live := f } = .ok hd := by
  unfold frameHeader at h
  generalize hn : declaredHeaderLen f = n at h
  by_cases hb : f.length < 16 + n ∨ 2^31 - 16 ≤ n
  · rw [if_pos hb] at h; cases h
  · rw [if_neg hb] at h
    have hs := headerBytesOf_small { live := f } (by show declaredHeaderLen f < _; rw [hn]; omega)
    simp only [Slice.len, hn] at hs
    rw [if_neg (by omega)] at hs
    simp only [headerOf, hs, h]
    rfl

theorem kind_result {json : JSONCodec} {f : Bytes} {k : Kind} (hk : KindOf json f k) : KindResult (isPipe json f) k := by
  rw [isPipe_eq]
  cases hk with
  | undecodable h =>
    rcases headerOf_frame_none json f h with ⟨e, hf⟩ | hf
    · rw [hf]; exact .inl ⟨_, rfl⟩
    · rw [hf]; exact .inr rfl
  | badMarker h hh hm => rw [headerOf_frame_some json f h hh]; exact marker_result hm
  | ordinary h hh hm => rw [headerOf_frame_some json f h hh]; exact marker_result hm
  | pipe h n hh hm => rw [headerOf_frame_some json f h hh]; exact marker_result hm

/-- Every frame has a kind. -/
theorem kind_total (json : JSONCodec) (f : Bytes) : ∃ k, KindOf json f k := by
  cases hf : frameHeader json f with
  | none => exact ⟨_, .undecodable hf⟩
  | some h =>
    obtain ⟨m, hm⟩ := marker_total h
    cases m with
    | none => exact ⟨_, .ordinary h hf hm⟩
    | group n => exact ⟨_, .pipe h n hf hm⟩
    | bad => exact ⟨_, .badMarker h hf hm⟩

/-- ... and only one. -/
theorem kind_unique {json : JSONCodec} {f : Bytes} {k k' : Kind} (h : KindOf json f k) (h' : KindOf json f k') : k = k' := by
  have a := kind_result h
  have b := kind_result h'
  cases k <;> cases k' <;> simp only [KindResult] at a b <;> simp_all

end Tcpx
