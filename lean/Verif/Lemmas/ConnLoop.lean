import Verif.Lemmas.Pipe
/-! # The connection loop against the sequence of complete frames -/
namespace Tcpx
open Spec

/-- A complete acceptable frame at the front of the stream is read whole, whatever the fragmentation. -/
theorem frame_step (r : Reader) (max : Int32) (f rest : Bytes) (e : Ending) (hr : stream r = (f ++ rest, e))
    (ha : Acceptable max.toInt f) :
    ∃ r', firstBlockOfLimitMaxByte (some r) max = .ok f r' ∧ stream r' = (rest, e) := by
  obtain ⟨h4, hlen, hL, hmax⟩ := ha
  have hd : declaredLength (f ++ rest) = declaredLength f := fieldAt_append_left (by omega)
  generalize hn : declaredLength f = n at *
  have hdd : declaredLength (stream r).1 = n := by rw [hr]; exact hd
  obtain ⟨r1, e1, e2, e3⟩ := block_have4 r (by rw [hr]; simp; omega)
  rw [hdd] at e2 e3
  have hti : (UInt32.ofNat n).toInt32.toInt = (n : Int) := by
    rw [toInt32_toInt n (by omega)]; unfold signed32; rw [if_pos hL]
  obtain ⟨r', e4, e5⟩ := (afterLength_small ((stream r).1.take 4) ((stream r).1.drop 4) n hL _ hti r1 (stream r).2 e1).1
    (by rw [hr]; simp; omega)
  rw [take_append_take_drop, hr] at e4
  rw [hr] at e5
  simp only [← hlen] at e4
  simp only [List.take_left'] at e4
  refine ⟨r', ?_, ?_⟩
  · rw [hr] at e2 e3
    unfold firstBlockOfLimitMaxByte
    split
    · rw [e2]; exact e4
    · rw [e3 max]
      rw [if_neg (by unfold signed32; rw [if_pos hL]; have := hmax (by omega); omega)]
      exact e4
  · rw [e5, List.drop_drop, ← hlen, List.drop_left']
    rfl

/-- An incomplete frame at the end of the stream is not returned. -/
theorem incomplete_step (r : Reader) (max : Int32) (hi : Incomplete max.toInt (stream r).1) :
    shortOut (firstBlockOfLimitMaxByte (some r) max) (stream r).2 := by
  by_cases h4 : 4 ≤ (stream r).1.length
  · rcases hi with hi | ⟨hL, hmax, hshort⟩
    · omega
    · obtain ⟨r1, e1, e2, e3⟩ := block_have4 r h4
      generalize hn : declaredLength (stream r).1 = n at *
      have hti : (UInt32.ofNat n).toInt32.toInt = (n : Int) := by
        rw [toInt32_toInt n (by omega)]; unfold signed32; rw [if_pos hL]
      have hs := (afterLength_small ((stream r).1.take 4) ((stream r).1.drop 4) n hL _ hti r1 (stream r).2 e1).2
        (by simp; omega)
      unfold firstBlockOfLimitMaxByte
      split
      · rw [e2]; exact hs
      · rw [e3 max, if_neg (by unfold signed32; rw [if_pos hL]; have := hmax (by omega); omega)]
        exact hs
  · unfold firstBlockOfLimitMaxByte
    split
    · exact shortOut_bind _ (readUntil_short r 4 (by omega))
    · exact shortOut_bind _ (readUntil_short r 4 (by omega))

/-- What is left of a loop that is at position `p` (not `refused`). -/
def runFrom (json : JSONCodec) (max : Int32) : Pos → Reader → List Task × LoopEnd
  | .refused, _ => ([], .ended)
  | .between, r => connLoop json max r
  | .inGroup k got, r =>
    match readGroup max k r with
    | .ok l r' => (.group (got.map some ++ l) :: (connLoop json max r').1, (connLoop json max r').2)
    | .err _ _ => ([], .ended)
    | .panic => ([], .panicked)
    | .block => ([], .blocked)

theorem connLoop_ok {json : JSONCodec} {max : Int32} {r r' : Reader} {b : Bytes}
    (h : firstBlockOfLimitMaxByte (some r) max = .ok b r') :
    connLoop json max r =
      match isPipe json b with
      | .err _ => ([], .ended)
      | .panic => ([], .panicked)
      | .block => ([], .blocked)
      | .ok (false, _) => (.single b :: (connLoop json max r').1, (connLoop json max r').2)
      | .ok (true, n) => if n ≤ 0 ∨ maxPointers < n then ([], .panicked) else runFrom json max (.inGroup (n.toNat - 1) [b]) r' := by
  rw [connLoop]
  split
  · rename_i e _ h1; rw [h] at h1; cases h1
  · rename_i h1; rw [h] at h1; cases h1
  · rename_i h1; rw [h] at h1; cases h1
  · rename_i b' r'' h1
    rw [h] at h1
    injection h1 with hb hr
    subst hb; subst hr
    cases isPipe json b with
    | err e => rfl
    | panic => rfl
    | block => rfl
    | ok p =>
      obtain ⟨q, n⟩ := p
      cases q with
      | false => rfl
      | true =>
        simp only [runFrom]
        split
        · rfl
        · split <;> (rename_i hh; rw [hh]; try rfl)

theorem connLoop_err {json : JSONCodec} {max : Int32} {r r' : Reader} {e : Err}
    (h : firstBlockOfLimitMaxByte (some r) max = .err e r') : connLoop json max r = ([], .ended) := by
  rw [connLoop]
  split
  · rfl
  · rename_i h1; rw [h] at h1; cases h1
  · rename_i h1; rw [h] at h1; cases h1
  · rename_i h1; rw [h] at h1; cases h1

theorem connLoop_panic {json : JSONCodec} {max : Int32} {r : Reader}
    (h : firstBlockOfLimitMaxByte (some r) max = .panic) : connLoop json max r = ([], .panicked) := by
  rw [connLoop]
  split
  · rename_i h1; rw [h] at h1; cases h1
  · rfl
  · rename_i h1; rw [h] at h1; cases h1
  · rename_i h1; rw [h] at h1; cases h1

theorem connLoop_block {json : JSONCodec} {max : Int32} {r : Reader}
    (h : firstBlockOfLimitMaxByte (some r) max = .block) : connLoop json max r = ([], .blocked) := by
  rw [connLoop]
  split
  · rename_i h1; rw [h] at h1; cases h1
  · rename_i h1; rw [h] at h1; cases h1
  · rfl
  · rename_i h1; rw [h] at h1; cases h1

theorem runFrom_group_ok {json : JSONCodec} {max : Int32} {r r' : Reader} {b : Bytes} {k : Nat} {got : List Bytes}
    (h : firstBlockOfLimitMaxByte (some r) max = .ok b r') :
    runFrom json max (.inGroup (k + 1) got) r = runFrom json max (.inGroup k (got ++ [b])) r' := by
  simp only [runFrom, readGroup, h]
  cases readGroup max k r' <;> simp [ReadOut.bind]

theorem runFrom_group_zero {json : JSONCodec} {max : Int32} {r : Reader} {got : List Bytes} :
    runFrom json max (.inGroup 0 got) r = (.group (got.map some) :: (connLoop json max r).1, (connLoop json max r).2) := by
  simp [runFrom, readGroup]

/-- The whole loop, frame by frame. -/
theorem loop_expected (json : JSONCodec) (max : Int32) (kind : Bytes → Kind) (tail : Bytes) (e : Ending) (fs : List Bytes) :
    ∀ (p : Pos) (r : Reader), p ≠ .refused → (∀ g, p ≠ .inGroup 0 g) → stream r = (fs.flatten ++ tail, e) →
      (∀ f ∈ fs, Acceptable max.toInt f) → (∀ f ∈ fs, KindOf json f (kind f)) →
      (((expected kind p fs).2 = .refused ∧ ∃ last, runFrom json max p r = ((expected kind p fs).1, last) ∧ last ≠ .blocked) ∨
       ((expected kind p fs).2 ≠ .refused ∧ (∀ g, (expected kind p fs).2 ≠ .inGroup 0 g) ∧ ∃ r', stream r' = (tail, e) ∧
          runFrom json max p r = ((expected kind p fs).1 ++ (runFrom json max (expected kind p fs).2 r').1,
            (runFrom json max (expected kind p fs).2 r').2))) := by
  induction fs with
  | nil =>
    intro p r hp h0 hr _ _
    have he : expected kind p [] = ([], p) := by cases p <;> rfl
    rw [he]
    exact .inr ⟨hp, h0, r, by simpa using hr, by simp⟩
  | cons f fs ih =>
    intro p r hp h0 hr ha hk
    have hfa := ha f (by simp)
    have hfk := kind_result (hk f (by simp))
    simp only [List.flatten_cons, List.append_assoc] at hr
    obtain ⟨r1, e1, e2⟩ := frame_step r max f (fs.flatten ++ tail) e hr hfa
    have ha' : ∀ g ∈ fs, Acceptable max.toInt g := fun g hg => ha g (by simp [hg])
    have hk' : ∀ g ∈ fs, KindOf json g (kind g) := fun g hg => hk g (by simp [hg])
    have bt := ih .between r1 (by simp) (by simp) e2 ha' hk'
    cases p with
    | refused => exact absurd rfl hp
    | between =>
      cases hkf : kind f with
      | bad =>
        rw [hkf] at hfk
        left
        simp only [expected, hkf, runFrom]
        rw [connLoop_ok e1]
        refine ⟨trivial, ?_⟩
        rcases hfk with ⟨er, hfk⟩ | hfk
        · rw [hfk]; exact ⟨_, rfl, by simp⟩
        · rw [hfk]; exact ⟨_, rfl, by simp⟩
      | ordinary =>
        rw [hkf] at hfk
        have hx : runFrom json max .between r = (.single f :: (runFrom json max .between r1).1, (runFrom json max .between r1).2) := by
          simp only [runFrom]
          rw [connLoop_ok e1, hfk]
        have hy : expected kind .between (f :: fs) = (.single f :: (expected kind .between fs).1, (expected kind .between fs).2) := by
          simp only [expected, hkf]
        rw [hx, hy]
        rcases bt with ⟨b1, last, b2, b3⟩ | ⟨b1, b0, r', b2, b3⟩
        · exact .inl ⟨b1, last, by rw [b2], b3⟩
        · exact .inr ⟨b1, b0, r', b2, by rw [b3]; rfl⟩
      | pipe n =>
        rw [hkf] at hfk
        have hfk' : isPipe json f = .ok (true, n) := hfk
        have hx : runFrom json max .between r =
            if n ≤ 0 ∨ maxPointers < n then ([], .panicked) else runFrom json max (.inGroup (n.toNat - 1) [f]) r1 := by
          simp only [runFrom]
          rw [connLoop_ok e1, hfk']
          rfl
        by_cases hb : n ≤ 0 ∨ maxPointers < n
        · left
          rw [hx, if_pos hb]
          have hb' : n ≤ 0 ∨ maxGroup < n := hb
          simp only [expected, hkf, if_pos hb']
          exact ⟨trivial, _, rfl, by simp⟩
        · rw [hx, if_neg hb]
          have hb' : ¬ (n ≤ 0 ∨ maxGroup < n) := hb
          by_cases h1 : n = 1
          · have hz : n.toNat - 1 = 0 := by omega
            have hy : expected kind .between (f :: fs) = (.group [some f] :: (expected kind .between fs).1, (expected kind .between fs).2) := by
              simp only [expected, hkf, if_neg hb', if_pos h1]
            rw [hz, runFrom_group_zero, hy]
            rcases bt with ⟨b1, last, b2, b3⟩ | ⟨b1, b0, r', b2, b3⟩
            · exact .inl ⟨b1, last, by simp only [runFrom] at b2; rw [b2]; rfl, b3⟩
            · exact .inr ⟨b1, b0, r', b2, by
                rw [show connLoop json max r1 = runFrom json max .between r1 from rfl, b3]; rfl⟩
          · have hy : expected kind .between (f :: fs) = expected kind (.inGroup (n.toNat - 1) [f]) fs := by
              simp only [expected, hkf, if_neg hb', if_neg h1]
            rw [hy]
            exact ih (.inGroup (n.toNat - 1) [f]) r1 (by simp) (by intro g hg; injection hg with hg; omega) e2 ha' hk'
    | inGroup k got =>
      obtain ⟨m, rfl⟩ : ∃ m, k = m + 1 := ⟨k - 1, by
        have : k ≠ 0 := fun hz => h0 got (by rw [hz])
        omega⟩
      rw [runFrom_group_ok e1]
      by_cases h1 : m = 0
      · subst h1
        have hy : expected kind (.inGroup (0 + 1) got) (f :: fs) =
            (.group ((got ++ [f]).map some) :: (expected kind .between fs).1, (expected kind .between fs).2) := by
          simp [expected]
        rw [runFrom_group_zero, hy]
        rcases bt with ⟨b1, last, b2, b3⟩ | ⟨b1, b0, r', b2, b3⟩
        · exact .inl ⟨b1, last, by simp only [runFrom] at b2; rw [b2], b3⟩
        · exact .inr ⟨b1, b0, r', b2, by
            rw [show connLoop json max r1 = runFrom json max .between r1 from rfl, b3]; rfl⟩
      · have hy : expected kind (.inGroup (m + 1) got) (f :: fs) = expected kind (.inGroup m (got ++ [f])) fs := by
          simp only [expected, Nat.add_sub_cancel]
          rw [if_neg (by omega)]
        rw [hy]
        exact ih (.inGroup m (got ++ [f])) r1 (by simp) (by intro g hg; injection hg with hg; omega) e2 ha' hk'

/-! ## What follows the complete frames -/

/-- After the end of the stream was reported, it is reported again. -/
theorem readUntil_closed (r : Reader) (n : Nat) (h : (stream r).1.length < n) (hc : (stream r).2 = .closed) :
    ∃ r', readUntil r n = .err .eof r' ∧ stream r' = ([], .closed) := by
  induction r generalizing n with
  | nil => simp [stream] at hc
  | cons ev r ih =>
    obtain ⟨m, rfl⟩ : ∃ m, n = m + 1 := ⟨n - 1, by omega⟩
    cases ev with
    | chunk bs =>
      simp only [stream, List.length_append] at h hc
      simp only [readUntil]
      rw [if_pos (by omega)]
      obtain ⟨r', h1, h2⟩ := ih (m + 1 - bs.length) (by omega) hc
      exact ⟨r', by rw [h1]; rfl, h2⟩
    | chunkEOF bs => simp [stream] at hc
    | eof => exact ⟨_, rfl, rfl⟩
    | fail => simp [stream] at hc

theorem incomplete_closed (r : Reader) (max : Int32) (hi : Incomplete max.toInt (stream r).1) (hc : (stream r).2 = .closed) :
    ∃ r', firstBlockOfLimitMaxByte (some r) max = .err .eof r' ∧ stream r' = ([], .closed) := by
  by_cases h4 : 4 ≤ (stream r).1.length
  · rcases hi with hi | ⟨hL, hmax, hshort⟩
    · omega
    · obtain ⟨r1, e1, e2, e3⟩ := block_have4 r h4
      generalize hn : declaredLength (stream r).1 = n at *
      have hti : (UInt32.ofNat n).toInt32.toInt = (n : Int) := by
        rw [toInt32_toInt n (by omega)]; unfold signed32; rw [if_pos hL]
      obtain ⟨r', h1, h2⟩ := readUntil_closed r1 n (by rw [e1]; simp; omega) (by rw [e1]; exact hc)
      have hs : afterLength ((stream r).1.take 4) (UInt32.ofNat n).toInt32 r1 = .err .eof r' := by
        unfold afterLength readContent
        rw [hti, if_neg (by omega), Int.toNat_natCast, h1]; rfl
      refine ⟨r', ?_, h2⟩
      unfold firstBlockOfLimitMaxByte
      split
      · rw [e2]; exact hs
      · rw [e3 max, if_neg (by unfold signed32; rw [if_pos hL]; have := hmax (by omega); omega)]
        exact hs
  · obtain ⟨r', h1, h2⟩ := readUntil_closed r 4 (by omega) hc
    refine ⟨r', ?_, h2⟩
    unfold firstBlockOfLimitMaxByte
    split
    · simp only [unpackToBlockFromReader, h1]; rfl
    · simp only [unpackToBlockFromReaderLimit, h1]; rfl

theorem oversized_step (r : Reader) (max : Int32) (h : Oversized max.toInt (stream r).1) :
    ∃ r', firstBlockOfLimitMaxByte (some r) max = .err .tooBig r' ∧ stream r' = ((stream r).1.drop 4, (stream r).2) := by
  obtain ⟨h4, hL, hm, hbig⟩ := h
  obtain ⟨r1, e1, _, e3⟩ := block_have4 r h4
  refine ⟨r1, ?_, e1⟩
  unfold firstBlockOfLimitMaxByte
  rw [if_neg (by omega), e3 max, if_pos]
  unfold signed32; rw [if_pos hL]; exact hbig

theorem negative_step (r : Reader) (max : Int32) (h : NegativeLength (stream r).1) :
    firstBlockOfLimitMaxByte (some r) max = .panic := by
  obtain ⟨h4, hL⟩ := h
  obtain ⟨r1, _, e2, e3⟩ := block_have4 r h4
  have hlt : declaredLength (stream r).1 < 2^32 := fieldAt_lt _ _
  have hs : signed32 (declaredLength (stream r).1) < 0 := by
    unfold signed32; rw [if_neg (by omega)]; omega
  have hp : ∀ info, afterLength info (UInt32.ofNat (declaredLength (stream r).1)).toInt32 r1 = .panic := by
    intro info
    unfold afterLength readContent
    rw [announced_toInt, if_pos hs]; rfl
  unfold firstBlockOfLimitMaxByte
  split
  · rw [e2, hp]
  · rw [e3 max, if_neg (by omega), hp]

/-- Every byte string consists of complete acceptable frames and a rest that is incomplete, oversized or negative. -/
theorem splits (max : Int) (l : Bytes) : ∃ (fs : List Bytes) (tail : Bytes), l = fs.flatten ++ tail ∧ (∀ f ∈ fs, Acceptable max f) ∧
    (Incomplete max tail ∨ Oversized max tail ∨ NegativeLength tail) := by
  induction hn : l.length using Nat.strongRecOn generalizing l with
  | _ n ih =>
    by_cases h4 : 4 ≤ l.length
    · generalize hd : declaredLength l = d
      by_cases hneg : 2^31 ≤ d
      · exact ⟨[], l, rfl, by simp, .inr (.inr ⟨h4, by rw [hd]; exact hneg⟩)⟩
      · by_cases hbig : 0 < max ∧ max < d
        · exact ⟨[], l, rfl, by simp, .inr (.inl ⟨h4, by rw [hd]; omega, hbig.1, by rw [hd]; exact hbig.2⟩)⟩
        · by_cases hsh : l.length < 4 + d
          · exact ⟨[], l, rfl, by simp, .inl (.inr ⟨by rw [hd]; omega, by rw [hd]; omega, by rw [hd]; omega⟩)⟩
          · obtain ⟨fs, tail, h1, h2, h3⟩ := ih (l.drop (4 + d)).length (by simp; omega) (l.drop (4 + d)) rfl
            refine ⟨l.take (4 + d) :: fs, tail, ?_, ?_, h3⟩
            · rw [List.flatten_cons, List.append_assoc, ← h1, List.take_append_drop]
            · intro f hf
              rcases List.mem_cons.1 hf with hf | hf
              · rw [hf]
                have hdt : declaredLength (l.take (4 + d)) = d := by
                  have := fieldAt_append_left (l := l.take (4 + d)) (r := l.drop (4 + d)) (k := 0) (by simp; omega)
                  rw [List.take_append_drop] at this
                  unfold declaredLength at hd ⊢
                  rw [← this]; exact hd
                have hlt : (l.take (4 + d)).length = 4 + d := by simp; omega
                exact ⟨by omega, by rw [hdt]; exact hlt, by rw [hdt]; omega, by rw [hdt]; omega⟩
              · exact h2 f hf
    · exact ⟨[], l, rfl, by simp, .inl (.inl (by omega))⟩

theorem readGroup_err {max : Int32} {r r' : Reader} {e : Err} {k : Nat}
    (h : firstBlockOfLimitMaxByte (some r) max = .err e r') :
    readGroup max (k + 1) r = .ok (List.replicate (k + 1) none) r' := by
  simp only [readGroup, h]

theorem runFrom_group_err {json : JSONCodec} {max : Int32} {r r' : Reader} {e : Err} {k : Nat} {got : List Bytes}
    (h : firstBlockOfLimitMaxByte (some r) max = .err e r') :
    runFrom json max (.inGroup (k + 1) got) r =
      (.group (got.map some ++ List.replicate (k + 1) none) :: (connLoop json max r').1, (connLoop json max r').2) := by
  simp only [runFrom, readGroup_err h]

theorem runFrom_group_panic {json : JSONCodec} {max : Int32} {r : Reader} {k : Nat} {got : List Bytes}
    (h : firstBlockOfLimitMaxByte (some r) max = .panic) :
    runFrom json max (.inGroup (k + 1) got) r = ([], .panicked) := by
  simp only [runFrom, readGroup, h]

theorem runFrom_group_block {json : JSONCodec} {max : Int32} {r : Reader} {k : Nat} {got : List Bytes}
    (h : firstBlockOfLimitMaxByte (some r) max = .block) :
    runFrom json max (.inGroup (k + 1) got) r = ([], .blocked) := by
  simp only [runFrom, readGroup, h]

theorem connLoop_closed_nil {json : JSONCodec} {max : Int32} {r : Reader} (h : stream r = ([], .closed)) :
    connLoop json max r = ([], .ended) := by
  obtain ⟨r', h1, _⟩ := incomplete_closed r max (.inl (by rw [h]; simp)) (by rw [h])
  exact connLoop_err h1

/-! ## Fragmentation -/

/-- Same outcome, up to how the rest of the stream is cut into reads. -/
def SameOut {α : Type} (o1 o2 : ReadOut α) : Prop :=
  (∃ a r1 r2, o1 = .ok a r1 ∧ o2 = .ok a r2 ∧ stream r1 = stream r2) ∨
  (∃ e r1 r2, o1 = .err e r1 ∧ o2 = .err e r2 ∧ stream r1 = stream r2) ∨
  (o1 = .panic ∧ o2 = .panic) ∨ (o1 = .block ∧ o2 = .block)

/-- Reading either blocks, or the rest of the stream ends as before. -/
theorem firstBlock_same (r1 r2 : Reader) (max : Int32) (h : stream r1 = stream r2)
    (he : (stream r1).2 = .stillOpen ∨ (stream r1).2 = .closed) :
    SameOut (firstBlockOfLimitMaxByte (some r1) max) (firstBlockOfLimitMaxByte (some r2) max) := by
  obtain ⟨fs, tail, h1, h2, h3⟩ := splits max.toInt (stream r1).1
  have hs1 : stream r1 = (fs.flatten ++ tail, (stream r1).2) := by rw [← h1]
  have hs2 : stream r2 = (fs.flatten ++ tail, (stream r1).2) := by rw [← h]; exact hs1
  cases fs with
  | cons f fs =>
    simp only [List.flatten_cons, List.append_assoc] at hs1 hs2
    obtain ⟨a, a1, a2⟩ := frame_step r1 max f _ _ hs1 (h2 f (by simp))
    obtain ⟨b, b1, b2⟩ := frame_step r2 max f _ _ hs2 (h2 f (by simp))
    exact .inl ⟨f, a, b, a1, b1, by rw [a2, b2]⟩
  | nil =>
    simp only [List.flatten_nil, List.nil_append] at h1
    rw [← h1] at h3
    rcases h3 with h3 | h3 | h3
    · rcases he with he | he
      · have s1 := incomplete_step r1 max h3
        have s2 := incomplete_step r2 max (by rw [← h]; exact h3)
        rw [he] at s1
        rw [← h, he] at s2
        exact .inr (.inr (.inr ⟨s1, s2⟩))
      · obtain ⟨a, a1, a2⟩ := incomplete_closed r1 max h3 he
        obtain ⟨b, b1, b2⟩ := incomplete_closed r2 max (by rw [← h]; exact h3) (by rw [← h]; exact he)
        exact .inr (.inl ⟨_, a, b, a1, b1, by rw [a2, b2]⟩)
    · obtain ⟨a, a1, a2⟩ := oversized_step r1 max h3
      obtain ⟨b, b1, b2⟩ := oversized_step r2 max (by rw [← h]; exact h3)
      exact .inr (.inl ⟨_, a, b, a1, b1, by rw [a2, b2, h]⟩)
    · exact .inr (.inr (.inl ⟨negative_step r1 max h3, negative_step r2 max (by rw [← h]; exact h3)⟩))

/-- Reading does not change how the stream will end (open or closed). -/
theorem firstBlock_ending (r : Reader) (max : Int32) (he : (stream r).2 = .stillOpen ∨ (stream r).2 = .closed) :
    (∀ a r', firstBlockOfLimitMaxByte (some r) max = .ok a r' → (stream r').2 = (stream r).2) ∧
    (∀ e r', firstBlockOfLimitMaxByte (some r) max = .err e r' → (stream r').2 = (stream r).2) := by
  obtain ⟨fs, tail, h1, h2, h3⟩ := splits max.toInt (stream r).1
  have hs1 : stream r = (fs.flatten ++ tail, (stream r).2) := by rw [← h1]
  cases fs with
  | cons f fs =>
    simp only [List.flatten_cons, List.append_assoc] at hs1
    obtain ⟨a, a1, a2⟩ := frame_step r max f _ _ hs1 (h2 f (by simp))
    rw [a1]
    refine ⟨fun _ r' hx => ?_, fun _ r' hx => by cases hx⟩
    injection hx with _ hx; rw [← hx, a2]
  | nil =>
    simp only [List.flatten_nil, List.nil_append] at h1
    rw [← h1] at h3
    rcases h3 with h3 | h3 | h3
    · rcases he with he | he
      · have s1 := incomplete_step r max h3
        rw [he] at s1
        have s1' : firstBlockOfLimitMaxByte (some r) max = .block := s1
        rw [s1']
        exact ⟨fun _ _ hx => (by cases hx), fun _ _ hx => (by cases hx)⟩
      · obtain ⟨a, a1, a2⟩ := incomplete_closed r max h3 he
        rw [a1]
        refine ⟨fun _ _ hx => (by cases hx), fun _ r' hx => ?_⟩
        injection hx with _ hx; rw [← hx, a2, he]
    · obtain ⟨a, a1, a2⟩ := oversized_step r max h3
      rw [a1]
      refine ⟨fun _ _ hx => (by cases hx), fun _ r' hx => ?_⟩
      injection hx with _ hx; rw [← hx, a2]
    · rw [negative_step r max h3]
      exact ⟨fun _ _ hx => (by cases hx), fun _ _ hx => (by cases hx)⟩

theorem readGroup_same (max : Int32) (k : Nat) : ∀ (r1 r2 : Reader), stream r1 = stream r2 →
    ((stream r1).2 = .stillOpen ∨ (stream r1).2 = .closed) →
    SameOut (readGroup max k r1) (readGroup max k r2) ∧
    (∀ l r', readGroup max k r1 = .ok l r' → (stream r').2 = (stream r1).2) := by
  induction k with
  | zero =>
    intro r1 r2 h _
    refine ⟨.inl ⟨[], r1, r2, rfl, rfl, h⟩, ?_⟩
    intro l r' hx
    simp only [readGroup, ReadOut.ok.injEq] at hx
    rw [hx.2]
  | succ k ih =>
    intro r1 r2 h he
    have hend := firstBlock_ending r1 max he
    rcases firstBlock_same r1 r2 max h he with ⟨b, a1, a2, e1, e2, e3⟩ | ⟨e, a1, a2, e1, e2, e3⟩ | ⟨e1, e2⟩ | ⟨e1, e2⟩
    · have he1 := hend.1 _ _ e1
      obtain ⟨i1, i2⟩ := ih a1 a2 e3 (by rw [he1]; exact he)
      simp only [readGroup, e1, e2]
      rcases i1 with ⟨l, b1, b2, f1, f2, f3⟩ | ⟨l, b1, b2, f1, f2, f3⟩ | ⟨f1, f2⟩ | ⟨f1, f2⟩
      · rw [f1, f2]
        refine ⟨.inl ⟨_, b1, b2, rfl, rfl, f3⟩, ?_⟩
        intro l' r' hx
        simp only [ReadOut.bind_ok, ReadOut.ok.injEq] at hx
        rw [← hx.2, i2 _ _ f1, he1]
      · rw [f1, f2]
        exact ⟨.inr (.inl ⟨_, b1, b2, rfl, rfl, f3⟩), fun _ _ hx => by cases hx⟩
      · rw [f1, f2]
        exact ⟨.inr (.inr (.inl ⟨rfl, rfl⟩)), fun _ _ hx => by cases hx⟩
      · rw [f1, f2]
        exact ⟨.inr (.inr (.inr ⟨rfl, rfl⟩)), fun _ _ hx => by cases hx⟩
    · rw [readGroup_err e1, readGroup_err e2]
      refine ⟨.inl ⟨_, a1, a2, rfl, rfl, e3⟩, ?_⟩
      intro l r' hx
      injection hx with _ hx
      rw [← hx, hend.2 _ _ e1]
    · simp only [readGroup, e1, e2]
      exact ⟨.inr (.inr (.inl ⟨rfl, rfl⟩)), fun _ _ hx => by cases hx⟩
    · simp only [readGroup, e1, e2]
      exact ⟨.inr (.inr (.inr ⟨rfl, rfl⟩)), fun _ _ hx => by cases hx⟩

theorem connLoop_same (json : JSONCodec) (max : Int32) : ∀ (n : Nat) (r1 r2 : Reader), r1.size ≤ n → stream r1 = stream r2 →
    ((stream r1).2 = .stillOpen ∨ (stream r1).2 = .closed) → connLoop json max r1 = connLoop json max r2 := by
  intro n
  induction n with
  | zero =>
    intro r1 r2 hn h he
    have hsz := (firstBlock_size r1 max).1
    rcases firstBlock_same r1 r2 max h he with ⟨b, a1, a2, e1, e2, e3⟩ | ⟨e, a1, a2, e1, e2, e3⟩ | ⟨e1, e2⟩ | ⟨e1, e2⟩
    · have := hsz _ _ e1; omega
    · rw [connLoop_err e1, connLoop_err e2]
    · rw [connLoop_panic e1, connLoop_panic e2]
    · rw [connLoop_block e1, connLoop_block e2]
  | succ n ih =>
    intro r1 r2 hn h he
    have hsz := (firstBlock_size r1 max).1
    have hend := firstBlock_ending r1 max he
    rcases firstBlock_same r1 r2 max h he with ⟨b, a1, a2, e1, e2, e3⟩ | ⟨e, a1, a2, e1, e2, e3⟩ | ⟨e1, e2⟩ | ⟨e1, e2⟩
    · have h1 := hsz _ _ e1
      have he1 := hend.1 _ _ e1
      rw [connLoop_ok e1, connLoop_ok e2]
      have hrec := ih a1 a2 (by omega) e3 (by rw [he1]; exact he)
      rw [hrec]
      have hg : ∀ k got, runFrom json max (.inGroup k got) a1 = runFrom json max (.inGroup k got) a2 := by
        intro k got
        have hgs := readGroup_same max k a1 a2 e3 (by rw [he1]; exact he)
        simp only [runFrom]
        rcases hgs.1 with ⟨l, b1, b2, f1, f2, f3⟩ | ⟨l, b1, b2, f1, f2, f3⟩ | ⟨f1, f2⟩ | ⟨f1, f2⟩
        · rw [f1, f2]
          have hsz2 := readGroup_size max k a1 _ _ f1
          have := ih b1 b2 (by omega) f3 (by rw [hgs.2 _ _ f1, he1]; exact he)
          simp only [this]
        · rw [f1, f2]
        · rw [f1, f2]
        · rw [f1, f2]
      simp only [hg]
    · rw [connLoop_err e1, connLoop_err e2]
    · rw [connLoop_panic e1, connLoop_panic e2]
    · rw [connLoop_block e1, connLoop_block e2]

/-! ## No panic for ordinary messages -/

/-- Every `single` task of the loop passed `isPipe`. -/
theorem single_header_ok (json : JSONCodec) (max : Int32) (b : Bytes) : ∀ (n : Nat) (r : Reader), r.size ≤ n →
    Task.single b ∈ (connLoop json max r).1 → ∃ h, headerOf json { live := b } = .ok h := by
  intro n
  induction n with
  | zero =>
    intro r hn hm
    cases h : firstBlockOfLimitMaxByte (some r) max with
    | ok b' r' => have := (firstBlock_size r max).1 _ _ h; omega
    | err e r' => rw [connLoop_err h] at hm; simp at hm
    | panic => rw [connLoop_panic h] at hm; simp at hm
    | block => rw [connLoop_block h] at hm; simp at hm
  | succ n ih =>
    intro r hn hm
    cases h : firstBlockOfLimitMaxByte (some r) max with
    | err e r' => rw [connLoop_err h] at hm; simp at hm
    | panic => rw [connLoop_panic h] at hm; simp at hm
    | block => rw [connLoop_block h] at hm; simp at hm
    | ok b' r' =>
      have hsz := (firstBlock_size r max).1 _ _ h
      rw [connLoop_ok h] at hm
      cases hp : isPipe json b' with
      | err e => rw [hp] at hm; simp at hm
      | panic => rw [hp] at hm; simp at hm
      | block => rw [hp] at hm; simp at hm
      | ok p =>
        rw [hp] at hm
        obtain ⟨q, k⟩ := p
        cases q with
        | false =>
          simp only [List.mem_cons, Task.single.injEq] at hm
          rcases hm with hm | hm
          · subst hm
            rw [isPipe_eq] at hp
            cases hh : headerOf json { live := b } with
            | ok x => exact ⟨x, rfl⟩
            | err e => rw [hh] at hp; cases hp
            | panic => rw [hh] at hp; cases hp
            | block => rw [hh] at hp; cases hp
          · exact ih r' (by omega) hm
        | true =>
          simp only at hm
          split at hm
          · simp at hm
          · simp only [runFrom] at hm
            cases hg : readGroup max (k.toNat - 1) r' with
            | ok l r'' =>
              rw [hg] at hm
              have := readGroup_size max _ r' _ _ hg
              simp only [List.mem_cons, reduceCtorEq, false_or] at hm
              exact ih r'' (by omega) hm
            | err e r'' => rw [hg] at hm; simp at hm
            | panic => rw [hg] at hm; simp at hm
            | block => rw [hg] at hm; simp at hm

theorem routerTypeWith_no_panic (json : JSONCodec) (c : Option Any) (b : Bytes) (h : Header)
    (hh : headerOf json { live := b } = .ok h) : ∃ rt, routerTypeWith json c b = .ok rt := by
  unfold routerTypeWith
  split
  · exact ⟨_, rfl⟩
  · split
    · exact ⟨_, rfl⟩
    · rw [hh]
      simp only
      split
      · exact ⟨_, rfl⟩
      · split
        · exact ⟨_, rfl⟩
        · split
          · exact ⟨_, rfl⟩
          · split <;> exact ⟨_, rfl⟩

end Tcpx
