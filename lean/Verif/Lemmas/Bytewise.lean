import Verif.Spec.Bytewise
import Verif.Lemmas.ConnLoop
/-! # Reading step by step against the loop run on a whole script -/
namespace Tcpx.Bytewise
open Spec

/-- The rest of `FirstBlockOfLimitMaxByte` after the four bytes of the length. -/
def afterInfo (max : Int32) (info : Bytes) (r : Reader) : ReadOut Bytes :=
  match announcedLength info with
  | .ok length =>
    if 0 < max.toInt ∧ max.toInt < length.toInt then .err .tooBig r
    else (readContent r length).bind fun content r => .ok (info ++ content) r
  | .err e => .err e r
  | .panic => .panic
  | .block => .block

/-- The rest of `FirstBlockOfLimitMaxByte`. -/
def contBlock (max : Int32) : Place → Reader → ReadOut Bytes
  | .info got, r => (readUntil r (4 - got.length)).bind fun x r => afterInfo max (got ++ x) r
  | .content info n got, r => (readUntil r (n - got.length)).bind fun x r => .ok (info ++ (got ++ x)) r
  | _, _ => .block

/-- The rest of the loop after `FirstBlockOfLimitMaxByte`. -/
def onBlock (json : JSONCodec) (max : Int32) : Option Group → ReadOut Bytes → List Task × LoopEnd
  | none, .ok b r =>
    match isPipe json b with
    | .err _ => ([], .ended)
    | .panic => ([], .panicked)
    | .block => ([], .blocked)
    | .ok (false, _) => (.single b :: (connLoop json max r).1, (connLoop json max r).2)
    | .ok (true, n) => if n ≤ 0 ∨ maxPointers < n then ([], .panicked) else runFrom json max (.inGroup (n.toNat - 1) [b]) r
  | none, .err _ _ => ([], .ended)
  | none, .panic => ([], .panicked)
  | none, .block => ([], .blocked)
  | some g, .ok b r => runFrom json max (.inGroup (g.missing - 1) (g.got ++ [b])) r
  | some g, .err _ r => (.group (g.got.map some ++ List.replicate g.missing none) :: (connLoop json max r).1, (connLoop json max r).2)
  | some _, .panic => ([], .panicked)
  | some _, .block => ([], .blocked)

/-- What is still to come of the loop, given the rest of the script. -/
def resume (json : JSONCodec) (max : Int32) (gp : Option Group × Place) (r : Reader) : List Task × LoopEnd :=
  match gp.2 with
  | .over e => ([], e)
  | .start t => (t :: (connLoop json max r).1, (connLoop json max r).2)
  | p => onBlock json max gp.1 (contBlock max p r)

/-- The variables fit together. -/
structure Fits (gp : Option Group × Place) : Prop where
  room : ∀ g, gp.2 = .info g → g.length < 4
  room' : ∀ i n g, gp.2 = .content i n g → g.length < n
  start : ∀ t, gp.2 = .start t → gp.1 = none
  missing : ∀ g, gp.1 = some g → 0 < g.missing

variable {json : JSONCodec} {max : Int32}

theorem firstBlock_eq (r : Reader) : firstBlockOfLimitMaxByte (some r) max = contBlock max (.info []) r := by
  simp only [firstBlockOfLimitMaxByte, unpackToBlockFromReader, unpackToBlockFromReaderLimit, contBlock, List.length_nil, Nat.sub_zero,
    List.nil_append]
  cases readUntil r 4 with
  | ok info r1 =>
    simp only [ReadOut.bind_ok, afterInfo]
    cases announcedLength info with
    | ok length =>
      simp only
      by_cases h : max.toInt ≤ 0
      · rw [if_pos h, if_neg (by omega)]
      · rw [if_neg h]
        by_cases h2 : length.toInt > max.toInt
        · rw [if_pos h2, if_pos (by omega)]
        · rw [if_neg h2, if_neg (by omega)]
    | err e => simp
    | panic => simp
    | block => simp
  | err e r1 => simp
  | panic => simp
  | block => simp

theorem resume_start (r : Reader) : resume json max (none, .info []) r = connLoop json max r := by
  simp only [resume]
  rw [← firstBlock_eq]
  cases h : firstBlockOfLimitMaxByte (some r) max with
  | ok b r' => rw [connLoop_ok h]; rfl
  | err e r' => rw [connLoop_err h]; rfl
  | panic => rw [connLoop_panic h]; rfl
  | block => rw [connLoop_block h]; rfl

theorem resume_group {g : Group} (hg : 0 < g.missing) (r : Reader) :
    resume json max (some g, .info []) r = runFrom json max (.inGroup g.missing g.got) r := by
  simp only [resume]
  rw [← firstBlock_eq]
  obtain ⟨got, k⟩ := g
  cases k with
  | zero => simp at hg
  | succ k =>
    cases h : firstBlockOfLimitMaxByte (some r) max with
    | ok b r' => rw [runFrom_group_ok h]; rfl
    | err e r' => rw [runFrom_group_err h]; rfl
    | panic => rw [runFrom_group_panic h]; rfl
    | block => rw [runFrom_group_block h]; rfl

theorem onBlock_ok {g : Option Group} (hg : ∀ g', g = some g' → 0 < g'.missing) (b : Bytes) (r : Reader) :
    onBlock json max g (.ok b r) = resume json max (blockRead json g b) r := by
  cases g with
  | none =>
    simp only [onBlock, blockRead]
    cases isPipe json b with
    | err e => rfl
    | panic => rfl
    | block => rfl
    | ok p =>
      obtain ⟨q, n⟩ := p
      cases q with
      | false => rfl
      | true =>
        simp only
        by_cases h : n ≤ 0 ∨ maxPointers < n
        · rw [if_pos h, if_pos h]; rfl
        · rw [if_neg h, if_neg h]
          by_cases h1 : n = 1
          · subst h1
            rw [if_pos rfl]
            show runFrom json max (.inGroup 0 [b]) r = _
            rw [runFrom_group_zero]; rfl
          · rw [if_neg h1, resume_group (by simp; omega)]
  | some g =>
    have := hg g rfl
    simp only [onBlock, blockRead]
    by_cases h : g.missing = 1
    · rw [if_pos h, h, runFrom_group_zero]; rfl
    · rw [if_neg h, resume_group (by simp; omega)]

theorem onBlock_err (g : Option Group) (e : Err) (r : Reader) :
    onBlock json max g (.err e r) = resume json max (blockFailed g) r := by
  cases g <;> rfl

theorem onBlock_info {g : Option Group} (hg : ∀ g', g = some g' → 0 < g'.missing) (info : Bytes) (r : Reader) :
    onBlock json max g (afterInfo max info r) = resume json max (infoRead json max g info) r := by
  simp only [afterInfo, infoRead]
  cases announcedLength info with
  | err e => exact onBlock_err g e r
  | panic => cases g <;> rfl
  | block => cases g <;> rfl
  | ok length =>
    simp only
    by_cases h1 : 0 < max.toInt ∧ max.toInt < length.toInt
    · rw [if_pos h1, if_pos h1]; exact onBlock_err g _ r
    · rw [if_neg h1, if_neg h1]
      unfold readContent
      by_cases h2 : length.toInt < 0
      · rw [if_pos h2, if_pos h2]; cases g <;> rfl
      · rw [if_neg h2, if_neg h2]
        by_cases h3 : length.toInt = 0
        · rw [if_pos h3, h3, ← onBlock_ok hg]
          simp [readUntil]
        · rw [if_neg h3]
          simp only [resume, contBlock, List.length_nil, Nat.sub_zero, List.nil_append]

theorem readUntil_part (bs : Bytes) (r : Reader) (n : Nat) (h0 : bs ≠ []) (h : bs.length ≤ n) :
    readUntil (.chunk bs :: r) n = (readUntil r (n - bs.length)).prepend bs := by
  have : 0 < bs.length := List.length_pos_iff.2 h0
  cases n with
  | zero => omega
  | succ n =>
    rw [readUntil]
    by_cases h1 : bs.length < n + 1
    · rw [if_pos h1]
    · rw [if_neg h1, if_pos (by omega)]
      rw [show n + 1 - bs.length = 0 by omega]
      simp [readUntil, ReadOut.prepend]

theorem prepend_bind {β : Type} (bs : Bytes) (o : ReadOut Bytes) (f : Bytes → Reader → ReadOut β) :
    (o.prepend bs).bind f = o.bind fun x r => f (bs ++ x) r := by
  cases o <;> rfl

theorem readUntil_zero (r : Reader) : readUntil r 0 = .ok [] r := by
  cases r <;> rfl

/-- A read takes the loop from where it stands to where it stands next. -/
theorem resume_read {g : Option Group} {p : Place} (hf : Fits (g, p)) (bs : Bytes) (h0 : bs ≠ []) (h : bs.length ≤ p.room) (r : Reader) :
    resume json max (g, p) (.chunk bs :: r) = resume json max (took json max g bs p) r := by
  have hpos : 0 < bs.length := List.length_pos_iff.2 h0
  cases p with
  | over e => simp only [Place.room] at h; omega
  | start t => simp only [Place.room] at h; omega
  | info got =>
    simp only [Place.room] at h
    simp only [resume, contBlock, took]
    rw [readUntil_part _ _ _ h0 h, prepend_bind]
    by_cases h4 : 4 ≤ (got ++ bs).length
    · rw [if_pos h4]
      simp only [List.length_append] at h4
      rw [show 4 - got.length - bs.length = 0 by omega, readUntil_zero, ReadOut.bind_ok, List.append_nil, onBlock_info hf.missing]
      rfl
    · rw [if_neg h4]
      simp only [List.length_append, Nat.sub_sub, List.append_assoc]
  | content info n got =>
    simp only [Place.room] at h
    simp only [resume, contBlock, took]
    rw [readUntil_part _ _ _ h0 h, prepend_bind]
    by_cases h4 : n ≤ (got ++ bs).length
    · rw [if_pos h4]
      simp only [List.length_append] at h4
      rw [show n - got.length - bs.length = 0 by omega, readUntil_zero, ReadOut.bind_ok, List.append_nil, onBlock_ok hf.missing]
      rfl
    · rw [if_neg h4]
      simp only [List.length_append, Nat.sub_sub, List.append_assoc]

/-- So does a failing read. -/
theorem resume_fail {g : Option Group} {p : Place} (h : 0 < p.room) (r : Reader) :
    resume json max (g, p) (.eof :: r) = resume json max (blockFailed g) (.eof :: r) := by
  have e : ∀ n, 0 < n → readUntil (.eof :: r) n = .err .eof (.eof :: r) := fun n hn => by
    cases n with
    | zero => omega
    | succ n => rfl
  cases p with
  | over e => simp [Place.room] at h
  | start t => simp [Place.room] at h
  | info got =>
    rw [← onBlock_err g .eof]
    simp only [resume, contBlock]
    rw [e (4 - got.length) h, ReadOut.bind_err]
  | content info n got =>
    rw [← onBlock_err g .eof]
    simp only [resume, contBlock]
    rw [e (n - got.length) h, ReadOut.bind_err]

theorem resume_block {g : Option Group} {p : Place} (h : 0 < p.room) : resume json max (g, p) [] = ([], .blocked) := by
  have e : ∀ n, 0 < n → readUntil [] n = .block := fun n hn => by
    cases n with
    | zero => omega
    | succ n => rfl
  have hb : onBlock json max g .block = ([], .blocked) := by cases g <;> rfl
  cases p with
  | over e => simp [Place.room] at h
  | start t => simp [Place.room] at h
  | info got => simp only [resume, contBlock]; rw [e (4 - got.length) h, ReadOut.bind_block, hb]
  | content info n got => simp only [resume, contBlock]; rw [e (n - got.length) h, ReadOut.bind_block, hb]

theorem fits_info (g : Option Group) (hg : ∀ g', g = some g' → 0 < g'.missing) : Fits (g, .info []) :=
  ⟨(by intro g' h; cases h; simp), (by intro _ _ _ h; cases h), (by intro _ h; cases h), hg⟩
theorem fits_start (t : Task) : Fits (none, .start t) :=
  ⟨(by intro g' h; cases h), (by intro _ _ _ h; cases h), fun _ _ => rfl, (by intro _ h; cases h)⟩
theorem fits_over (e : LoopEnd) : Fits (none, .over e) :=
  ⟨(by intro g' h; cases h), (by intro _ _ _ h; cases h), (by intro _ h; cases h), (by intro _ h; cases h)⟩

theorem fits_blockRead {g : Option Group} (hg : ∀ g', g = some g' → 0 < g'.missing) (b : Bytes) : Fits (blockRead json g b) := by
  cases g with
  | none =>
    simp only [blockRead]
    split
    · exact fits_over _
    · exact fits_over _
    · exact fits_over _
    · exact fits_start _
    · split
      · exact fits_over _
      · split
        · exact fits_start _
        · exact fits_info _ (by intro g' h; cases h; simp; omega)
  | some g =>
    have := hg g rfl
    simp only [blockRead]
    split
    · exact fits_start _
    · exact fits_info _ (by intro g' h; cases h; simp; omega)

theorem fits_failed (g : Option Group) : Fits (blockFailed g) := by
  cases g with
  | none => exact fits_over _
  | some g => exact fits_start _

theorem fits_took {g : Option Group} {p : Place} (hf : Fits (g, p)) (bs : Bytes) : Fits (took json max g bs p) := by
  cases p with
  | over e => exact hf
  | start t => exact hf
  | info got =>
    simp only [took]
    split
    · simp only [infoRead]
      split
      · exact fits_failed _
      · exact fits_over _
      · exact fits_over _
      · split
        · exact fits_failed _
        · split
          · exact fits_over _
          · split
            · exact fits_blockRead hf.missing _
            · exact ⟨(by intro _ h; cases h), (by intro _ _ _ h; cases h; simp only [List.length_nil]; omega), (by intro _ h; cases h), hf.missing⟩
    · rename_i h
      exact ⟨(by intro _ h'; cases h'; omega), (by intro _ _ _ h; cases h), (by intro _ h; cases h), hf.missing⟩
  | content info n got =>
    simp only [took]
    split
    · exact fits_blockRead hf.missing _
    · rename_i h
      exact ⟨(by intro _ h'; cases h'), (by intro _ _ _ h; cases h; omega), (by intro _ h; cases h), hf.missing⟩

/-- Where the goroutine does not read it starts another goroutine or has left its loop. -/
theorem room_or {g : Option Group} {p : Place} (hf : Fits (g, p)) : 0 < p.room ∨ (∃ t, p = .start t) ∨ ∃ e, p = .over e := by
  cases p with
  | info got => left; have := hf.room _ rfl; simp only [Place.room]; omega
  | content i n got => left; have := hf.room' _ _ _ rfl; simp only [Place.room]; omega
  | start t => exact .inr (.inl ⟨t, rfl⟩)
  | over e => exact .inr (.inr ⟨e, rfl⟩)

/-- The invariant of a run. -/
structure Inv (json : JSONCodec) (max : Int32) (s : State) : Prop where
  fits : Fits (s.group, s.place)
  same : ∃ rs : List Bytes, rs.flatten = s.taken ∧ ∀ r : Reader, (s.failed = true → ∃ r', r = .eof :: r') →
    connLoop json max (rs.map Ev.chunk ++ r) =
      (s.begun.map (·.2) ++ (resume json max (s.group, s.place) r).1, (resume json max (s.group, s.place) r).2)
  failed : s.failed = true → s.wire = [] ∧ s.shut ≠ none ∧ s.group = none ∧ s.place.room ∈ [0, 4] ∧
    (∀ e, s.place = .over e → e = .ended) ∧ (0 < s.place.room → s.place = .info [])
  past : ∀ p ∈ s.wire, p.1 ≤ s.now ∧ ∀ c, s.shut = some c → p.1 ≤ c
  since : s.since ≤ s.now ∧ ∀ c, s.shut = some c → c ≤ s.now

theorem inv_start : Inv json max {} :=
  ⟨fits_info _ (by intro _ h; cases h), ⟨[], rfl, fun r _ => by rw [resume_start]; rfl⟩, (by intro h; cases h), by simp, by simp⟩

theorem inv_step {s s' : State} {l : Label} (hi : Inv json max s) (h : s.step json max l = some s') : Inv json max s' := by
  cases l with
  | arrive bs =>
    simp only [State.step] at h
    split at h
    · rename_i hs
      cases h
      refine ⟨hi.fits, hi.same, fun hf => absurd hs (hi.failed hf).2.1, ?_, hi.since⟩
      intro p hp
      rcases List.mem_append.1 hp with hp | hp
      · exact hi.past p hp
      · obtain ⟨b, -, rfl⟩ := List.mem_map.1 hp
        exact ⟨Nat.le_refl _, fun c hc => by simp only [hs] at hc; cases hc⟩
    · cases h
  | close =>
    simp only [State.step] at h
    split at h
    · rename_i hs
      cases h
      refine ⟨hi.fits, hi.same, fun hf => absurd hs (hi.failed hf).2.1, ?_, hi.since.1, (by intro c hc; cases hc; exact Nat.le_refl _)⟩
      intro p hp
      exact ⟨(hi.past p hp).1, fun c hc => by cases hc; exact (hi.past p hp).1⟩
    · cases h
  | cut =>
    simp only [State.step, Option.some.injEq] at h
    subst h
    refine ⟨hi.fits, hi.same, fun hf => ⟨rfl, by simp, (hi.failed hf).2.2⟩, by simp, hi.since.1, ?_⟩
    intro c hc
    simp only [Option.some.injEq] at hc
    cases hs : s.shut with
    | none => rw [hs] at hc; subst hc; exact Nat.le_refl _
    | some c' => rw [hs] at hc; subst hc; exact hi.since.2 _ hs
  | delay n =>
    simp only [State.step, Option.some.injEq] at h
    subst h
    exact ⟨hi.fits, hi.same, hi.failed, fun p hp => ⟨Nat.le_trans (hi.past p hp).1 (Nat.le_add_right _ _), (hi.past p hp).2⟩,
      Nat.le_trans hi.since.1 (Nat.le_add_right _ _), fun c hc => Nat.le_trans (hi.since.2 c hc) (Nat.le_add_right _ _)⟩
  | read n =>
    simp only [State.step] at h
    split at h
    · rename_i hn
      obtain ⟨h1, h2, h3⟩ := hn
      cases h
      have hnf : s.failed = false := by
        cases hf : s.failed with
        | false => rfl
        | true => rw [(hi.failed hf).1] at h2; simp at h2; omega
      obtain ⟨rs, e1, e2⟩ := hi.same
      refine ⟨fits_took hi.fits _, ⟨rs ++ [(s.wire.take n).map (·.2)], by simp [e1], ?_⟩, by simp [hnf], ?_, ?_⟩
      · intro r hr
        have hl : ((s.wire.take n).map (·.2)).length = n := by simp; omega
        have := e2 (.chunk ((s.wire.take n).map (·.2)) :: r) (by simp [hnf])
        rw [resume_read hi.fits _ (by intro h0; rw [h0] at hl; simp at hl; omega) (by omega)] at this
        simp only [List.map_append, List.map_cons, List.map_nil, List.append_assoc, List.cons_append, List.nil_append]
        exact this
      · intro p hp; exact hi.past p (List.mem_of_mem_drop hp)
      · exact ⟨Nat.le_refl _, hi.since.2⟩
    · cases h
  | fail =>
    simp only [State.step] at h
    split at h
    · rename_i hn
      obtain ⟨h1, h2, h3⟩ := hn
      cases h
      obtain ⟨rs, e1, e2⟩ := hi.same
      refine ⟨fits_failed _, ⟨rs, e1, ?_⟩, ?_, hi.past, Nat.le_refl _, hi.since.2⟩
      · intro r hr
        obtain ⟨r', rfl⟩ := hr rfl
        rw [e2 _ (fun _ => ⟨r', rfl⟩), resume_fail h1]
      · intro _
        refine ⟨h2, h3, ?_⟩
        cases s.group with
        | none => exact ⟨rfl, by simp [blockFailed, Place.room], (by intro e he; cases he; rfl), by simp [blockFailed, Place.room]⟩
        | some g => exact ⟨rfl, by simp [blockFailed, Place.room], (by intro e he; cases he), by simp [blockFailed, Place.room]⟩
    · cases h
  | go =>
    simp only [State.step] at h
    cases hp : s.place with
    | start t =>
      rw [hp] at h
      cases h
      have hg : s.group = none := hi.fits.start t hp
      obtain ⟨rs, e1, e2⟩ := hi.same
      refine ⟨by rw [hg]; exact fits_info _ (by intro _ h; cases h), ⟨rs, e1, ?_⟩, ?_, hi.past, Nat.le_refl _, hi.since.2⟩
      · intro r hr
        rw [e2 r hr, hp, hg, resume_start]
        simp [resume]
      · intro hf
        obtain ⟨f1, f2, f3, -⟩ := hi.failed hf
        exact ⟨f1, f2, f3, by simp [Place.room], (by intro _ h; cases h), fun _ => rfl⟩
    | info g => rw [hp] at h; cases h
    | content i n g => rw [hp] at h; cases h
    | over e => rw [hp] at h; cases h

theorem run_append (s : State) (xs ys : List Label) : s.run json max (xs ++ ys) = (s.run json max xs).run json max ys := by
  induction xs generalizing s with
  | nil => rfl
  | cons l xs ih => exact ih _

theorem run_snoc (s : State) (xs : List Label) (l : Label) :
    s.run json max (xs ++ [l]) = ((s.run json max xs).step json max l).getD (s.run json max xs) := by
  rw [run_append]; rfl

/-- Induction along a run. -/
theorem run_induct {P : List Label → State → Prop} (h0 : P [] {})
    (hs : ∀ ls l, P ls (State.run json max {} ls) → P (ls ++ [l]) (State.run json max {} (ls ++ [l]))) (ls : List Label) :
    P ls (State.run json max {} ls) := by
  have : ∀ n, P (ls.take n) (State.run json max {} (ls.take n)) := by
    intro n
    induction n with
    | zero => exact h0
    | succ n ih =>
      by_cases hn : n < ls.length
      · rw [List.take_succ_eq_append_getElem hn]; exact hs _ _ ih
      · rw [List.take_of_length_le (by omega)] at ih ⊢; exact ih
  simpa using this ls.length

theorem inv_run (ls : List Label) : Inv json max (State.run json max {} ls) :=
  run_induct (P := fun _ s => Inv json max s) inv_start (fun ls l h => by
    rw [run_snoc]
    cases hs : (State.run json max {} ls).step json max l with
    | none => exact h
    | some s' => exact inv_step h hs) ls

end Tcpx.Bytewise
