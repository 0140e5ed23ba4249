import Verif.Lemmas.BytewiseTime
import Verif.Props.Connection
/-!
# C144: reading byte by byte, in time

A run is any sequence of arrivals of bytes, passing of time, `Read` calls returning any number of bytes, and steps of the goroutine.
-/
namespace Tcpx
open Spec Bytewise

/-- C144: however the bytes arrive and whatever the `Read` calls return, at every moment the goroutines started, and the one about to be
started if any, are those the loop starts for the bytes read so far taken as a whole, in the same order; and it has ended if and as it
ends for them.  Bytes are read in the order they arrived, none twice, none left out. -/
theorem C144_as_whole (json : JSONCodec) (max : Int32) (ls : List Label) :
    let s := State.run json max {} ls
    connLoop json max (.chunk s.taken :: if s.failed then [.eof] else []) = (begunIn json max ls ++ aboutToStart s.place, endOf s.failed s.place) ∧
    s.taken <+: (arrivedBytes 0 ls).map (·.2) ∧ (.cut ∉ ls → (arrivedBytes 0 ls).map (·.2) = s.taken ++ s.wire.map (·.2)) := by
  intro s
  have hi : Inv json max s := inv_run ls
  have hs : Sent ls s := sent_run ls
  refine ⟨?_, ?_, ?_⟩
  · obtain ⟨rs, e1, e2⟩ := hi.same
    have hcl : connLoop json max [.eof] = ([], .ended) := connLoop_closed_nil rfl
    show _ = (s.begun.map (·.2) ++ _, _)
    cases hf : s.failed with
    | false =>
      have e := e2 [] (by simp [hf])
      have : connLoop json max (.chunk s.taken :: []) = connLoop json max (rs.map Ev.chunk ++ []) :=
        connLoop_congr (by rw [stream_chunks, e1]; rfl) (.inl rfl)
      simp only [Bool.false_eq_true, if_false]
      rw [this, e]
      rcases room_or hi.fits with h | ⟨t, h⟩ | ⟨e, h⟩
      · rw [resume_block h]
        cases hp : s.place with
        | start t => rw [hp] at h; simp [Place.room] at h
        | over e => rw [hp] at h; simp [Place.room] at h
        | info g => rfl
        | content i n g => rfl
      · rw [h]; simp only [resume, connLoop_nil]; rfl
      · rw [h]; rfl
    | true =>
      obtain ⟨f1, f2, f3, f4, f5, f6⟩ := hi.failed hf
      have e := e2 [.eof] (fun _ => ⟨[], rfl⟩)
      have : connLoop json max (.chunk s.taken :: [.eof]) = connLoop json max (rs.map Ev.chunk ++ [.eof]) :=
        connLoop_congr (by rw [stream_chunks, e1]; rfl) (.inr rfl)
      simp only [if_true]
      rw [this, e]
      rcases room_or hi.fits with h | ⟨t, h⟩ | ⟨e, h⟩
      · rw [f6 h, f3, resume_start, hcl]; rfl
      · rw [h]; simp only [resume, hcl]; rfl
      · rw [h]; rfl
  · obtain ⟨tk, t1, t2, -⟩ := hs.bytes
    rw [← t1]; exact t2.map _
  · intro hc
    obtain ⟨tk, t1, t2, t3, -⟩ := hs.bytes
    rw [t3 hc, List.map_append, t1]

theorem always_last {json : JSONCodec} {max : Int32} {ls : List Label} {P : State → Prop} (h : Always json max ls P) :
    P (State.run json max {} ls) := by
  have := h ls.length
  rwa [List.take_length] at this

theorem always_init {json : JSONCodec} {max : Int32} {ls : List Label} {l : Label} {P : State → Prop} (h : Always json max (ls ++ [l]) P) :
    Always json max ls P := by
  intro k
  by_cases hk : k ≤ ls.length
  · have := h k; rwa [List.take_append_of_le_length hk] at this
  · have := h ls.length
    rw [List.take_append_of_le_length (Nat.le_refl _), List.take_length] at this
    rw [List.take_of_length_le (by omega)]; exact this

theorem always_snoc {json : JSONCodec} {max : Int32} {ls : List Label} {l : Label} {P : State → Prop} (h : Always json max ls P)
    (hl : P (State.run json max {} (ls ++ [l]))) : Always json max (ls ++ [l]) P := by
  intro k
  by_cases hk : k ≤ ls.length
  · rw [List.take_append_of_le_length hk]; exact h k
  · rw [List.take_of_length_le (by simp; omega)]; exact hl

/-- Once the loop is over, everything has been done for whatever has arrived. -/
theorem over_all {json : JSONCodec} {max : Int32} {ls : List Label} {e : LoopEnd} (hc : .cut ∉ ls)
    (h : (State.run json max {} ls).place = .over e) (r : Reader) (hr : r = [.eof] ∨ (State.run json max {} ls).failed = false ∧ r = []) :
    connLoop json max (.chunk ((arrivedBytes 0 ls).map (·.2)) :: r) = (begunIn json max ls, e) := by
  obtain ⟨h1, -, h3⟩ := C144_as_whole json max ls
  have hi := inv_run (json := json) (max := max) ls
  rw [h3 hc]
  obtain ⟨rs, e1, e2⟩ := hi.same
  show _ = ((State.run json max {} ls).begun.map (·.2), e)
  generalize State.run json max {} ls = s at *
  cases hf : s.failed with
  | false =>
    have := e2 (.chunk (s.wire.map (·.2)) :: r) (by simp [hf])
    rw [h] at this
    simp only [resume, List.append_nil] at this
    rw [← this]
    refine connLoop_congr (by rw [stream_chunks, e1]; simp only [stream, List.append_assoc]) ?_
    rcases hr with rfl | ⟨-, rfl⟩
    · exact .inr rfl
    · exact .inl rfl
  | true =>
    rcases hr with rfl | ⟨hr, -⟩
    · have := e2 [.eof] (fun _ => ⟨[], rfl⟩)
      rw [h] at this
      simp only [resume, List.append_nil] at this
      rw [← this, (hi.failed hf).1]
      exact connLoop_congr (by rw [stream_chunks, e1]; simp [stream]) (.inr rfl)
    · rw [hf] at hr; cases hr

/-- Where the goroutine is not about to start another, it has done everything for the bytes older than the delay it is allowed. -/
theorem in_time_direct {json : JSONCodec} {max : Int32} {ls : List Label} {d T : Nat} (hc : .cut ∉ ls)
    (hp : Prompt d (State.run json max {} ls)) (hT : T + d < (State.run json max {} ls).now)
    (hns : ∀ t, (State.run json max {} ls).place ≠ .start t) :
    (connLoop json max [.chunk (bytesBy T ls)]).1 <+: begunIn json max ls := by
  have hi := inv_run (json := json) (max := max) ls
  have hs := sent_run (json := json) (max := max) ls
  obtain ⟨h1, -, h3⟩ := C144_as_whole json max ls
  rcases room_or hi.fits with h | ⟨t, h⟩ | ⟨e, h⟩
  · obtain ⟨tk, t1, t2, t3, t4⟩ := hs.bytes
    have hno : ∀ e, (State.run json max {} ls).place ≠ .over e := by
      intro e he; rw [he] at h; simp [Place.room] at h
    have hpre : bytesBy T ls <+: (State.run json max {} ls).taken := by
      unfold bytesBy
      have hw : (State.run json max {} ls).wire.filter (fun p => p.1 ≤ T) = [] := by
        rw [List.filter_eq_nil_iff]
        intro p hp'
        have := hp.bytes hno p hp'
        simp; omega
      rw [t3 hc, List.filter_append, hw, List.append_nil, ← t1]
      exact (filter_prefix (hs.sorted.sublist t2.sublist) T).map _
    obtain ⟨ys, hys⟩ := hpre
    have ha : aboutToStart (State.run json max {} ls).place = [] := by
      cases hp : (State.run json max {} ls).place with
      | start t => exact absurd hp (hns t)
      | _ => rfl
    rw [ha, List.append_nil, ← hys] at h1
    have := (connLoop_mono (json := json) (max := max) (bytesBy T ls) ys (if (State.run json max {} ls).failed then [.eof] else [])
      (by split <;> simp [stream])).1
    rwa [h1] at this
  · exact absurd h (hns t)
  · have hpre : bytesBy T ls <+: (arrivedBytes 0 ls).map (fun p => p.2) := (filter_prefix hs.sorted T).map _
    obtain ⟨ys, hys⟩ := hpre
    have e1 := over_all hc h [.eof] (.inl rfl)
    rw [← hys] at e1
    have := (connLoop_mono (json := json) (max := max) (bytesBy T ls) ys [.eof] (.inr rfl)).1
    rwa [e1] at this

theorem bytesBy_snoc {json : JSONCodec} {max : Int32} {ls : List Label} {l : Label} {T : Nat} (h : T < (State.run json max {} ls).now) :
    bytesBy T (ls ++ [l]) = bytesBy T ls := by
  have hs := sent_run (json := json) (max := max) ls
  unfold bytesBy
  by_cases hc : .close ∈ ls ∨ .cut ∈ ls
  · rw [(arrived_append ls [l] 0).1 hc]
  · have hn : (arrivedBytes (State.run json max {} ls).now [l]).filter (fun p => p.1 ≤ T) = [] := by
      rw [List.filter_eq_nil_iff]
      intro p hp
      cases l with
      | arrive bs =>
        simp only [arrivedBytes, List.append_nil] at hp
        obtain ⟨b, -, rfl⟩ := List.mem_map.1 hp
        simp; omega
      | delay n => simp [arrivedBytes] at hp
      | close => simp [arrivedBytes] at hp
      | cut => simp [arrivedBytes] at hp
      | read n => simp [arrivedBytes] at hp
      | fail => simp [arrivedBytes] at hp
      | go => simp [arrivedBytes] at hp
    rw [(arrived_append ls [l] 0).2 hc, List.filter_append, Nat.zero_add, ← hs.now, hn, List.append_nil]

/-- The goroutine about to start another has done everything for the bytes that were old enough when it came there. -/
theorem in_time_aux {json : JSONCodec} {max : Int32} {d T : Nat} (ls : List Label) : .cut ∉ ls → Always json max ls (Prompt d) →
    T + d < (State.run json max {} ls).now → (∀ t, (State.run json max {} ls).place = .start t → T + d < (State.run json max {} ls).since) →
    (connLoop json max [.chunk (bytesBy T ls)]).1 <+: begunIn json max ls := by
  refine run_induct (json := json) (max := max) (P := fun ls s => .cut ∉ ls → Always json max ls (Prompt d) →
    T + d < s.now → (∀ t, s.place = .start t → T + d < s.since) →
    (connLoop json max [.chunk (bytesBy T ls)]).1 <+: s.begun.map (·.2)) ?_ ?_ ls
  · intro _ _ h; simp at h
  · intro ls l ih hc hp hT hst
    have hc' : .cut ∉ ls := fun h => hc (by simp [h])
    have hi := inv_run (json := json) (max := max) ls
    by_cases hns : ∀ t, (State.run json max {} (ls ++ [l])).place ≠ .start t
    · exact in_time_direct hc (always_last hp) hT hns
    · obtain ⟨t, ht⟩ : ∃ t, (State.run json max {} (ls ++ [l])).place = .start t := by
        cases hpl : (State.run json max {} (ls ++ [l])).place with
        | start t => exact ⟨t, rfl⟩
        | _ => exact absurd (fun t => by rw [hpl]; simp) hns
      have hsi := hst t ht
      have hp' := always_init hp
      have hpl := always_last hp'
      have key : ∀ s' : State, State.run json max {} (ls ++ [l]) = s' → s'.place = (State.run json max {} ls).place →
          s'.since = (State.run json max {} ls).since → s'.begun = (State.run json max {} ls).begun →
          (connLoop json max [.chunk (bytesBy T (ls ++ [l]))]).1 <+: s'.begun.map (·.2) := by
        intro s' e h1 h2 h3
        rw [e, h2] at hsi
        have hn : T + d < (State.run json max {} ls).now := by have := hi.since.1; omega
        rw [bytesBy_snoc (json := json) (max := max) (by omega), h3]
        exact ih hc' hp' hn (fun _ _ => hsi)
      have key2 : ∀ s' : State, State.run json max {} (ls ++ [l]) = s' → s'.since = (State.run json max {} ls).now →
          s'.begun = (State.run json max {} ls).begun → 0 < (State.run json max {} ls).place.room →
          (connLoop json max [.chunk (bytesBy T (ls ++ [l]))]).1 <+: s'.begun.map (·.2) := by
        intro s' e h2 h3 h4
        rw [e, h2] at hsi
        rw [bytesBy_snoc (json := json) (max := max) (by omega), h3]
        exact in_time_direct hc' hpl hsi (fun t h => by rw [h] at h4; simp [Place.room] at h4)
      rw [run_snoc] at ht ⊢
      rw [run_snoc] at key key2
      generalize State.run json max {} ls = s at *
      cases hst : s.step json max l with
      | none => rw [hst] at key; exact key s rfl rfl rfl rfl
      | some s' =>
        rw [hst] at key key2 ht
        have k1 := key s' rfl
        have k2 := key2 s' rfl
        simp only [Option.getD_some] at ht ⊢
        clear key key2
        cases l with
        | arrive bs =>
          simp only [State.step] at hst
          split at hst
          · cases hst; exact k1 rfl rfl rfl
          · cases hst
        | close =>
          simp only [State.step] at hst
          split at hst
          · cases hst; exact k1 rfl rfl rfl
          · cases hst
        | cut => exact absurd (by simp) hc
        | delay n => simp only [State.step, Option.some.injEq] at hst; subst hst; exact k1 rfl rfl rfl
        | read n =>
          simp only [State.step] at hst
          split at hst
          · rename_i hn
            cases hst; exact k2 rfl rfl (by omega)
          · cases hst
        | fail =>
          simp only [State.step] at hst
          split at hst
          · rename_i hn
            cases hst; exact k2 rfl rfl hn.1
          · cases hst
        | go =>
          simp only [State.step] at hst
          split at hst
          · cases hst; simp at ht
          · cases hst

/-- C144: in time: if the goroutine is never late by more than `d`, then more than `2·d` after any moment it has started everything the
loop starts for the bytes that had arrived by then. -/
theorem C144_in_time (json : JSONCodec) (max : Int32) (d T : Nat) (ls : List Label) (hc : .cut ∉ ls) (hp : Always json max ls (Prompt d))
    (hT : T + 2 * d < (State.run json max {} ls).now) :
    (connLoop json max [.chunk (bytesBy T ls)]).1 <+: begunIn json max ls := by
  refine in_time_aux ls hc hp (by omega) fun t ht => ?_
  have := (always_last hp).start t ht
  omega

/-- C144: so whatever frames have arrived completely by `T`, and whatever follows them, the goroutines they call for have been started
by `T + 2·d`, in the order of the frames. -/
theorem C144_frames (json : JSONCodec) (max : Int32) (d T : Nat) (ls : List Label) (hc : .cut ∉ ls) (hp : Always json max ls (Prompt d))
    (hT : T + 2 * d < (State.run json max {} ls).now) (fs : List Bytes) (rest : Bytes) (kind : Bytes → Kind)
    (hf : bytesBy T ls = fs.flatten ++ rest) (ha : ∀ f ∈ fs, Acceptable max.toInt f) (hk : ∀ f ∈ fs, KindOf json f (kind f)) :
    (expected kind .between fs).1 <+: begunIn json max ls := by
  have h1 := C144_in_time json max d T ls hc hp hT
  rw [hf] at h1
  have h2 := (connLoop_mono (json := json) (max := max) fs.flatten rest [] (.inl rfl)).1
  have h3 := C56_dispatch_partial json max [.chunk fs.flatten] fs [] .stillOpen kind (by simp [stream]) ha hk trivial (.inl (.inl (by simp)))
  have e : (connLoop json max [.chunk fs.flatten]).1 = (expected kind .between fs).1 := by
    revert h3
    cases (expected kind .between fs).2 with
    | refused => rintro ⟨last, h, -⟩; rw [h]
    | between => rintro ⟨last, h, -⟩; rw [h]
    | inGroup m g => rintro ⟨h, -⟩; rw [h (.inl (by simp)) rfl]
  rw [← e]
  exact h2.trans h1

/-- C144: nothing is started early: as long as the connection is open, the goroutines started are among those called for by the frames
that have arrived completely. -/
theorem C144_not_early (json : JSONCodec) (max : Int32) (ls : List Label) (ho : .close ∉ ls ∧ .cut ∉ ls) (fs : List Bytes) (rest : Bytes)
    (kind : Bytes → Kind) (hf : (arrivedBytes 0 ls).map (·.2) = fs.flatten ++ rest) (ha : ∀ f ∈ fs, Acceptable max.toInt f)
    (hk : ∀ f ∈ fs, KindOf json f (kind f)) (hr : Incomplete max.toInt rest) :
    begunIn json max ls <+: (expected kind .between fs).1 := by
  obtain ⟨h1, h2, h3⟩ := C144_as_whole json max ls
  have hi := inv_run (json := json) (max := max) ls
  have hs := sent_run (json := json) (max := max) ls
  have hsn := hs.shut.2 (by intro h; rcases h with h | h; exact ho.1 h; exact ho.2 h)
  have hnf : (State.run json max {} ls).failed = false := by
    cases hf : (State.run json max {} ls).failed with
    | false => rfl
    | true => exact absurd hsn (hi.failed hf).2.1
  obtain ⟨ys, hys⟩ := h2
  rw [hnf] at h1
  have hm := (connLoop_mono (json := json) (max := max) (State.run json max {} ls).taken ys [] (.inl rfl)).1
  simp only [Bool.false_eq_true, if_false] at h1
  rw [h1, hys, hf] at hm
  have hd := C56_dispatch_partial json max [.chunk (fs.flatten ++ rest)] fs rest .stillOpen kind (by simp [stream]) ha hk trivial (.inl hr)
  have e : (connLoop json max [.chunk (fs.flatten ++ rest)]).1 = (expected kind .between fs).1 := by
    revert hd
    cases (expected kind .between fs).2 with
    | refused => rintro ⟨last, h, -⟩; rw [h]
    | between => rintro ⟨last, h, -⟩; rw [h]
    | inGroup m g => rintro ⟨h, -⟩; rw [h hr rfl]
  rw [← e]
  exact (List.prefix_append _ _).trans hm

/-- How long the goroutine can have been where it is after the connection was closed. -/
structure Closing (d : Nat) (s : State) : Prop where
  reading : ∀ c, s.shut = some c → 0 < s.place.room → s.failed = false → s.since ≤ c + 2 * d
  inGroup : ∀ c, s.shut = some c → 0 < s.place.room → s.group ≠ none → s.since ≤ c + d
  starting : ∀ c t, s.shut = some c → s.place = .start t → s.failed = false → s.since ≤ c + d
  lastStart : ∀ c t, s.shut = some c → s.place = .start t → s.since ≤ c + 2 * d
  lastRead : ∀ c, s.shut = some c → s.since ≤ c + 3 * d ∨ ∃ e, s.place = .over e

theorem closing_run {json : JSONCodec} {max : Int32} {d : Nat} (ls : List Label) (hp : Always json max ls (Prompt d)) :
    Closing d (State.run json max {} ls) := by
  revert hp
  refine run_induct (json := json) (max := max) (P := fun ls s => Always json max ls (Prompt d) → Closing d s) ?_ ?_ ls
  · intro _; exact ⟨by simp, by simp, by simp, by simp, by simp⟩
  · intro ls l ih hp
    have hi := inv_run (json := json) (max := max) ls
    have hc := ih (always_init hp)
    have hpr := always_last (always_init hp)
    rw [run_snoc]
    generalize State.run json max {} ls = s at *
    cases hst : s.step json max l with
    | none => exact hc
    | some s' =>
      simp only [Option.getD_some]
      have hshut : s.shut = none → ∀ s'' : State, s''.since = s.since → (∀ c, s''.shut = some c → c = s.now) → Closing d s'' := by
        intro hn s'' h1 h2
        have hle := hi.since.1
        refine ⟨fun c hc' _ _ => ?_, fun c hc' _ _ => ?_, fun c t hc' _ _ => ?_, fun c t hc' _ => ?_, fun c hc' => .inl ?_⟩ <;>
          · rw [h1, h2 c hc']; omega
      cases l with
      | arrive bs =>
        simp only [State.step] at hst
        split at hst
        · cases hst; exact ⟨hc.1, hc.2, hc.3, hc.4, hc.5⟩
        · cases hst
      | close =>
        simp only [State.step] at hst
        split at hst
        · rename_i hn
          cases hst; exact hshut hn _ rfl (by intro c h; cases h; rfl)
        · cases hst
      | cut =>
        simp only [State.step, Option.some.injEq] at hst
        subst hst
        cases hn : s.shut with
        | none => exact hshut hn _ rfl (by intro c h; simp only [Option.getD_none, Option.some.injEq] at h; exact h.symm)
        | some c =>
          simp only [Option.getD_some]
          rw [← hn]
          exact ⟨hc.1, hc.2, hc.3, hc.4, hc.5⟩
      | delay n =>
        simp only [State.step, Option.some.injEq] at hst
        subst hst
        exact ⟨hc.1, hc.2, hc.3, hc.4, hc.5⟩
      | read n =>
        simp only [State.step] at hst
        split at hst
        · rename_i hn
          obtain ⟨n1, n2, n3⟩ := hn
          cases hst
          have hno : ∀ e, s.place ≠ .over e := by
            intro e he; rw [he] at n3; simp only [Place.room] at n3; omega
          have hle : ∀ c, s.shut = some c → s.now ≤ c + d := by
            intro c hsc
            cases hw : s.wire with
            | nil => rw [hw] at n2; simp at n2; omega
            | cons p w =>
              have h1 := hpr.bytes hno p (by rw [hw]; simp)
              have h2 := (hi.past p (by rw [hw]; simp)).2 c hsc
              omega
          refine ⟨fun c hc' _ _ => ?_, fun c hc' _ _ => hle c hc', fun c t hc' _ _ => hle c hc', fun c t hc' _ => ?_, fun c hc' => .inl ?_⟩ <;>
            · have := hle c hc'; simp only; omega
        · cases hst
      | fail =>
        simp only [State.step] at hst
        split at hst
        · rename_i hn
          obtain ⟨n1, n2, n3⟩ := hn
          cases hst
          cases hg : s.group with
          | none => exact ⟨by simp [blockFailed, Place.room], by simp [blockFailed, Place.room], by simp [blockFailed], by simp [blockFailed],
              by simp [blockFailed]⟩
          | some g =>
            have hle : ∀ c, s.shut = some c → s.now ≤ c + 2 * d := by
              intro c hsc
              have h1 := hpr.closed c hsc n2 n1
              have h2 := hc.inGroup c hsc n1 (by rw [hg]; simp)
              omega
            refine ⟨by simp [blockFailed, Place.room], by simp [blockFailed, Place.room], by simp, fun c t hc' _ => hle c hc',
              fun c hc' => .inl ?_⟩
            have := hle c hc'; simp only; omega
        · cases hst
      | go =>
        simp only [State.step] at hst
        split at hst
        · rename_i t ht
          cases hst
          have hg : s.group = none := hi.fits.start t ht
          have h1 := hpr.start t ht
          refine ⟨fun c hc' _ hf => ?_, fun c hc' _ h => absurd hg h, by simp, by simp, fun c hc' => .inl ?_⟩
          · have := hc.starting c t hc' ht hf; simp only; omega
          · have := hc.lastStart c t hc' ht; simp only; omega
        · cases hst

/-- C144: the end is noticed in time: more than `4·d` after the connection was closed, by whomever, the goroutine has left its loop; and
if nothing was lost it has started exactly what the loop starts for everything that arrived, followed by the end of the stream. -/
theorem C144_closed (json : JSONCodec) (max : Int32) (d c : Nat) (ls : List Label) (hp : Always json max ls (Prompt d))
    (hs : (State.run json max {} ls).shut = some c) (hT : c + 4 * d < (State.run json max {} ls).now) :
    ∃ e, (State.run json max {} ls).place = .over e ∧
      (.cut ∉ ls → connLoop json max [.chunk ((arrivedBytes 0 ls).map (·.2)), .eof] = (begunIn json max ls, e)) := by
  have hi := inv_run (json := json) (max := max) ls
  have hcl := closing_run ls hp
  have hpr := always_last hp
  rcases room_or hi.fits with h | ⟨t, h⟩ | ⟨e, h⟩
  · exfalso
    have hno : ∀ e, (State.run json max {} ls).place ≠ .over e := by
      intro e he; rw [he] at h; simp [Place.room] at h
    have hw : (State.run json max {} ls).wire = [] := by
      cases hw : (State.run json max {} ls).wire with
      | nil => rfl
      | cons p w =>
        have h1 := hpr.bytes hno p (by rw [hw]; simp)
        have h2 := (hi.past p (by rw [hw]; simp)).2 c hs
        omega
    have h1 := hpr.closed c hs hw h
    rcases hcl.lastRead c hs with h2 | ⟨e, h2⟩
    · omega
    · exact hno e h2
  · exfalso
    have h1 := hpr.start t h
    have h2 := hcl.lastStart c t hs h
    omega
  · exact ⟨e, h, fun hc => over_all hc h [.eof] (.inl rfl)⟩

/-- C144: only time makes the goroutine late. -/
theorem C144_only_time (json : JSONCodec) (max : Int32) (d : Nat) (ls : List Label) (hp : Always json max ls (Prompt d)) (l : Label)
    (hl : ∀ n, l ≠ .delay n) : Always json max (ls ++ [l]) (Prompt d) := by
  refine always_snoc hp ?_
  have h := always_last hp
  have hi := inv_run (json := json) (max := max) ls
  rw [run_snoc]
  generalize State.run json max {} ls = s at *
  cases hst : s.step json max l with
  | none => exact h
  | some s' =>
    simp only [Option.getD_some]
    cases l with
    | delay n => exact absurd rfl (hl n)
    | arrive bs =>
      simp only [State.step] at hst
      split at hst
      · rename_i hn
        cases hst
        refine ⟨fun ho p hp => ?_, h.start, fun c hc => by simp only [hn] at hc; cases hc⟩
        rcases List.mem_append.1 hp with hp | hp
        · exact h.bytes ho p hp
        · obtain ⟨b, -, rfl⟩ := List.mem_map.1 hp
          exact Nat.le_add_right _ _
      · cases hst
    | close =>
      simp only [State.step] at hst
      split at hst
      · cases hst
        exact ⟨h.bytes, h.start, fun c hc _ _ => by cases hc; simp only; omega⟩
      · cases hst
    | cut =>
      simp only [State.step, Option.some.injEq] at hst
      subst hst
      refine ⟨by simp, h.start, fun c hc _ hr => ?_⟩
      simp only [Option.some.injEq] at hc hr ⊢
      cases hn : s.shut with
      | none => rw [hn] at hc; simp only [Option.getD_none] at hc; omega
      | some c' =>
        rw [hn] at hc
        simp only [Option.getD_some] at hc
        subst hc
        cases hw : s.wire with
        | nil => exact h.closed _ hn hw hr
        | cons p w =>
          have h1 := h.bytes (by intro e he; rw [he] at hr; simp [Place.room] at hr) p (by rw [hw]; simp)
          have h2 := (hi.past p (by rw [hw]; simp)).2 _ hn
          omega
    | read n =>
      simp only [State.step] at hst
      split at hst
      · rename_i hn
        cases hst
        refine ⟨fun _ p hp => ?_, fun _ _ => Nat.le_add_right _ _, fun c _ _ _ => by simp only; omega⟩
        refine h.bytes ?_ p (List.mem_of_mem_drop hp)
        intro e he; rw [he] at hn; simp only [Place.room] at hn; omega
      · cases hst
    | fail =>
      simp only [State.step] at hst
      split at hst
      · rename_i hn
        cases hst
        refine ⟨fun _ p hp => ?_, fun _ _ => Nat.le_add_right _ _, fun c _ _ _ => by simp only; omega⟩
        simp only [hn.2.1] at hp
        simp at hp
      · cases hst
    | go =>
      simp only [State.step] at hst
      split at hst
      · rename_i t ht
        cases hst
        exact ⟨fun _ p hp => h.bytes (by rw [ht]; simp) p hp, by simp, fun c _ _ _ => by simp only; omega⟩
      · cases hst

/-- How far the goroutine is from having nothing to do. -/
def rank (s : State) : Nat :=
  match s.place with
  | .over _ => 0
  | .start _ => 2
  | _ => if s.group = none then 1 else 3

theorem settle (json : JSONCodec) (max : Int32) (ls : List Label) : ∃ ls', (∀ l ∈ ls', ByGoroutine l) ∧
    ((∃ e, (State.run json max {} (ls ++ ls')).place = .over e) ∨
      0 < (State.run json max {} (ls ++ ls')).place.room ∧ (State.run json max {} (ls ++ ls')).wire = [] ∧
        (State.run json max {} (ls ++ ls')).shut = none) := by
  have hi := inv_run (json := json) (max := max) ls
  have goOn : ∀ (l : Label) (s' : State), ByGoroutine l → State.run json max {} (ls ++ [l]) = s' →
      (∃ ls', (∀ l ∈ ls', ByGoroutine l) ∧
      ((∃ e, (State.run json max {} ((ls ++ [l]) ++ ls')).place = .over e) ∨
      0 < (State.run json max {} ((ls ++ [l]) ++ ls')).place.room ∧ (State.run json max {} ((ls ++ [l]) ++ ls')).wire = [] ∧
        (State.run json max {} ((ls ++ [l]) ++ ls')).shut = none)) → ∃ ls', (∀ l ∈ ls', ByGoroutine l) ∧
      ((∃ e, (State.run json max {} (ls ++ ls')).place = .over e) ∨
      0 < (State.run json max {} (ls ++ ls')).place.room ∧ (State.run json max {} (ls ++ ls')).wire = [] ∧
        (State.run json max {} (ls ++ ls')).shut = none) := by
    intro l s' hl _ ⟨ls', h1, h2⟩
    refine ⟨l :: ls', ?_, by simpa using h2⟩
    intro l' hl'
    rcases List.mem_cons.1 hl' with rfl | h
    · exact hl
    · exact h1 l' h
  rcases room_or hi.fits with h | ⟨t, h⟩ | ⟨e, h⟩
  · cases hw : (State.run json max {} ls).wire with
    | cons p w =>
      have e : State.run json max {} (ls ++ [.read 1]) =
          ((State.run json max {} ls).step json max (.read 1)).getD (State.run json max {} ls) := run_snoc _ _ _
      have hwl : (State.run json max {} (ls ++ [.read 1])).wire.length < (State.run json max {} ls).wire.length := by
        rw [e]
        simp only [State.step]
        rw [if_pos ⟨by omega, by rw [hw]; simp, by omega⟩]
        simp [hw]
      exact goOn (.read 1) _ trivial rfl (settle json max (ls ++ [.read 1]))
    | nil =>
      cases hs : (State.run json max {} ls).shut with
      | none => exact ⟨[], by simp, .inr (by simpa using ⟨h, hw, hs⟩)⟩
      | some c =>
        have e : State.run json max {} (ls ++ [.fail]) =
            ((State.run json max {} ls).step json max .fail).getD (State.run json max {} ls) := run_snoc _ _ _
        have hst : (State.run json max {} ls).step json max .fail = some { State.run json max {} ls with
            group := (blockFailed (State.run json max {} ls).group).1, place := (blockFailed (State.run json max {} ls).group).2,
            since := (State.run json max {} ls).now, failed := true } := by
          simp only [State.step]
          rw [if_pos ⟨h, hw, by rw [hs]; simp⟩]
        rw [hst, Option.getD_some] at e
        have hwl : (State.run json max {} (ls ++ [.fail])).wire.length = (State.run json max {} ls).wire.length := by rw [e]
        have hrk : rank (State.run json max {} (ls ++ [.fail])) < rank (State.run json max {} ls) := by
          rw [e]
          revert h
          generalize State.run json max {} ls = s
          intro h
          unfold rank
          cases hp : s.place with
          | over e => rw [hp] at h; simp [Place.room] at h
          | start t => rw [hp] at h; simp [Place.room] at h
          | info g => cases hg : s.group <;> simp [blockFailed]
          | content i n g => cases hg : s.group <;> simp [blockFailed]
        exact goOn .fail _ trivial rfl (settle json max (ls ++ [.fail]))
  · have e : State.run json max {} (ls ++ [.go]) =
        ((State.run json max {} ls).step json max .go).getD (State.run json max {} ls) := run_snoc _ _ _
    have hg := hi.fits.start t h
    have hst : (State.run json max {} ls).step json max .go = some { State.run json max {} ls with
        place := .info [], since := (State.run json max {} ls).now,
        begun := (State.run json max {} ls).begun ++ [((State.run json max {} ls).now, t)] } := by
      simp only [State.step, h]
    rw [hst, Option.getD_some] at e
    have hwl : (State.run json max {} (ls ++ [.go])).wire.length = (State.run json max {} ls).wire.length := by rw [e]
    have hrk : rank (State.run json max {} (ls ++ [.go])) < rank (State.run json max {} ls) := by
      rw [e]
      revert h hg
      generalize State.run json max {} ls = s
      intro h hg
      unfold rank
      simp only at hg
      simp [h, hg]
    exact goOn .go _ trivial rfl (settle json max (ls ++ [.go]))
  · exact ⟨[], by simp, .inl ⟨e, by simpa using h⟩⟩
termination_by ((State.run json max {} ls).wire.length, rank (State.run json max {} ls))
decreasing_by
  all_goals first
    | exact Prod.Lex.left _ _ hwl
    | (rw [hwl]; exact Prod.Lex.right _ hrk)

theorem byGoroutine_quiet {ls' : List Label} (h : ∀ l ∈ ls', ByGoroutine l) : .cut ∉ ls' ∧ .close ∉ ls' ∧ total ls' = 0 ∧
    ∀ now, arrivedBytes now ls' = [] := by
  refine ⟨fun hc => h _ hc, fun hc => h _ hc, ?_⟩
  induction ls' with
  | nil => exact ⟨rfl, fun _ => rfl⟩
  | cons l ls' ih =>
    obtain ⟨i1, i2⟩ := ih fun l hl => h l (by simp [hl])
    have hl := h l (by simp)
    cases l <;> simp_all [ByGoroutine, total, arrivedBytes]

/-- C144: the goroutine is never stuck: however a run has gone, late or not, it can go on by itself, without any time passing, until it has
started everything the loop starts for all that has arrived (followed by the end of the stream, if the connection has been closed). -/
theorem C144_rest (json : JSONCodec) (max : Int32) (ls : List Label) (hc : .cut ∉ ls) :
    ∃ ls', (∀ l ∈ ls', ByGoroutine l) ∧ (State.run json max {} (ls ++ ls')).now = (State.run json max {} ls).now ∧
      (connLoop json max (.chunk ((arrivedBytes 0 ls).map (·.2)) :: if .close ∈ ls then [.eof] else [])).1 = begunIn json max (ls ++ ls') := by
  obtain ⟨ls', h1, h2⟩ := settle json max ls
  obtain ⟨q1, q2, q3, q4⟩ := byGoroutine_quiet h1
  have s1 := sent_run (json := json) (max := max) ls
  have s2 := sent_run (json := json) (max := max) (ls ++ ls')
  have hc' : .cut ∉ ls ++ ls' := by simp [hc, q1]
  have hcl : .close ∈ ls ++ ls' ↔ .close ∈ ls := by simp [q2]
  have ea : arrivedBytes 0 (ls ++ ls') = arrivedBytes 0 ls := by
    by_cases hx : .close ∈ ls ∨ .cut ∈ ls
    · exact (arrived_append ls ls' 0).1 hx
    · rw [(arrived_append ls ls' 0).2 hx, q4, List.append_nil]
  have hi := inv_run (json := json) (max := max) (ls ++ ls')
  refine ⟨ls', h1, by rw [s1.now, s2.now, total_append, q3, Nat.add_zero], ?_⟩
  rw [← ea]
  rcases h2 with ⟨e, h⟩ | ⟨g1, g2, g3⟩
  · by_cases hx : .close ∈ ls
    · rw [if_pos hx, over_all hc' h [.eof] (.inl rfl)]
    · rw [if_neg hx]
      have hsn := s2.shut.2 (by rw [hcl]; intro h; rcases h with h | h; exact hx h; exact hc' h)
      have hnf : (State.run json max {} (ls ++ ls')).failed = false := by
        cases hf : (State.run json max {} (ls ++ ls')).failed with
        | false => rfl
        | true => exact absurd hsn (hi.failed hf).2.1
      rw [over_all hc' h [] (.inr ⟨hnf, rfl⟩)]
  · have hx : .close ∉ ls := fun hx => s2.shut.1 g3 (.inl (hcl.2 hx))
    rw [if_neg hx]
    obtain ⟨w1, -, w3⟩ := C144_as_whole json max (ls ++ ls')
    have hnf : (State.run json max {} (ls ++ ls')).failed = false := by
      cases hf : (State.run json max {} (ls ++ ls')).failed with
      | false => rfl
      | true => exact absurd g3 (hi.failed hf).2.1
    have e := w3 hc'
    rw [g2, List.map_nil, List.append_nil] at e
    rw [hnf] at w1
    simp only [Bool.false_eq_true, if_false] at w1
    rw [e, w1]
    cases hp : (State.run json max {} (ls ++ ls')).place with
    | start t => rw [hp] at g1; simp [Place.room] at g1
    | _ => simp [aboutToStart]

/-- C144: it can always keep up: if it has not been late so far it can act, without any time passing, so that whatever time passes
next it is still not late; and by `C144_only_time` nothing else makes it late. -/
theorem C144_keep_up (json : JSONCodec) (max : Int32) (d n : Nat) (ls : List Label) (hp : Always json max ls (Prompt d)) :
    ∃ ls', (∀ l ∈ ls', ByGoroutine l) ∧ Always json max (ls ++ ls' ++ [.delay n]) (Prompt d) := by
  obtain ⟨ls', h1, h2⟩ := settle json max ls
  have hp' : ∀ (ls' : List Label), (∀ l ∈ ls', ByGoroutine l) → ∀ ls, Always json max ls (Prompt d) → Always json max (ls ++ ls') (Prompt d) := by
    intro ls'
    induction ls' with
    | nil => intro _ ls h; simpa using h
    | cons l ls' ih =>
      intro hl ls h
      have := ih (fun l' hl' => hl l' (by simp [hl'])) (ls ++ [l]) (C144_only_time json max d ls h l (by
        intro n hn; have := hl l (by simp); rw [hn] at this; exact this))
      simpa using this
  refine ⟨ls', h1, always_snoc (hp' ls' h1 ls hp) ?_⟩
  rw [run_snoc]
  simp only [State.step, Option.getD_some]
  generalize State.run json max {} (ls ++ ls') = s at *
  rcases h2 with ⟨e, h⟩ | ⟨g1, g2, g3⟩
  · exact ⟨fun ho => absurd h (ho e), fun t ht => (by simp only [h] at ht; cases ht), fun c _ _ hr => by simp only [h, Place.room] at hr; omega⟩
  · refine ⟨by simp [g2], fun t ht => ?_, fun c hc => by simp only [g3] at hc; cases hc⟩
    simp only at ht
    rw [ht] at g1; simp [Place.room] at g1

/-! ## Concrete runs -/

/-- A check that implies `Prompt`. -/
def promptCheck (d : Nat) (s : State) : Bool :=
  s.wire.all (fun p => s.now ≤ p.1 + d) && (aboutToStart s.place = [] || s.now ≤ s.since + d) &&
    (s.shut = none || s.wire ≠ [] || s.place.room = 0 || s.now ≤ max (s.shut.getD 0) s.since + d)

theorem promptCheck_ok {d : Nat} {s : State} (h : promptCheck d s = true) : Prompt d s := by
  simp only [promptCheck, Bool.and_eq_true, List.all_eq_true, decide_eq_true_eq, Bool.or_eq_true] at h
  obtain ⟨⟨h1, h2⟩, h3⟩ := h
  refine ⟨fun _ p hp => h1 p hp, fun t ht => ?_, fun c hc hw hr => ?_⟩
  · rcases h2 with h2 | h2
    · rw [ht] at h2; simp [aboutToStart] at h2
    · exact h2
  · rcases h3 with ((h3 | h3) | h3) | h3
    · rw [hc] at h3; cases h3
    · exact absurd hw h3
    · omega
    · rw [hc] at h3; exact h3

theorem always_check {json : JSONCodec} {max : Int32} {d : Nat} {ls : List Label}
    (h : (List.range (ls.length + 1)).all (fun k => promptCheck d (State.run json max {} (ls.take k))) = true) :
    Always json max ls (Prompt d) := by
  rw [List.all_eq_true] at h
  intro k
  by_cases hk : k ≤ ls.length
  · exact promptCheck_ok (h k (List.mem_range.2 (by omega)))
  · have := promptCheck_ok (h ls.length (List.mem_range.2 (by omega)))
    rw [List.take_length] at this
    rw [List.take_of_length_le (by omega)]; exact this

/-- A message in two pieces, the second arriving together with the first half of the next length; the `Read` calls return what they
like; the goroutine is slow at the `go` statement. -/
def slowRun : List Label :=
  [.arrive [0,0,0], .read 2, .read 1, .delay 2, .arrive ([13, 0,0,0,1, 0,0,0,0, 0,0,0,1, 5] ++ [0,0]), .read 1, .read 6, .read 7, .delay 1,
    .go, .read 2, .delay 5]

set_option maxRecDepth 4000 in
example : Always tinyJson 0 slowRun (Prompt 1) ∧ .cut ∉ slowRun ∧ 2 + 2 * 1 < (State.run tinyJson 0 {} slowRun).now ∧
    bytesBy 2 slowRun = [plainFrame 1 5].flatten ++ [0,0] ∧ (expected (fun _ => .ordinary) .between [plainFrame 1 5]).1 = [.single (plainFrame 1 5)] ∧
    begunIn tinyJson 0 slowRun = [.single (plainFrame 1 5)] ∧ bytesBy 1 slowRun = [0,0,0] :=
  ⟨always_check (by decide), by decide, by decide, by decide, by decide, by decide, by decide⟩

/-- A group of two of which only the first message arrives before the client closes. -/
def brokenOff : List Label :=
  [.arrive (markedFrame 2 7), .read 4, .read 14, .delay 3, .close, .delay 1, .fail, .delay 1, .go, .fail, .delay 5]

set_option maxRecDepth 4000 in
example : Always tinyJson 0 brokenOff (Prompt 1) ∧ .cut ∉ brokenOff ∧ (State.run tinyJson 0 {} brokenOff).shut = some 3 ∧
    3 + 4 * 1 < (State.run tinyJson 0 {} brokenOff).now ∧ begunIn tinyJson 0 brokenOff = [.group [some (markedFrame 2 7), none]] ∧
    (State.run tinyJson 0 {} brokenOff).place = .over .ended :=
  ⟨always_check (by decide), by decide, by decide, by decide, by decide, by decide⟩

end Tcpx
