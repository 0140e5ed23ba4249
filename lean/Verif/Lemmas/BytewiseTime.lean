import Verif.Lemmas.Bytewise
/-! # Reading step by step: what has arrived, and when -/
namespace Tcpx.Bytewise
open Spec
variable {json : JSONCodec} {max : Int32}

/-! ## More bytes start more goroutines -/

/-- Bytes read one by one. -/
theorem feed (xs : Bytes) : ∀ gp : Option Group × Place, Fits gp → ∃ ts gp', Fits gp' ∧
    ∀ r, resume json max gp (xs.map (fun b => Ev.chunk [b]) ++ r) = (ts ++ (resume json max gp' r).1, (resume json max gp' r).2) := by
  induction xs with
  | nil => exact fun gp hf => ⟨[], gp, hf, fun r => rfl⟩
  | cons b xs ih =>
    have hr : ∀ g p, Fits (g, p) → 0 < p.room → ∃ ts gp', Fits gp' ∧ ∀ r, resume json max (g, p) ((b :: xs).map (fun b => Ev.chunk [b]) ++ r) =
        (ts ++ (resume json max gp' r).1, (resume json max gp' r).2) := by
      intro g p hf h
      obtain ⟨ts, gp', h1, h2⟩ := ih _ (fits_took (json := json) (max := max) hf [b])
      refine ⟨ts, gp', h1, fun r => ?_⟩
      rw [← h2 r, ← resume_read hf [b] (by simp) h]
      rfl
    rintro ⟨g, p⟩ hf
    rcases room_or hf with h | ⟨t, rfl⟩ | ⟨e, rfl⟩
    · exact hr g p hf h
    · obtain ⟨ts, gp', h1, h2⟩ := hr none (.info []) (fits_info _ (by intro _ h; cases h)) (by simp [Place.room])
      refine ⟨t :: ts, gp', h1, fun r => ?_⟩
      have := h2 r
      rw [resume_start] at this
      simp only [resume]
      rw [this]; rfl
    · exact ⟨[], _, hf, fun r => rfl⟩

theorem connLoop_nil : connLoop json max [] = ([], .blocked) := connLoop_block (by
  simp only [firstBlockOfLimitMaxByte, unpackToBlockFromReader, unpackToBlockFromReaderLimit, readUntil, ReadOut.bind_block, ite_self])

/-- Without anything more to read, what is still to come is at most one goroutine, and it comes in any case. -/
theorem resume_nil_prefix {gp : Option Group × Place} (hf : Fits gp) (r : Reader) :
    (resume json max gp []).1 <+: (resume json max gp r).1 ∧
    ((resume json max gp []).2 ≠ .blocked → resume json max gp r = resume json max gp []) := by
  obtain ⟨g, p⟩ := gp
  rcases room_or hf with h | ⟨t, rfl⟩ | ⟨e, rfl⟩
  · rw [resume_block h]; exact ⟨List.nil_prefix, fun h => absurd rfl h⟩
  · simp only [resume, connLoop_nil]
    exact ⟨by simp, fun h => absurd rfl h⟩
  · exact ⟨List.prefix_rfl, fun _ => rfl⟩

theorem stream_singles (xs : Bytes) (r : Reader) :
    stream (xs.map (fun b => Ev.chunk [b]) ++ r) = (xs ++ (stream r).1, (stream r).2) := by
  induction xs with
  | nil => rfl
  | cons b xs ih => simp only [List.map_cons, List.cons_append, stream, ih, List.nil_append]

theorem stream_chunks (rs : List Bytes) (r : Reader) :
    stream (rs.map Ev.chunk ++ r) = (rs.flatten ++ (stream r).1, (stream r).2) := by
  induction rs with
  | nil => rfl
  | cons b xs ih => simp only [List.map_cons, List.cons_append, stream, ih, List.flatten_cons, List.append_assoc]

/-- Scripts that deliver the same and stay open or are closed are treated alike. -/
theorem connLoop_congr {r1 r2 : Reader} (h : stream r1 = stream r2) (he : (stream r1).2 = .stillOpen ∨ (stream r1).2 = .closed) :
    connLoop json max r1 = connLoop json max r2 := connLoop_same json max _ r1 r2 (Nat.le_refl _) h he

/-- The more bytes, the more goroutines; once the loop has ended more bytes make no difference. -/
theorem connLoop_mono (xs ys : Bytes) (r : Reader) (he : (stream r).2 = .stillOpen ∨ (stream r).2 = .closed) :
    (connLoop json max [.chunk xs]).1 <+: (connLoop json max (.chunk (xs ++ ys) :: r)).1 ∧
    ((connLoop json max [.chunk xs]).2 ≠ .blocked → connLoop json max (.chunk (xs ++ ys) :: r) = connLoop json max [.chunk xs]) := by
  obtain ⟨ts, gp', h1, h2⟩ := feed (json := json) (max := max) xs (none, .info []) (fits_info _ (by intro _ h; cases h))
  have e1 : connLoop json max [.chunk xs] = (ts ++ (resume json max gp' []).1, (resume json max gp' []).2) := by
    rw [← h2 [], resume_start]
    exact connLoop_congr (by rw [stream_singles]; rfl) (.inl rfl)
  have e2 : connLoop json max (.chunk (xs ++ ys) :: r) =
      (ts ++ (resume json max gp' (.chunk ys :: r)).1, (resume json max gp' (.chunk ys :: r)).2) := by
    rw [← h2 _, resume_start]
    exact connLoop_congr (by rw [stream_singles]; simp only [stream, List.append_assoc]) (by simpa [stream] using he)
  obtain ⟨g1, g2⟩ := resume_nil_prefix (json := json) (max := max) h1 (.chunk ys :: r)
  rw [e1, e2]
  exact ⟨(List.prefix_append_right_inj ts).2 g1, fun h => by rw [g2 h]⟩

/-! ## What has arrived -/

/-- The time a run takes. -/
def total : List Label → Nat
  | [] => 0
  | .delay n :: ls => n + total ls
  | _ :: ls => total ls

theorem arrived_append (xs ys : List Label) : ∀ now, (.close ∈ xs ∨ .cut ∈ xs → arrivedBytes now (xs ++ ys) = arrivedBytes now xs) ∧
    (¬ (.close ∈ xs ∨ .cut ∈ xs) → arrivedBytes now (xs ++ ys) = arrivedBytes now xs ++ arrivedBytes (now + total xs) ys) := by
  induction xs with
  | nil => intro now; simp [arrivedBytes, total]
  | cons l xs ih =>
    intro now
    cases l with
    | arrive bs => simpa [arrivedBytes, total] using ih now
    | delay n => simpa [arrivedBytes, total, Nat.add_assoc] using ih (now + n)
    | close => simp [arrivedBytes]
    | cut => simp [arrivedBytes]
    | read n => simpa [arrivedBytes, total] using ih now
    | fail => simpa [arrivedBytes, total] using ih now
    | go => simpa [arrivedBytes, total] using ih now

theorem total_append (xs ys : List Label) : total (xs ++ ys) = total xs + total ys := by
  induction xs with
  | nil => simp [total]
  | cons l xs ih => cases l <;> simp [total, ih, Nat.add_assoc]

/-- The connection and the record of what was sent. -/
structure Sent (ls : List Label) (s : State) : Prop where
  now : s.now = total ls
  shut : s.shut = none ↔ ¬ (.close ∈ ls ∨ .cut ∈ ls)
  bytes : ∃ tk : List (Nat × UInt8), tk.map (·.2) = s.taken ∧ tk <+: arrivedBytes 0 ls ∧
    (.cut ∉ ls → arrivedBytes 0 ls = tk ++ s.wire) ∧ (tk ++ s.wire <+: arrivedBytes 0 ls)
  sorted : (arrivedBytes 0 ls).Pairwise fun p q => p.1 ≤ q.1
  before : ∀ p ∈ arrivedBytes 0 ls, p.1 ≤ total ls

theorem sent_quiet {ls : List Label} {s s' : State} {l : Label} (h : Sent ls s) (hn : s'.now = s.now) (hs : s'.shut = s.shut)
    (hl : l ≠ .close ∧ l ≠ .cut) (ha : ∀ now, arrivedBytes now [l] = []) (ht : total [l] = 0)
    (hb : ∃ tk : List (Nat × UInt8), tk.map (·.2) = s'.taken ∧ tk <+: arrivedBytes 0 ls ∧
      (.cut ∉ ls → arrivedBytes 0 ls = tk ++ s'.wire) ∧ (tk ++ s'.wire <+: arrivedBytes 0 ls)) : Sent (ls ++ [l]) s' := by
  have e : arrivedBytes 0 (ls ++ [l]) = arrivedBytes 0 ls := by
    by_cases hc : .close ∈ ls ∨ .cut ∈ ls
    · exact (arrived_append ls [l] 0).1 hc
    · rw [(arrived_append ls [l] 0).2 hc, ha, List.append_nil]
  have hm : .cut ∈ ls ++ [l] ↔ .cut ∈ ls := by
    rw [List.mem_append, List.mem_singleton]
    exact ⟨fun h => h.resolve_right fun h => hl.2 h.symm, .inl⟩
  have hm' : .close ∈ ls ++ [l] ↔ .close ∈ ls := by
    rw [List.mem_append, List.mem_singleton]
    exact ⟨fun h => h.resolve_right fun h => hl.1 h.symm, .inl⟩
  have et : total (ls ++ [l]) = total ls := by rw [total_append, ht, Nat.add_zero]
  refine ⟨by rw [hn, h.now, et], by rw [hs, h.shut, hm, hm'], ?_, by rw [e]; exact h.sorted, by rw [e, et]; exact h.before⟩
  rw [e, hm]; exact hb

theorem sent_run (ls : List Label) : Sent ls (State.run json max {} ls) := by
  refine run_induct (P := Sent) ⟨rfl, by simp, ⟨[], rfl, by simp [arrivedBytes]⟩, by simp [arrivedBytes], by simp [arrivedBytes]⟩ ?_ ls
  intro ls l h
  rw [run_snoc]
  generalize State.run json max {} ls = s at *
  cases l with
  | arrive bs =>
    by_cases hs : s.shut = none
    · simp only [State.step, if_pos hs, Option.getD_some]
      have hc := h.shut.1 hs
      have e : arrivedBytes 0 (ls ++ [.arrive bs]) = arrivedBytes 0 ls ++ bs.map fun b => (s.now, b) := by
        rw [(arrived_append ls _ 0).2 hc, h.now]; simp [arrivedBytes]
      obtain ⟨tk, t1, t2, t3, t4⟩ := h.bytes
      have t3' := t3 (fun h => hc (.inr h))
      refine ⟨by simp [total_append, total, h.now], by simpa using h.shut, ⟨tk, t1, ?_, ?_, ?_⟩, ?_, ?_⟩
      · rw [e]; exact t2.trans (List.prefix_append _ _)
      · intro _; rw [e, t3', List.append_assoc]
      · rw [e, t3', List.append_assoc]
        exact List.prefix_rfl
      · rw [e, List.pairwise_append]
        refine ⟨h.sorted, List.pairwise_iff_getElem.2 (by simp), ?_⟩
        intro p hp q hq
        obtain ⟨b, -, rfl⟩ := List.mem_map.1 hq
        have := h.before p hp
        rw [h.now]; exact this
      · rw [e]
        intro p hp
        rw [total_append]
        rcases List.mem_append.1 hp with hp | hp
        · exact Nat.le_trans (h.before p hp) (Nat.le_add_right _ _)
        · obtain ⟨b, -, rfl⟩ := List.mem_map.1 hp
          rw [h.now]; exact Nat.le_add_right _ _
    · simp only [State.step, if_neg hs, Option.getD_none]
      have hc : .close ∈ ls ∨ .cut ∈ ls := by
        by_cases hc : .close ∈ ls ∨ .cut ∈ ls
        · exact hc
        · exact absurd (h.shut.2 hc) hs
      have e : arrivedBytes 0 (ls ++ [.arrive bs]) = arrivedBytes 0 ls := (arrived_append ls _ 0).1 hc
      exact ⟨by simp [total_append, total, h.now], by simpa using h.shut, by rw [e]; simpa using h.bytes,
        by rw [e]; exact h.sorted, by rw [e]; simpa [total_append, total] using h.before⟩
  | close =>
    have e : arrivedBytes 0 (ls ++ [.close]) = arrivedBytes 0 ls := by
      by_cases hc : .close ∈ ls ∨ .cut ∈ ls
      · exact (arrived_append ls _ 0).1 hc
      · rw [(arrived_append ls _ 0).2 hc]; simp [arrivedBytes]
    have key : ∀ s' : State, s'.now = s.now → s'.shut ≠ none → s'.taken = s.taken → s'.wire = s.wire → Sent (ls ++ [.close]) s' := by
      intro s' h1 h2 h3 h4
      refine ⟨by rw [h1, h.now]; simp [total_append, total], ⟨fun h => absurd h h2, fun h => absurd (.inl (by simp)) h⟩, ?_,
        by rw [e]; exact h.sorted, by rw [e]; simpa [total_append, total] using h.before⟩
      rw [e, h3, h4]; simpa using h.bytes
    by_cases hs : s.shut = none
    · simp only [State.step, if_pos hs, Option.getD_some]
      exact key _ rfl (by simp) rfl rfl
    · simp only [State.step, if_neg hs, Option.getD_none]
      exact key _ rfl hs rfl rfl
  | cut =>
    simp only [State.step, Option.getD_some]
    have e : arrivedBytes 0 (ls ++ [.cut]) = arrivedBytes 0 ls := by
      by_cases hc : .close ∈ ls ∨ .cut ∈ ls
      · exact (arrived_append ls _ 0).1 hc
      · rw [(arrived_append ls _ 0).2 hc]; simp [arrivedBytes]
    obtain ⟨tk, t1, t2, t3, t4⟩ := h.bytes
    refine ⟨by simp [total_append, total, h.now], by simp, ⟨tk, t1, ?_, by simp, ?_⟩, by rw [e]; exact h.sorted,
      by rw [e]; simpa [total_append, total] using h.before⟩
    · rw [e]; exact t2
    · rw [e, List.append_nil]; exact t2
  | delay n =>
    simp only [State.step, Option.getD_some]
    have e : arrivedBytes 0 (ls ++ [.delay n]) = arrivedBytes 0 ls := by
      by_cases hc : .close ∈ ls ∨ .cut ∈ ls
      · exact (arrived_append ls _ 0).1 hc
      · rw [(arrived_append ls _ 0).2 hc]; simp [arrivedBytes]
    refine ⟨by simp [total_append, total, h.now], by simpa using h.shut, by rw [e]; simpa using h.bytes, by rw [e]; exact h.sorted, ?_⟩
    rw [e, total_append]
    exact fun p hp => Nat.le_trans (h.before p hp) (Nat.le_add_right _ _)
  | read n =>
    obtain ⟨tk, t1, t2, t3, t4⟩ := h.bytes
    simp only [State.step]
    split
    · rename_i hn
      refine sent_quiet h rfl rfl (by simp) (by simp [arrivedBytes]) (by simp [total]) ⟨tk ++ s.wire.take n, by simp [t1], ?_, ?_, ?_⟩
      · refine List.IsPrefix.trans ?_ t4
        exact (List.prefix_append_right_inj tk).2 (List.take_prefix _ _)
      · intro hc; rw [t3 hc]; simp
      · simpa using t4
    · exact sent_quiet h rfl rfl (by simp) (by simp [arrivedBytes]) (by simp [total]) ⟨tk, t1, t2, t3, t4⟩
  | fail =>
    simp only [State.step]
    split
    · exact sent_quiet h rfl rfl (by simp) (by simp [arrivedBytes]) (by simp [total]) h.bytes
    · exact sent_quiet h rfl rfl (by simp) (by simp [arrivedBytes]) (by simp [total]) h.bytes
  | go =>
    simp only [State.step]
    split
    · exact sent_quiet h rfl rfl (by simp) (by simp [arrivedBytes]) (by simp [total]) h.bytes
    · exact sent_quiet h rfl rfl (by simp) (by simp [arrivedBytes]) (by simp [total]) h.bytes

theorem filter_prefix {l : List (Nat × UInt8)} (h : l.Pairwise fun p q => p.1 ≤ q.1) (T : Nat) :
    l.filter (fun p => p.1 ≤ T) <+: l := by
  induction l with
  | nil => simp
  | cons p l ih =>
    rw [List.pairwise_cons] at h
    by_cases hp : p.1 ≤ T
    · rw [List.filter_cons_of_pos (by simpa using hp)]
      obtain ⟨t, ht⟩ := ih h.2
      exact ⟨t, by rw [List.cons_append, ht]⟩
    · rw [List.filter_cons_of_neg (by simpa using hp)]
      rw [List.filter_eq_nil_iff.2]
      · exact List.nil_prefix
      · intro q hq
        have := h.1 q hq
        simp; omega

end Tcpx.Bytewise
