import Verif.Lemmas.SessionSettle
import Verif.Props.Session
/-!
# C143: the server is never stuck, and only time makes it late
-/
namespace Tcpx
open Spec

theorem sthroughout_snoc {cfg : SCfg} {s : SState} {ls : List SLabel} {l : SLabel} {P : SState → Prop} (h : SThroughout cfg s ls P)
    (hl : P (s.run cfg (ls ++ [l]))) : SThroughout cfg s (ls ++ [l]) P := by
  intro k
  by_cases hk : k ≤ ls.length
  · rw [List.take_append_of_le_length hk]; exact h k
  · rw [List.take_of_length_le (by simp; omega)]; exact hl

theorem sthroughout_last {cfg : SCfg} {s : SState} {ls : List SLabel} {P : SState → Prop} (h : SThroughout cfg s ls P) : P (s.run cfg ls) := by
  have := h ls.length
  rwa [List.take_length] at this

theorem srun_snoc (cfg : SCfg) (life : Life) (jobs : Nat → List UCall) (ls : List SLabel) (l : SLabel) :
    srun cfg life jobs (ls ++ [l]) = ((srun cfg life jobs ls).step cfg l).getD (srun cfg life jobs ls) :=
  SState.run_append cfg _ ls [l]

/-- C143: only time makes anybody late: whatever clients do, whoever connects, whatever a handler or any other goroutine calls, even
`Stop`: if nobody was late before, nobody is late after it.  (`OnClose` does nothing to connections; what it does takes its time.) -/
theorem C143_only_time (cfg : SCfg) (hcb : ∀ f, cfg.onClose = some f → ∀ c, f c = []) (d : Nat) (life : Life) (jobs : Nat → List UCall)
    (ls : List SLabel) (hp : SThroughout cfg (.start life jobs) ls (Punctual cfg d)) (l : SLabel) (hl : ∀ n, l ≠ .base (.delay n)) :
    SThroughout cfg (.start life jobs) (ls ++ [l]) (Punctual cfg d) := by
  refine sthroughout_snoc hp ?_
  have h : Punctual cfg d (srun cfg life jobs ls) := sthroughout_last hp
  show Punctual cfg d (srun cfg life jobs (ls ++ [l]))
  rw [srun_snoc]
  cases hs : (srun cfg life jobs ls).step cfg l with
  | none => exact h
  | some s' => exact punctual_step hcb (jobok_run cfg hcb life jobs ls) h hl hs

theorem now_step {cfg : SCfg} {s s' : SState} {l : SLabel} (hl : ∀ n, l ≠ .base (.delay n)) (hs : s.step cfg l = some s') :
    s'.t.now = s.t.now := by
  rcases sstep_cases hs with ⟨a', t', rfl, ht, e, -⟩ | ⟨j, -, e, -⟩ | ⟨-, e, -⟩
  · rw [e]
    rcases now_tstep ht with ⟨d, rfl, -⟩ | h
    · exact absurd rfl (hl d)
    · exact h
  · rw [e]; rfl
  · rw [e]

/-- Everybody in the server can come to rest. -/
theorem session_settle (cfg : SCfg) (hjob : ∀ c m c' rest, cfg.job c m = .beat c' :: rest → c' = c)
    (hcb : ∀ f, cfg.onClose = some f → ∀ c, f c = []) (life : Life) (jobs : Nat → List UCall) (ls : List SLabel) (N : Nat)
    (hN : ∀ i, N ≤ i → jobRank (srun cfg life jobs ls).t.w i = 0) :
    ∃ ls', (∀ l ∈ ls', ByServerS l ∧ ∀ n, l ≠ .base (.delay n)) ∧ (srun cfg life jobs (ls ++ ls')).t.now = (srun cfg life jobs ls).t.now ∧
      AtRest cfg (srun cfg life jobs (ls ++ ls')) := by
  by_cases hr : AtRest cfg (srun cfg life jobs ls)
  · exact ⟨[], by simp, by simp, by simpa using hr⟩
  · obtain ⟨l, s', h1, h2, h3, h4, h5⟩ := session_progress cfg hjob hcb life jobs ls N hN hr
    have e : srun cfg life jobs (ls ++ [l]) = s' := by rw [srun_snoc, h3]; rfl
    have hN' : ∃ N', (∀ i, N' ≤ i → jobRank s'.t.w i = 0) ∧
        (totalRank (loopRank s') s'.t.w.n < totalRank (loopRank (srun cfg life jobs ls)) (srun cfg life jobs ls).t.w.n ∨
        totalRank (loopRank s') s'.t.w.n = totalRank (loopRank (srun cfg life jobs ls)) (srun cfg life jobs ls).t.w.n ∧
          (totalRank (jobRank s'.t.w) N' < totalRank (jobRank (srun cfg life jobs ls).t.w) N ∨
            totalRank (jobRank s'.t.w) N' = totalRank (jobRank (srun cfg life jobs ls).t.w) N ∧
            totalRank (fun c => todo c s'.t) s'.t.w.n < totalRank (fun c => todo c (srun cfg life jobs ls).t) (srun cfg life jobs ls).t.w.n)) := by
      unfold Less at h5
      rw [h4] at h5 ⊢
      rcases h5 with h5 | ⟨g1, ⟨g2, g3⟩ | ⟨g2, g3⟩⟩
      · obtain ⟨N', hN'⟩ := session_finite cfg life jobs (ls ++ [l])
        rw [e] at hN'
        exact ⟨N', hN', .inl h5⟩
      · exact ⟨N, g2, .inr ⟨by rw [g1], .inl g3⟩⟩
      · exact ⟨N, fun i hi => by rw [g2]; exact hN i hi, .inr ⟨by rw [g1], .inr ⟨by rw [g2], g3⟩⟩⟩
    obtain ⟨N', hN', hless⟩ := hN'
    obtain ⟨ls', g1, g2, g3⟩ := session_settle cfg hjob hcb life jobs (ls ++ [l]) N' (by rw [e]; exact hN')
    rw [List.append_assoc] at g2 g3
    refine ⟨[l] ++ ls', ?_, ?_, g3⟩
    · intro l' hl'
      rcases List.mem_append.1 hl' with h | h
      · cases List.mem_singleton.1 h; exact ⟨h1, h2⟩
      · exact g1 l' h
    · rw [g2, e]; exact now_step h2 h3
termination_by (totalRank (loopRank (srun cfg life jobs ls)) (srun cfg life jobs ls).t.w.n, totalRank (jobRank (srun cfg life jobs ls).t.w) N,
  totalRank (fun c => todo c (srun cfg life jobs ls).t) (srun cfg life jobs ls).t.w.n)
decreasing_by
  rw [e]
  simp only [Prod.lex_def]
  exact hless

/-- C143: the server is never stuck: however a run has gone, late or not, whatever its clients, handlers and other goroutines have done,
the server can go on by itself, without any time passing, until every TCP connection is done with: it has been closed by the server, with
`OnClose` called once if set; or its client has not hung up and every message that has arrived has been read and its goroutine started.
(`OnClose` does nothing to connections; handlers that begin with `RecvHeartBeat` call it for their own connection.) -/
theorem C143_rest (cfg : SCfg) (hjob : ∀ c m c' rest, cfg.job c m = .beat c' :: rest → c' = c)
    (hcb : ∀ f, cfg.onClose = some f → ∀ c, f c = []) (life : Life) (jobs : Nat → List UCall) (ls : List SLabel) :
    ∃ ls', (∀ l ∈ ls', ByServerS l) ∧ (srun cfg life jobs (ls ++ ls')).t.now = (srun cfg life jobs ls).t.now ∧
      ∀ c, (srun cfg life jobs ls).loops c ≠ .off → let ev := (srun cfg life jobs (ls ++ ls')).ev
        ShutIn c ev ∧ onCloses c ev = (if cfg.onClose.isSome then 1 else 0) ∨
        ¬ ShutIn c ev ∧ (∀ t, (t, .hungUp c) ∉ ev) ∧ reads c ev = arrivals c ev ∧ begun c ev = (arrivals c ev).filter cfg.takes := by
  obtain ⟨N, hN⟩ := session_finite cfg life jobs ls
  obtain ⟨ls', h1, h2, h3⟩ := session_settle cfg hjob hcb life jobs ls N hN
  refine ⟨ls', fun l hl => (h1 l hl).1, h2, fun c hc => ?_⟩
  have hon : (srun cfg life jobs (ls ++ ls')).loops c ≠ .off := by
    rw [srun, SState.run_append]
    exact SState.run_induct (P := fun s => s.loops c ≠ .off) (sthroughout_true _ _ _) hc fun _ _ _ h _ _ hs => loops_step h hs
  have hok := sok_run cfg life jobs (ls ++ ls')
  have hlo := loopok_run cfg c life jobs (ls ++ ls')
  rcases h3.loop c with h | ⟨k, h⟩ | ⟨g1, g2, g3, g4⟩
  · exact absurd h hon
  · left
    obtain ⟨-, ht⟩ := tailok_run cfg c (fun f hf => hcb f hf c) life jobs (ls ++ ls') k h
    refine ⟨?_, ?_⟩
    · rcases ht with ht | ht | ht
      · exact absurd ht (h3.tail c k h).1
      · exact absurd (by rw [ht]) (h3.tail c k h).2
      · exact ht
    · have := hlo.closes
      rw [h] at this
      exact this
  · right
    have e := hlo.all g3
    rw [g4, List.map_nil, List.append_nil] at e
    have e' := hlo.starts
    rw [g1, e] at e'
    refine ⟨fun h => ?_, fun t ht => ?_, e, by simpa using e'⟩
    · rw [(shut_iff hok hon).2 h] at g2; cases g2
    · rw [ev_hung cfg c life jobs (ls ++ ls') ⟨t, ht⟩] at g3; cases g3

/-- Those at rest can wait. -/
theorem rest_delay (cfg : SCfg) (d : Nat) (life : Life) (jobs : Nat → List UCall) (ls : List SLabel) (h : AtRest cfg (srun cfg life jobs ls)) :
    Punctual cfg d (srun cfg life jobs (ls ++ [.base (.delay 1)])) := by
  have hok := sok_run cfg life jobs ls
  have hend := session_ended cfg life jobs ls
  have hhung := fun c => ev_hung cfg c life jobs ls
  rw [srun_snoc]
  generalize srun cfg life jobs ls = s at *
  have e : (s.step cfg (.base (.delay 1))).getD s = { s with t := { s.t with now := s.t.now + 1 } } := by
    simp [SState.step, TState.step, newEvents]
  rw [e]
  refine ⟨settled_delay h.watch fun c t ht => hend c ?_, fun c i t _ => ⟨?_, ?_⟩, fun c => ?_, fun c i rest h1 h2 => ?_, fun c k hk => ?_⟩
  · have := closedAt_isSome ht
    rwa [hok.trace] at this
  · intro h'
    obtain ⟨c', ch, h'', _⟩ := h.calls i (by rcases h' with h' | h' <;> simp only at h' <;> rw [h'] <;> simp [callRank])
    rcases h' with h' | h' <;> simp only at h' <;> rw [h'] at h'' <;> cases h''
  · intro ch hh h' hb _
    simp only at h' hb
    obtain ⟨c', ch', h'', hb'⟩ := h.calls i (by rw [h']; simp [callRank])
    rw [h'] at h''
    cases h''
    rw [hb] at hb'
    cases hb'
  · unfold PromptLoop
    rcases h.loop c with h1 | ⟨k, h1⟩ | ⟨g1, g2, g3, g4⟩
    · simp only [h1]
    · simp only [h1]
    · simp only [g1, g4]
      have hns : ¬ ShutIn c s.ev := fun h' => by rw [(shut_iff hok (by rw [g1]; simp)).2 h'] at g2; cases g2
      refine ⟨fun t ht => ?_, fun t ht _ => ?_, fun _ a m hm => by cases hm⟩
      · rw [(shutAt_none c s.ev).2 hns] at ht; cases ht
      · rw [hhung c ⟨t, hungAt_mem ht⟩] at g3; cases g3
  · exact absurd h2 (h.begin i c rest h1)
  · exact ⟨fun h' => absurd h' (h.tail c k hk).1, fun h' => absurd h' (h.tail c k hk).2⟩

/-- C143: nobody need be late: however a run has gone in which nobody was more than `d` late, the server can go on by itself so that any
time passes and still nobody is late.  So the assumptions of C134 to C139 can be met whatever clients do: what they do makes nobody late
(`C143_only_time`), and then the server can keep up. -/
theorem C143_keep_up (cfg : SCfg) (hjob : ∀ c m c' rest, cfg.job c m = .beat c' :: rest → c' = c)
    (hcb : ∀ f, cfg.onClose = some f → ∀ c, f c = []) (d : Nat) (life : Life) (jobs : Nat → List UCall)
    (ls : List SLabel) (hp : SThroughout cfg (.start life jobs) ls (Punctual cfg d)) (n : Nat) :
    ∃ ls', (∀ l ∈ ls', ByServerS l) ∧ SThroughout cfg (.start life jobs) (ls ++ ls') (Punctual cfg d) ∧
      (srun cfg life jobs (ls ++ ls')).t.now = (srun cfg life jobs ls).t.now + n := by
  induction n with
  | zero => exact ⟨[], by simp, by simpa using hp, by simp⟩
  | succ n ih =>
    obtain ⟨l1, h1, h2, h3⟩ := ih
    obtain ⟨N, hN⟩ := session_finite cfg life jobs (ls ++ l1)
    obtain ⟨l2, g1, g2, g3⟩ := session_settle cfg hjob hcb life jobs (ls ++ l1) N hN
    have hp2 : ∀ l2 : List SLabel, (∀ l ∈ l2, ByServerS l ∧ ∀ n, l ≠ .base (.delay n)) → ∀ ks,
        SThroughout cfg (.start life jobs) ks (Punctual cfg d) → SThroughout cfg (.start life jobs) (ks ++ l2) (Punctual cfg d) := by
      intro l2
      induction l2 with
      | nil => intro _ ks h; simpa using h
      | cons l l2 ih =>
        intro hall ks h
        have := ih (fun l' hl' => hall l' (List.mem_cons_of_mem _ hl')) (ks ++ [l])
          (C143_only_time cfg hcb d life jobs ks h l (hall l (List.mem_cons_self ..)).2)
        rwa [List.append_assoc] at this
    have hp3 := sthroughout_snoc (hp2 l2 g1 _ h2) (rest_delay cfg d life jobs _ g3)
    refine ⟨l1 ++ (l2 ++ [.base (.delay 1)]), ?_, ?_, ?_⟩
    · intro l hl
      rcases List.mem_append.1 hl with h | h
      · exact h1 l h
      rcases List.mem_append.1 h with h | h
      · exact (g1 l h).1
      · cases List.mem_singleton.1 h; trivial
    · rwa [List.append_assoc, List.append_assoc] at hp3
    · have e : ls ++ (l1 ++ (l2 ++ [.base (.delay 1)])) = ls ++ l1 ++ l2 ++ [.base (.delay 1)] := by simp
      rw [e, srun_snoc]
      simp only [SState.step, TState.step, Option.map_some, Option.getD_some]
      rw [g2, h3]; rfl

/-! ## Such runs -/

theorem punctual_start (cfg : SCfg) (d : Nat) (life : Life) (jobs : Nat → List UCall) : SThroughout cfg (.start life jobs) [] (Punctual cfg d) := by
  intro k
  rw [List.take_nil]
  refine ⟨fun c => ⟨trivial, trivial, fun t h => (by cases h), fun h => (by cases h)⟩, fun c i t h => (by cases h), fun c => trivial,
    fun c i rest h => (by cases h), fun c k h => (by cases h)⟩

-- Two clients connect; the first sends a heartbeat, a message and hangs up, the second sends a message that is not taken; nobody is late,
-- and the server can go on for any time.
example (n : Nat) : ∃ ls', (∀ l ∈ ls', ByServerS l) ∧
    (Demo.srunD ([.base (.act (.accept .tcp)), .base (.act (.accept .tcp)), .arrive 0 1, .arrive 0 3, .hangup 0, .arrive 1 0] ++ ls')).t.now = n := by
  have hcb : ∀ f, Demo.scfg.onClose = some f → ∀ c, f c = [] := by
    intro f hf c
    simp only [Demo.scfg, Option.some.injEq] at hf
    rw [← hf]
  have hjob : ∀ c m c' rest, Demo.scfg.job c m = .beat c' :: rest → c' = c := by
    intro c m c' rest h
    simp only [Demo.scfg] at h
    split at h
    · cases h; rfl
    · split at h <;> cases h
  have go := fun ls hp l hl => C143_only_time Demo.scfg hcb 0 Demo.wlife Demo.wnone ls hp l hl
  have h := go _ (go _ (go _ (go _ (go _ (go _ (punctual_start Demo.scfg 0 Demo.wlife Demo.wnone) (.base (.act (.accept .tcp))) (by simp))
    (.base (.act (.accept .tcp))) (by simp)) (.arrive 0 1) (by simp)) (.arrive 0 3) (by simp)) (.hangup 0) (by simp)) (.arrive 1 0) (by simp)
  obtain ⟨ls', h1, -, h3⟩ := C143_keep_up Demo.scfg hjob hcb 0 Demo.wlife Demo.wnone _ h n
  exact ⟨ls', h1, h3.trans (Nat.zero_add n)⟩

-- in that situation the first connection is still to be read from
example : let s := Demo.srunD [.base (.act (.accept .tcp)), .base (.act (.accept .tcp)), .arrive 0 1, .arrive 0 3, .hangup 0, .arrive 1 0]
    s.loops 0 ≠ .off ∧ arrivals 0 s.ev = [1, 3] ∧ reads 0 s.ev = [] ∧ onCloses 1 s.ev = 0 := by decide

end Tcpx
