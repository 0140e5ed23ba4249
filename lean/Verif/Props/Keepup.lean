import Verif.Lemmas.Keepup
import Verif.Props.Ends
import Verif.Props.Beat
/-!
# C118: the watchers can always keep up
-/
namespace Tcpx
open Spec

theorem throughout_snoc {cfg : TCfg} {s : TState} {ls : List TLabel} {l : TLabel} {P : TState → Prop} (h : Throughout cfg s ls P)
    (hl : P (s.run cfg (ls ++ [l]))) : Throughout cfg s (ls ++ [l]) P := by
  intro k
  by_cases hk : k ≤ ls.length
  · rw [List.take_append_of_le_length hk]; exact h k
  · rw [List.take_of_length_le (by simp; omega)]; exact hl

theorem throughout_last {cfg : TCfg} {s : TState} {ls : List TLabel} {P : TState → Prop} (h : Throughout cfg s ls P) : P (s.run cfg ls) := by
  have := h ls.length
  rwa [List.take_length] at this

theorem trun_snoc (cfg : TCfg) (life : Life) (jobs : Nat → List UCall) (ls : List TLabel) (l : TLabel) :
    trun cfg life jobs (ls ++ [l]) = ((trun cfg life jobs ls).step cfg l).getD (trun cfg life jobs ls) :=
  TState.run_append cfg _ ls [l]

/-- As long as the watchers of `c` are not at rest one of them can do something. -/
theorem run_progress (cfg : TCfg) (life : Life) (jobs : Nat → List UCall) (c : Nat) (ls : List TLabel)
    (hs : ¬ Settled cfg c (trun cfg life jobs ls)) :
    ∃ a s', a.watches c ∧ trun cfg life jobs (ls ++ [.act a]) = s' ∧ Watched c (trun cfg life jobs ls) s' ∧
      todo c s' < todo c (trun cfg life jobs ls) := by
  have hw : (trun cfg life jobs ls).w = (WState.start life jobs).run cfg.w (untime cfg (.start life jobs) ls) := untime_run cfg _ ls
  obtain ⟨a, w', ha, hdue, hst, hlt⟩ := watch_progress (hw ▸ hbinv_run cfg.w life jobs c _) hs (by
    intro w' h
    have := C115_own cfg.w life jobs (untime cfg (.start life jobs) ls ++ [.hb c .recv]) c
    rw [wrun, WState.run_append, ← hw, WState.run, h] at this
    exact this)
  refine ⟨a, _, ha, ?_, watched_of ha hst, hlt⟩
  rw [trun_snoc]
  simp only [TState.step, hdue, if_true, hst, Option.map_some, Option.getD_some]

theorem watches_by {a : WLabel} {c : Nat} (h : a.watches c) : ByWatchers (.act a) := by cases a <;> trivial

/-- Bring the watchers of `c` to rest. -/
theorem settle_one (cfg : TCfg) (d : Nat) (life : Life) (jobs : Nat → List UCall) (c n : Nat) : ∀ ls,
    todo c (trun cfg life jobs ls) < n → Throughout cfg (.start life jobs) ls (PromptAll cfg d) →
    ∃ ls', (∀ l ∈ ls', ByWatchers l) ∧ Throughout cfg (.start life jobs) (ls ++ ls') (PromptAll cfg d) ∧
      (trun cfg life jobs (ls ++ ls')).now = (trun cfg life jobs ls).now ∧ Settled cfg c (trun cfg life jobs (ls ++ ls')) ∧
      ∀ c', c' ≠ c → Settled cfg c' (trun cfg life jobs ls) → Settled cfg c' (trun cfg life jobs (ls ++ ls')) := by
  induction n with
  | zero => intro ls hn; omega
  | succ n ih =>
    intro ls hn hp
    by_cases hs : Settled cfg c (trun cfg life jobs ls)
    · exact ⟨[], by simp, by simpa using hp, by simp, by simpa using hs, by simp⟩
    · obtain ⟨a, s', ha, he, hw, hlt⟩ := run_progress cfg life jobs c ls hs
      subst he
      obtain ⟨ls', h1, h2, h3, h4, h5⟩ := ih (ls ++ [.act a]) (by omega) (throughout_snoc hp (prompt_watch hw (throughout_last hp)))
      rw [List.append_assoc] at h2 h3 h4 h5
      refine ⟨[.act a] ++ ls', ?_, h2, h3.trans hw.now, h4, fun c' hc hset => h5 c' hc (settled_watch hw hc hset)⟩
      intro l hl
      rcases List.mem_append.1 hl with h | h
      · cases List.mem_singleton.1 h; exact watches_by ha
      · exact h1 l h

/-- Bring all watchers to rest. -/
theorem settle_all (cfg : TCfg) (d : Nat) (life : Life) (jobs : Nat → List UCall) (ls : List TLabel)
    (hp : Throughout cfg (.start life jobs) ls (PromptAll cfg d)) (N : Nat) :
    ∃ ls', (∀ l ∈ ls', ByWatchers l) ∧ Throughout cfg (.start life jobs) (ls ++ ls') (PromptAll cfg d) ∧
      (trun cfg life jobs (ls ++ ls')).now = (trun cfg life jobs ls).now ∧
      ∀ c, c < N ∨ (trun cfg life jobs ls).w.n ≤ c → Settled cfg c (trun cfg life jobs (ls ++ ls')) := by
  induction N with
  | zero =>
    refine ⟨[], by simp, by simpa using hp, by simp, fun c hc => ?_⟩
    rw [List.append_nil]
    have := (winv_timed cfg life jobs ls).fresh c (by rcases hc with h | h; omega; exact h)
    unfold Settled
    rw [show (trun cfg life jobs ls).w.ctxs c = {} from this]
    exact ⟨trivial, trivial, trivial⟩
  | succ N ih =>
    obtain ⟨ls1, h1, h2, h3, h4⟩ := ih
    obtain ⟨ls2, g1, g2, g3, g4, g5⟩ := settle_one cfg d life jobs N _ (ls ++ ls1) (Nat.lt_succ_self _) h2
    rw [List.append_assoc] at g2 g3 g4 g5
    refine ⟨ls1 ++ ls2, ?_, g2, g3.trans h3, fun c hc => ?_⟩
    · intro l hl
      rcases List.mem_append.1 hl with h | h
      · exact h1 l h
      · exact g1 l h
    · by_cases hN : c = N
      · exact hN ▸ g4
      · exact g5 c hN (h4 c (by omega))

/-- C118: keeping all watchers from being late never stops the clock: however a run of the server has gone in which none was more than
`d` late, it can go on, by steps of watchers only, so that any time passes and still none is late.  So the assumptions of C84, C85, C86,
C91 and C115 can be met in every situation; whatever a watcher is expected to do in time, it can do. -/
theorem C118_keep_up (cfg : TCfg) (d : Nat) (life : Life) (jobs : Nat → List UCall) (ls : List TLabel)
    (hp : Throughout cfg (.start life jobs) ls (PromptAll cfg d)) (n : Nat) :
    ∃ ls', (∀ l ∈ ls', ByWatchers l) ∧ Throughout cfg (.start life jobs) (ls ++ ls') (PromptAll cfg d) ∧
      (trun cfg life jobs (ls ++ ls')).now = (trun cfg life jobs ls).now + n := by
  induction n with
  | zero => exact ⟨[], by simp, by simpa using hp, by simp⟩
  | succ n ih =>
    obtain ⟨ls1, h1, h2, h3⟩ := ih
    obtain ⟨ls2, g1, g2, g3, g4⟩ := settle_all cfg d life jobs (ls ++ ls1) h2 (trun cfg life jobs (ls ++ ls1)).w.n
    have hset : ∀ c, Settled cfg c (trun cfg life jobs (ls ++ ls1 ++ ls2)) := fun c => g4 c (Nat.lt_or_ge _ _)
    have hd : trun cfg life jobs (ls ++ ls1 ++ ls2 ++ [.delay 1]) =
        { trun cfg life jobs (ls ++ ls1 ++ ls2) with now := (trun cfg life jobs (ls ++ ls1 ++ ls2)).now + 1 } := by
      rw [trun_snoc]; rfl
    have hp' : Throughout cfg (.start life jobs) (ls ++ ls1 ++ ls2 ++ [.delay 1]) (PromptAll cfg d) := by
      refine throughout_snoc g2 ?_
      rw [show (TState.start life jobs).run cfg _ = _ from hd]
      refine settled_delay hset fun c t ht => ?_
      have := closedAt_isSome ht
      rw [log_trace] at this
      rw [show (trun cfg life jobs (ls ++ ls1 ++ ls2)).w = _ from untime_run cfg _ _] at this ⊢
      exact (ended_run _ _ _ _ _ this).1
    rw [List.append_assoc, List.append_assoc] at hp' hd
    refine ⟨ls1 ++ (ls2 ++ [.delay 1]), ?_, hp', ?_⟩
    · intro l hl
      rcases List.mem_append.1 hl with h | h
      · exact h1 l h
      rcases List.mem_append.1 h with h | h
      · exact g1 l h
      · cases List.mem_singleton.1 h; trivial
    · rw [hd]
      show _ + 1 = _
      rw [g3, h3]; rfl

/-- To be computed for the connections there are. -/
theorem promptAll_of (cfg : TCfg) (d : Nat) (life : Life) (jobs : Nat → List UCall) (ls : List TLabel)
    (h : ∀ k ∈ List.range (ls.length + 1), ∀ c ∈ List.range (trun cfg life jobs (ls.take k)).w.n,
      PromptBeat cfg d c (trun cfg life jobs (ls.take k)) ∧ PromptAuth cfg d c (trun cfg life jobs (ls.take k)) ∧
      promptEnd d c (trun cfg life jobs (ls.take k)) = true) : Throughout cfg (.start life jobs) ls (PromptAll cfg d) := by
  refine throughout_of _ _ _ _ fun k hk c => ?_
  by_cases hc : c < (trun cfg life jobs (ls.take k)).w.n
  · obtain ⟨h1, h2, h3⟩ := h k hk c (List.mem_range.2 hc)
    exact ⟨h1, h2, promptEnd_spec _ _ _ h3⟩
  · have hf : (trun cfg life jobs (ls.take k)).w.ctxs c = {} := (winv_timed cfg life jobs (ls.take k)).fresh c (Nat.le_of_not_lt hc)
    unfold PromptBeat PromptAuth PromptEnd
    rw [show ((TState.start life jobs).run cfg (ls.take k)).w.ctxs c = {} from hf]
    exact ⟨trivial, trivial, fun _ _ => ⟨fun _ _ h => (by cases h), fun h => (by cases h), fun h => (by cases h)⟩, fun h => (by cases h)⟩

-- a run with two connections, one of them closed
example : Throughout Demo.ecfg (.start Demo.wlife Demo.eclose)
    ([.act (.accept .tcp), .act (.accept .tcp), .act (.hb 1 .go), .act (.hb 1 .go), .act (.hb 1 .go)] ++ (Demo.eclosed.take 8).drop 1) (PromptAll Demo.ecfg 1) :=
  promptAll_of _ _ _ _ _ (by decide)

end Tcpx
