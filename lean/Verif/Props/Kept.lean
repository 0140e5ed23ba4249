import Verif.Lemmas.KeptRun
import Verif.Lemmas.KeptCan
import Verif.Props.Keepup
/-!
# C128: heartbeats handled in time keep a connection
-/
namespace Tcpx
open Spec

/-- C128: if the watcher is never more than `d` late and calls of `RecvHeartBeat` take no longer than `d` (except to wait for room in
the channel), and if `RecvHeartBeat` is called at least every `g`, with `g + 6 * d` less than three intervals, then the connection is not
closed for loss of heartbeat (if `closed … loss` ever appears, someone else had closed the connection before); whoever makes the
channel, and whoever else calls what. -/
theorem C128_kept (cfg : TCfg) (g d : Nat) (hg : g + 6 * d < 3 * cfg.interval) (life : Life) (jobs : Nat → List UCall) (ls : List TLabel)
    (c : Nat) (hp : Throughout cfg (.start life jobs) ls fun s => PromptBeat cfg d c s ∧ PromptCalls d c s ∧ CallsEvery g c s) :
    AtEachT (.closed c .loss) (fun _ before => ClosedIn c before) (trun cfg life jobs ls).log :=
  (TState.run_induct (P := KeptOk cfg d g c) hp (keptok_start cfg life jobs d g c)
    fun _ _ _ h hp _ hs => keptok_step hg hp.1 hp.2.1 hp.2.2 h hs).loss

/-- `CallsEvery`, to be computed. -/
def callsEvery (g c : Nat) (s : TState) : Bool :=
  match lastCall c s.log with
  | none => true
  | some t => decide (s.now ≤ t + g)

theorem callsEvery_spec (g c : Nat) (s : TState) (h : callsEvery g c s = true) : CallsEvery g c s := by
  intro t ht _
  rw [callsEvery, ht] at h
  exact of_decide_eq_true h

/-- `PromptCalls` of one goroutine, to be computed. -/
def promptCall (d c i : Nat) (s : TState) : Bool :=
  match calledAt i s.log with
  | none => true
  | some t =>
    match (s.w.threads i).pc with
    | .beatLoad c' => c' ≠ c || s.now ≤ t + d
    | .beatCreate c' => c' ≠ c || s.now ≤ t + d
    | .beatSend c' ch => c' ≠ c || s.w.buf ch || (match lastHeard c s.log with | some h => decide (s.now ≤ max t h + d) | none => true)
    | _ => true

theorem promptCall_spec (d c i : Nat) (s : TState) (h : promptCall d c i s = true) (t : Nat) (ht : calledAt i s.log = some t) :
    (((s.w.threads i).pc = .beatLoad c ∨ (s.w.threads i).pc = .beatCreate c) → s.now ≤ t + d) ∧
    ∀ ch h, (s.w.threads i).pc = .beatSend c ch → s.w.buf ch = false → lastHeard c s.log = some h → s.now ≤ max t h + d := by
  rw [promptCall, ht] at h
  refine ⟨?_, ?_⟩
  · rintro (e | e) <;> rw [e] at h <;> simpa using h
  · intro ch hh e hb hl
    rw [e] at h
    simpa [hb, hl] using h

theorem promptCalls_of (cfg : TCfg) (life : Life) (d c : Nat) (ls : List TLabel) (h : promptCall d c 0 (trun cfg life Demo.wbeat ls) = true) :
    PromptCalls d c (trun cfg life Demo.wbeat ls) := by
  intro i t ht
  by_cases hi : i = 0
  · subst hi; exact promptCall_spec d c 0 _ h t ht
  · rw [idle_run cfg life Demo.wbeat i (by simp [Demo.wbeat, hi])]
    simp

/-- A handler finds no channel, and replaces the one its watcher makes meanwhile: the watcher looks at the wrong one for an interval,
and then receives the heartbeat. -/
def Demo.tearly : List TLabel :=
  [.act (.accept .tcp), .act (.user 0), .act (.user 0), .act (.hb 0 .go), .act (.hb 0 .go), .act (.hb 0 .go), .delay 1, .act (.user 0),
   .act (.user 0), .delay 9, .act (.hb 0 .timer), .act (.hb 0 .go), .act (.hb 0 .go), .act (.hb 0 .recv), .act (.hb 0 .go), .act (.hb 0 .go),
   .delay 10, .act (.hb 0 .timer)]

example : Throughout Demo.tcfg (.start Demo.wlife Demo.wbeat) Demo.tearly (fun s => PromptBeat Demo.tcfg 1 0 s ∧ PromptCalls 1 0 s ∧ CallsEvery 23 0 s) ∧
    (trun Demo.tcfg Demo.wlife Demo.wbeat Demo.tearly).now = 20 ∧ (10, .beatTaken 0) ∈ (trun Demo.tcfg Demo.wlife Demo.wbeat Demo.tearly).log := by
  refine ⟨?_, by decide, by decide⟩
  have h1 : ∀ k ∈ List.range (Demo.tearly.length + 1), PromptBeat Demo.tcfg 1 0 (trun Demo.tcfg Demo.wlife Demo.wbeat (Demo.tearly.take k)) := by decide
  have h2 : ∀ k ∈ List.range (Demo.tearly.length + 1), promptCall 1 0 0 (trun Demo.tcfg Demo.wlife Demo.wbeat (Demo.tearly.take k)) = true := by decide
  have h3 : ∀ k ∈ List.range (Demo.tearly.length + 1), callsEvery 23 0 (trun Demo.tcfg Demo.wlife Demo.wbeat (Demo.tearly.take k)) = true := by decide
  exact throughout_of _ _ _ _ fun k hk => ⟨h1 k hk, promptCalls_of _ _ _ _ _ (h2 k hk), callsEvery_spec _ _ _ (h3 k hk)⟩

/-! ## Calls can keep up -/

/-- A step of a watcher or of a goroutine, or time passing; nothing from outside. -/
def Spec.ByServer : TLabel → Prop
  | .act (.user _) => True
  | l => ByWatchers l

theorem now_run (cfg : TCfg) (s : TState) (ls : List TLabel) : s.now ≤ (s.run cfg ls).now := by
  refine TState.run_induct (P := fun s' => s.now ≤ s'.now) (H := fun _ => True) (fun _ => trivial) (Nat.le_refl _) ?_
  intro s1 l s2 h _ _ hs
  rcases tstep_cases hs with ⟨d, rfl⟩ | ⟨b, w', rfl, hdue, hst, rfl⟩
  · exact Nat.le_trans h (Nat.le_add_right _ _)
  · exact h

/-- Watchers alone do not make calls late, if no time passes. -/
theorem watchers_calls (cfg : TCfg) (d : Nat) (ls : List TLabel) : ∀ s : TState, (∃ owner, OwnOk owner s.w) → (∀ l ∈ ls, ByWatchers l) →
    (s.run cfg ls).now = s.now → (∀ c, PromptCalls d c s) →
    (∀ k c, PromptCalls d c (s.run cfg (ls.take k))) ∧ (∀ j, (s.run cfg ls).w.threads j = s.w.threads j) ∧
      ∀ t j u, (t, .invoke j u) ∈ (s.run cfg ls).log → (t, .invoke j u) ∈ s.log := by
  induction ls with
  | nil => exact fun s _ _ _ h => ⟨fun k c => by simpa [TState.run] using h c, fun j => rfl, fun t j u h => h⟩
  | cons l ls ih =>
    intro s ho hby hnow h
    have hm : (s.run cfg (l :: ls)).now = ((s.step cfg l).getD s).now ∧ s.now = ((s.step cfg l).getD s).now := by
      have h1 : ((s.step cfg l).getD s).now ≤ (s.run cfg (l :: ls)).now := now_run cfg _ ls
      have h2 : s.now ≤ ((s.step cfg l).getD s).now := now_run cfg s [l]
      omega
    have key : (∀ c, PromptCalls d c ((s.step cfg l).getD s)) ∧ (∀ j, ((s.step cfg l).getD s).w.threads j = s.w.threads j) ∧
        (∀ t j u, (t, .invoke j u) ∈ ((s.step cfg l).getD s).log → (t, .invoke j u) ∈ s.log) ∧ ∃ owner, OwnOk owner ((s.step cfg l).getD s).w := by
      cases hs : s.step cfg l with
      | none => exact ⟨h, fun _ => rfl, fun _ _ _ h => h, ho⟩
      | some s' =>
        have ho' := ownok_tstep ho hs
        rw [hs] at hm
        rcases tstep_cases hs with ⟨e, rfl⟩ | ⟨b, w', rfl, hdue, hst, rfl⟩
        · have he : e = 0 := by
            have := hm.2
            simp only [Option.getD_some] at this
            omega
          subst he
          exact ⟨h, fun _ => rfl, fun _ _ _ h => h, ho⟩
        · obtain ⟨k1, k2, k3⟩ := calls_watch ho (hby _ (List.mem_cons_self ..)) hst h
          exact ⟨k1, k2, k3, ho'⟩
    obtain ⟨k1, k2, k3, k4⟩ := key
    obtain ⟨i1, i2, i3⟩ := ih _ k4 (fun l h => hby l (List.mem_cons_of_mem _ h)) hm.1 k1
    refine ⟨fun k c => ?_, fun j => (i2 j).trans (k2 j), fun t j u h => k3 t j u (i3 t j u h)⟩
    cases k with
    | zero => exact h c
    | succ k => exact i1 k c

theorem throughout_append {cfg : TCfg} {s : TState} {l1 l2 : List TLabel} {P : TState → Prop} (h1 : Throughout cfg s l1 P)
    (h2 : ∀ k, P ((s.run cfg l1).run cfg (l2.take k))) : Throughout cfg s (l1 ++ l2) P := by
  intro k
  by_cases hk : k ≤ l1.length
  · rw [List.take_append_of_le_length hk]; exact h1 k
  · rw [List.take_append, List.take_of_length_le (by omega), TState.run_append]; exact h2 _

theorem throughout_and {cfg : TCfg} {s : TState} {ls : List TLabel} {P Q : TState → Prop} :
    Throughout cfg s ls (fun s => P s ∧ Q s) ↔ Throughout cfg s ls P ∧ Throughout cfg s ls Q :=
  ⟨fun h => ⟨fun k => (h k).1, fun k => (h k).2⟩, fun h k => ⟨h.1 k, h.2 k⟩⟩

/-- Bring all watchers and calls to rest. -/
theorem settle_calls (cfg : TCfg) (d : Nat) (life : Life) (jobs : Nat → List UCall) (N n : Nat) : ∀ ls,
    (∀ i, N ≤ i → callRank ((trun cfg life jobs ls).w.threads i).pc = 0) →
    totalRank (fun i => callRank ((trun cfg life jobs ls).w.threads i).pc) N < n →
    Throughout cfg (.start life jobs) ls (fun s => PromptAll cfg d s ∧ ∀ c, PromptCalls d c s) →
    ∃ ls', (∀ l ∈ ls', ByServer l) ∧ Throughout cfg (.start life jobs) (ls ++ ls') (fun s => PromptAll cfg d s ∧ ∀ c, PromptCalls d c s) ∧
      (trun cfg life jobs (ls ++ ls')).now = (trun cfg life jobs ls).now ∧
      (∀ t j u, (t, .invoke j u) ∈ (trun cfg life jobs (ls ++ ls')).log → (t, .invoke j u) ∈ (trun cfg life jobs ls).log) ∧
      (∀ c, Settled cfg c (trun cfg life jobs (ls ++ ls'))) ∧ CallsSettled (trun cfg life jobs (ls ++ ls')) := by
  induction n with
  | zero => intro ls _ h; omega
  | succ n ih =>
    intro ls hN hn hp
    obtain ⟨hp1, hp2⟩ := throughout_and.1 hp
    have own : ∀ ls, ∃ owner, OwnOk owner (trun cfg life jobs ls).w := fun ls => by
      rw [untime_run]; exact ownok_run cfg.w life jobs _
    obtain ⟨l1, a1, a2, a3, a4⟩ := settle_all cfg d life jobs ls hp1 (trun cfg life jobs ls).w.n
    have hset : ∀ c, Settled cfg c (trun cfg life jobs (ls ++ l1)) := fun c => a4 c (Nat.lt_or_ge _ _)
    have e1 : trun cfg life jobs (ls ++ l1) = (trun cfg life jobs ls).run cfg l1 := TState.run_append cfg _ ls l1
    obtain ⟨b1, b2, b3⟩ := watchers_calls cfg d l1 (trun cfg life jobs ls) (own ls) a1 (e1 ▸ a3) (throughout_last hp2)
    have hp' : Throughout cfg (.start life jobs) (ls ++ l1) (fun s => PromptAll cfg d s ∧ ∀ c, PromptCalls d c s) :=
      throughout_and.2 ⟨a2, throughout_append hp2 fun k c => b1 k c⟩
    rw [← e1] at b2 b3
    have by1 : ∀ l ∈ l1, ByServer l := by
      intro l hl
      have := a1 l hl
      unfold ByServer
      split
      · trivial
      · exact this
    by_cases hc : CallsSettled (trun cfg life jobs (ls ++ l1))
    · exact ⟨l1, by1, hp', a3, b3, hset, hc⟩
    · have hb0 : (trun cfg life jobs (ls ++ l1)).w.buf (trun cfg life jobs (ls ++ l1)).w.nchan = false := by
        obtain ⟨owner, ho⟩ := own (ls ++ l1)
        cases hb : (trun cfg life jobs (ls ++ l1)).w.buf (trun cfg life jobs (ls ++ l1)).w.nchan with
        | false => rfl
        | true => exact absurd (ho.buf _ hb).1 (Nat.lt_irrefl _)
      obtain ⟨i, s', hs, hi, hcs⟩ := call_progress (cfg := cfg) hb0 hc
      have e2 : trun cfg life jobs (ls ++ l1 ++ [.act (.user i)]) = s' := by
        rw [trun_snoc, hs]; rfl
      subst e2
      have hiN : i < N := by
        apply Nat.lt_of_not_le
        intro hle
        rw [b2, hN i hle] at hi
        exact Nat.lt_irrefl _ hi
      have hthr : ∀ j, j ≠ i → (trun cfg life jobs (ls ++ l1 ++ [.act (.user i)])).w.threads j = (trun cfg life jobs ls).w.threads j :=
        fun j hj => (hcs.threads j hj).trans (b2 j)
      obtain ⟨l2, c1, c2, c3, c4, c5, c6⟩ := ih (ls ++ l1 ++ [.act (.user i)])
        (fun j hj => by rw [hthr j (by omega)]; exact hN j hj)
        (by
          have hlt := totalRank_lt (f := fun j => callRank ((trun cfg life jobs (ls ++ l1 ++ [.act (.user i)])).w.threads j).pc)
            (g := fun j => callRank ((trun cfg life jobs ls).w.threads j).pc) N i hiN (by have := hcs.rank; rwa [b2] at this)
            (fun j hj => by rw [hthr j hj])
          omega)
        (throughout_snoc hp' ⟨prompt_call hcs (throughout_last hp').1, hcs.calls d (throughout_last hp').2⟩)
      rw [List.append_assoc, List.append_assoc] at c2 c3 c4 c5 c6
      refine ⟨l1 ++ ([.act (.user i)] ++ l2), ?_, c2, ?_, ?_, c5, c6⟩
      · intro l hl
        rcases List.mem_append.1 hl with h | h
        · exact by1 l h
        rcases List.mem_append.1 h with h | h
        · cases List.mem_singleton.1 h; trivial
        · exact c1 l h
      · rw [c3, hcs.now, a3]
      · intro t j u h
        have := c4 t j u h
        exact b3 t j u (hcs.log t j u this)

/-- C128: the assumptions can always be met: however a run has gone in which no watcher and no call of `RecvHeartBeat` was more than `d`
late, the server can go on, without any new call, so that any time passes and still none is late. -/
theorem C128_keep_up (cfg : TCfg) (d : Nat) (life : Life) (jobs : Nat → List UCall) (ls : List TLabel)
    (hp : Throughout cfg (.start life jobs) ls fun s => PromptAll cfg d s ∧ ∀ c, PromptCalls d c s) (n : Nat) :
    ∃ ls', (∀ l ∈ ls', ByServer l) ∧ Throughout cfg (.start life jobs) (ls ++ ls') (fun s => PromptAll cfg d s ∧ ∀ c, PromptCalls d c s) ∧
      (trun cfg life jobs (ls ++ ls')).now = (trun cfg life jobs ls).now + n ∧
      ∀ t j u, (t, .invoke j u) ∈ (trun cfg life jobs (ls ++ ls')).log → (t, .invoke j u) ∈ (trun cfg life jobs ls).log := by
  induction n with
  | zero => exact ⟨[], by simp, by simpa using hp, by simp, by simp⟩
  | succ n ih =>
    obtain ⟨l1, h1, h2, h3, h4⟩ := ih
    obtain ⟨N, hN⟩ := finite_calls cfg life jobs (ls ++ l1)
    obtain ⟨l2, g1, g2, g3, g4, g5, g6⟩ := settle_calls cfg d life jobs N _ (ls ++ l1) hN (Nat.lt_succ_self _) h2
    have hd : trun cfg life jobs (ls ++ l1 ++ l2 ++ [.delay 1]) =
        { trun cfg life jobs (ls ++ l1 ++ l2) with now := (trun cfg life jobs (ls ++ l1 ++ l2)).now + 1 } := by
      rw [trun_snoc]; rfl
    have hp' : Throughout cfg (.start life jobs) (ls ++ l1 ++ l2 ++ [.delay 1]) (fun s => PromptAll cfg d s ∧ ∀ c, PromptCalls d c s) := by
      refine throughout_snoc g2 ?_
      rw [show (TState.start life jobs).run cfg _ = _ from hd]
      refine ⟨settled_delay g5 fun c t ht => ?_, fun c i t _ => ⟨?_, ?_⟩⟩
      · have := closedAt_isSome ht
        rw [log_trace] at this
        rw [show (trun cfg life jobs (ls ++ l1 ++ l2)).w = _ from untime_run cfg _ _] at this ⊢
        exact (ended_run _ _ _ _ _ this).1
      · intro h
        simp only at h
        obtain ⟨c', ch, h', _⟩ := g6 i (by rcases h with h | h <;> rw [h] <;> simp [callRank])
        rcases h with h | h <;> rw [h] at h' <;> cases h'
      · intro ch hh h hb _
        simp only at h hb
        obtain ⟨c', ch', h', hb'⟩ := g6 i (by rw [h]; simp [callRank])
        rw [h] at h'
        cases h'
        rw [hb] at hb'
        cases hb'
    rw [List.append_assoc, List.append_assoc] at hp' hd
    refine ⟨l1 ++ (l2 ++ [.delay 1]), ?_, hp', ?_, ?_⟩
    · intro l hl
      rcases List.mem_append.1 hl with h | h
      · exact h1 l h
      rcases List.mem_append.1 h with h | h
      · exact g1 l h
      · cases List.mem_singleton.1 h; trivial
    · rw [hd]
      show _ + 1 = _
      rw [g3, h3]; rfl
    · intro t j u h
      rw [hd] at h
      exact h4 t j u (g4 t j u h)

end Tcpx
