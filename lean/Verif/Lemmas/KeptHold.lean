import Verif.Lemmas.Kept
/-! # Lemmas: heartbeats handled in time keep a connection (C85), continued -/
namespace Tcpx
open Spec

/-- What holds of a connection accepted at `a` while its watcher is at work: channels are replaced until `a + 4 * d` only; what the
watcher has not heard of since is on its way. -/
structure HoldOk (d g c a : Nat) (s : TState) : Prop where
  noSend : (s.w.ctxs c).chan = none → ∀ i ch, (s.w.threads i).pc ≠ .beatSend c ch
  early : (s.w.ctxs c).hb.live = true → (s.w.ctxs c).chan = none → EarlyPc d a (s.hbAt c) (s.w.ctxs c).hb
  crt : ∀ k, (s.w.ctxs c).hb = .create k → s.hbAt c ≤ a + 2 * d
  thr : (s.w.ctxs c).hb.live = true → ∀ i t, (s.w.threads i).pc = .beatCreate c → calledAt i s.log = some t → t ≤ a + 3 * d
  old : ∀ k ch, (s.w.ctxs c).hb = .select k ch → (s.w.ctxs c).chan ≠ some ch → s.hbAt c ≤ a + 4 * d
  full : (s.w.ctxs c).hb.live = true → ∀ ch h, (s.w.ctxs c).chan = some ch → s.w.buf ch = true → lastHeard c s.log = some h →
    s.chAt ch ≤ max h (a + 4 * d) + g + d
  empty : (s.w.ctxs c).hb.live = true → ∀ ch h r, (s.w.ctxs c).chan = some ch → s.w.buf ch = false → lastHeard c s.log = some h →
    lastCall c s.log = some r → r ≤ max h (a + 4 * d) ∨
      ∃ i t, calledAt i s.log = some t ∧ ((s.w.threads i).pc = .beatLoad c ∨ (s.w.threads i).pc = .beatSend c ch) ∧
        t ≤ max h (a + 4 * d) + g

set_option maxHeartbeats 2000000 in
theorem holdok_step {cfg : TCfg} {g d c a : Nat} {s s' : TState} {l : TLabel} (hw : WInv s.w) (ho : ∃ owner, OwnOk owner s.w)
    (hl : LowOk cfg c s) (hc : CallOk c s) (hlt : c < s.w.n) (ha : acceptedAt c s.log = some a)
    (hp : PromptBeat cfg d c s) (hq : PromptCalls d c s) (hg : CallsEvery g c s) (hopen : ¬ ClosedIn c s.log)
    (h : HoldOk d g c a s) (hs : s.step cfg l = some s') : HoldOk d g c a s' := by
  obtain ⟨owner, o1, o2, o3, o4⟩ := ho
  have hb0 : s.w.buf s.w.nchan = false := by
    cases hb : s.w.buf s.w.nchan with
    | false => rfl
    | true => exact absurd (o3 _ hb).1 (Nat.lt_irrefl _)
  clear o3 hw
  obtain ⟨h0, eh⟩ := Option.isSome_iff_exists.1 (hl.known hlt)
  obtain ⟨r0, er⟩ := Option.isSome_iff_exists.1 (hc.known hlt)
  have hh : h0 ≤ s.now := (hl.heard h0 eh).1
  have hah : a ≤ h0 := hc.heard a h0 ha eh
  have hr : r0 ≤ s.now := hc.now r0 er
  replace hg : s.now ≤ r0 + g := hg r0 er hopen
  have hload : ∀ i, (s.w.threads i).pc = .beatLoad c → ∃ t, calledAt i s.log = some t ∧ t ≤ r0 := by
    intro i hi
    obtain ⟨t, r, h1, h2, h3⟩ := hc.load i hi
    rw [er] at h2; cases h2; exact ⟨t, h1, h3⟩
  have hcreate : ∀ i, (s.w.threads i).pc = .beatCreate c → ∃ t, calledAt i s.log = some t ∧ t ≤ r0 := by
    intro i hi
    obtain ⟨t, r, h1, h2, h3⟩ := hc.create i hi
    rw [er] at h2; cases h2; exact ⟨t, h1, h3⟩
  have hsend : ∀ i ch, (s.w.threads i).pc = .beatSend c ch → ∃ t, calledAt i s.log = some t ∧ t ≤ r0 := by
    intro i ch hi
    obtain ⟨t, r, h1, h2, h3⟩ := hc.send i ch hi
    rw [er] at h2; cases h2; exact ⟨t, h1, h3⟩
  have p1 : ∀ i t, calledAt i s.log = some t → (s.w.threads i).pc = .beatLoad c → s.now ≤ t + d := fun i t h1 h2 => (hq i t h1).1 (.inl h2)
  have p2 : ∀ i t, calledAt i s.log = some t → (s.w.threads i).pc = .beatCreate c → s.now ≤ t + d := fun i t h1 h2 => (hq i t h1).1 (.inr h2)
  have p3 : ∀ i t ch, calledAt i s.log = some t → (s.w.threads i).pc = .beatSend c ch → s.w.buf ch = false → s.now ≤ max t h0 + d :=
    fun i t ch h1 h2 h3 => (hq i t h1).2 ch h0 h2 h3 eh
  have hbt : s.hbAt c ≤ s.now := hl.now
  clear hq hl hc hopen
  obtain ⟨a1, a2, a3, a4, a5, a6, a7⟩ := h
  -- while there is no channel it is early
  have e1 : (s.w.ctxs c).hb.live = true → (s.w.ctxs c).chan = none → s.now ≤ a + 3 * d := by
    intro h1 h2
    have := a2 h1 h2
    unfold PromptBeat at hp
    cases hpc : (s.w.ctxs c).hb <;> rw [hpc] at this hp <;> simp only [EarlyPc] at this hp <;> omega
  have q1 : ∀ k, (s.w.ctxs c).hb = .top k → (s.w.ctxs c).chan = none → s.now ≤ a + d := by
    intro k h1 h2
    have := a2 (by rw [h1]; rfl) h2
    unfold PromptBeat at hp
    rw [h1] at hp this
    simp only [EarlyPc] at hp this
    omega
  have q2 : ∀ k, (s.w.ctxs c).hb = .load k → (s.w.ctxs c).chan = none → s.now ≤ a + 2 * d := by
    intro k h1 h2
    have := a2 (by rw [h1]; rfl) h2
    unfold PromptBeat at hp
    rw [h1] at hp this
    simp only [EarlyPc] at hp this
    omega
  have q3 : ∀ k ch, (s.w.ctxs c).hb = .select k ch → (s.w.ctxs c).chan ≠ none := by
    intro k ch h1 h2
    have := a2 (by rw [h1]; rfl) h2
    rw [h1] at this
    exact this
  have e2 : ∀ k, (s.w.ctxs c).hb = .create k → s.now ≤ a + 3 * d := by
    intro k h1
    have := a3 k h1
    unfold PromptBeat at hp
    rw [h1] at hp
    simp only at hp
    omega
  have e3 : (s.w.ctxs c).hb.live = true → ∀ i, (s.w.threads i).pc = .beatCreate c → s.now ≤ a + 4 * d := by
    intro h1 i h2
    obtain ⟨t, ht, _⟩ := hcreate i h2
    have := a4 h1 i t h2 ht
    have := p2 i t ht h2
    omega
  replace a6 : (s.w.ctxs c).hb.live = true → ∀ ch, (s.w.ctxs c).chan = some ch → s.w.buf ch = true →
      s.chAt ch ≤ max h0 (a + 4 * d) + g + d := fun h1 ch h2 h3 => a6 h1 ch h0 h2 h3 eh
  replace a7 : (s.w.ctxs c).hb.live = true → ∀ ch, (s.w.ctxs c).chan = some ch → s.w.buf ch = false →
      r0 ≤ max h0 (a + 4 * d) ∨ ∃ i t, calledAt i s.log = some t ∧ ((s.w.threads i).pc = .beatLoad c ∨ (s.w.threads i).pc = .beatSend c ch) ∧
        t ≤ max h0 (a + 4 * d) + g := fun h1 ch h2 h3 => a7 h1 ch h0 r0 h2 h3 eh er
  -- when a signal is sent
  have e4 : (s.w.ctxs c).hb.live = true → ∀ ch i, (s.w.ctxs c).chan = some ch → s.w.buf ch = false → (s.w.threads i).pc = .beatSend c ch →
      s.now ≤ max h0 (a + 4 * d) + g + d := by
    intro h1 ch i h2 h3 h4
    rcases a7 h1 ch h2 h3 with h5 | ⟨j, t, h5, h6 | h6, h7⟩
    · obtain ⟨t, ht, htr⟩ := hsend i ch h4
      have := p3 i t ch ht h4 h3
      omega
    · have := p1 j t h5 h6
      omega
    · have := p3 j t ch h5 h6 h3
      omega
  rcases tstep_cases hs with ⟨d', rfl⟩ | ⟨b, w', rfl, hdue, hst, rfl⟩
  · refine ⟨a1, a2, a3, a4, a5, fun h1 ch h h2 h3 h4 => ?_, fun h1 ch h r h2 h3 h4 h5 => ?_⟩
    · have h4 : lastHeard c s.log = some h := h4
      rw [eh] at h4; cases h4
      exact a6 h1 ch h2 h3
    · have h4 : lastHeard c s.log = some h := h4
      have h5 : lastCall c s.log = some r := h5
      rw [eh] at h4; cases h4
      rw [er] at h5; cases h5
      exact a7 h1 ch h2 h3
  · clear hs hdue hp
    refine ⟨?_, ?_, ?_, ?_, ?_, ?_, ?_⟩
    · clear a2 a3 a4 a5 a6 a7 e1 e2 e3 e4 p1 p2 p3 hload hcreate hsend o1 o2 o4
      cases b <;> tstep hst
      all_goals grind
    · clear a1 a3 a4 a5 a6 a7 e1 e2 e3 e4 p1 p2 p3 hload hcreate hsend o1 o2 o4
      cases b <;> tstep hst
      all_goals grind [EarlyPc, HbPc.live, setAt]
    · clear a1 a2 a4 a5 a6 a7 e1 e2 e3 e4 p1 p2 p3 hload hcreate hsend o1 o2 o4
      cases b <;> tstep hst
      all_goals grind [setAt]
    · clear a1 a2 a3 a5 a6 a7 e2 e3 e4 p1 p2 p3 q1 q2 q3 o1 o2 o4
      cases b <;> tstep hst
      all_goals try simp only [calledAt]
      all_goals grind [HbPc.live]
    · clear a1 a2 a3 a4 a6 a7 e1 e2 e4 p1 p2 p3 q1 q2 o1 o2 o4
      cases b <;> tstep hst
      all_goals grind [HbPc.live, setAt]
    · clear a1 a2 a3 a4 a5 a7 e1 e2 e3 p1 p2 p3 q1 q2 q3 hload hcreate hsend
      cases b <;> tstep hst
      all_goals try simp only [lastHeard, eh]
      all_goals grind [HbPc.live]
    · clear a1 a2 a3 a4 a5 a6 e4 p1 p2 p3 q1 q2 q3 hsend
      cases b <;> tstep hst
      all_goals try simp only [lastHeard, lastCall, calledAt, eh, er]
      any_goals grind [HbPc.live]
      next i _ hi _ _ _ c' _ _ =>
        intro h1 ch h r h2 h3 h4 h5
        cases h4
        rcases a7 h1 ch h2 h3 with h6 | ⟨j, t, h6, h7, h8⟩
        · by_cases hcc : c' = c
          · subst hcc
            simp only [if_true, Option.some.injEq] at h5
            subst h5
            exact .inr ⟨i, s.now, by simp, .inl (by simp), by omega⟩
          · simp only [if_neg hcc, Option.some.injEq] at h5
            subst h5
            exact .inl h6
        · have hj : j ≠ i := by
            rintro rfl
            rw [hi] at h7
            rcases h7 with h7 | h7 <;> cases h7
          exact .inr ⟨j, t, by simp [Ne.symm hj, h6], by simp [hj, h7], h8⟩

end Tcpx
