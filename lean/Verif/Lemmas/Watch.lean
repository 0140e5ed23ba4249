import Verif.Spec.Watch
/-! # Lemmas about watchers -/
namespace Tcpx
open Spec

theorem WState.run_append (cfg : WCfg) (s : WState) (l1 l2 : List WLabel) : s.run cfg (l1 ++ l2) = (s.run cfg l1).run cfg l2 := by
  induction l1 generalizing s with
  | nil => rfl
  | cons l ls ih => exact ih _

theorem WState.run_induct {cfg : WCfg} {P : WState → Prop} {s : WState} (h0 : P s)
    (hs : ∀ s l s', P s → s.step cfg l = some s' → P s') (ls : List WLabel) : P (s.run cfg ls) := by
  induction ls generalizing s with
  | nil => exact h0
  | cons l ls ih =>
    refine ih ?_
    cases h : s.step cfg l with
    | none => exact h0
    | some s' => exact hs s l s' h0 h

/-- Unfold a step into its cases. -/
macro "wstep" h:ident : tactic => `(tactic| (
  simp only [WState.step, hbStep, bcStep, auStep, userStep, WState.closeConn, WState.setCtx, WState.setBuf, WState.log, WState.setThread,
    newCtx] at $h:ident
  repeat' split at $h:ident
  all_goals first
    | (cases $h:ident; done)
    | (simp only [Option.some.injEq] at $h:ident; subst $h:ident)))

/-- The context a goroutine of user code is working on. -/
def UPc.ctx : UPc → Option Nat
  | .idle => none
  | .beatLoad c => some c
  | .beatCreate c => some c
  | .beatSend c _ => some c
  | .authSend c _ => some c
  | .closing c => some c

/-- What holds in every state. -/
structure WInv (s : WState) : Prop where
  fresh : ∀ c, s.n ≤ c → s.ctxs c = {}
  au : ∀ c w, (s.ctxs c).au = .closing w → w ≠ .loss ∧ w ≠ .stopState ∧ w ≠ .user
  hb : ∀ c w, (s.ctxs c).hb = .closing w → w = .loss ∨ w = .stopState ∨ w = .signal
  thr : ∀ i c, (s.threads i).pc.ctx = some c → c < s.n

theorem winv_start (life : Life) (jobs : Nat → List UCall) : WInv (.start life jobs) :=
  ⟨fun _ _ => rfl, fun _ _ h => (by cases h), fun _ _ h => (by cases h), fun _ _ h => (by cases h)⟩

theorem winv_step {cfg : WCfg} {s s' : WState} {l : WLabel} (h : WInv s) (hs : s.step cfg l = some s') : WInv s' := by
  obtain ⟨h1, h2, h3, h4⟩ := h
  refine ⟨?_, ?_, ?_, ?_⟩
  · clear h2 h3
    have k1 : ∀ i c, (s.threads i).pc = .beatCreate c → c < s.n := fun i c h => h4 i c (by rw [h]; rfl)
    have k2 : ∀ i c v, (s.threads i).pc = .authSend c v → c < s.n := fun i c v h => h4 i c (by rw [h]; rfl)
    have k3 : ∀ i c, (s.threads i).pc = .closing c → c < s.n := fun i c h => h4 i c (by rw [h]; rfl)
    clear h4
    cases l <;> wstep hs
    all_goals grind
  · clear h1 h3 h4
    cases l <;> wstep hs
    all_goals grind [UPc.ctx]
  · clear h1 h2 h4
    cases l <;> wstep hs
    all_goals grind [UPc.ctx]
  · clear h1 h2 h3
    cases l <;> wstep hs
    all_goals grind [UPc.ctx, UCall.ctx]

theorem winv_run (cfg : WCfg) (life : Life) (jobs : Nat → List UCall) (ls : List WLabel) : WInv ((WState.start life jobs).run cfg ls) :=
  WState.run_induct (winv_start life jobs) (fun _ _ _ => winv_step) ls

/-! ## Heartbeat (C51) -/

/-- What holds of the heartbeat watcher: where it stands, the elapsed intervals, the callbacks, the closes for loss, and whether a
callback panicked. -/
def HbOk (cfg : WCfg) (pc : HbPc) (si cb lo : Nat) (pk : Prop) : Prop :=
  match pc with
  | .off => si = 0 ∧ cb = 0 ∧ lo = 0
  | .top k => si = k ∧ k < 3 ∧ cb = 0 ∧ lo = 0
  | .load k => si = k ∧ k < 3 ∧ cb = 0 ∧ lo = 0
  | .create k => si = k ∧ k < 3 ∧ cb = 0 ∧ lo = 0
  | .select k _ => si = k ∧ k < 3 ∧ cb = 0 ∧ lo = 0
  | .lost => si = 3 ∧ cb = 0 ∧ lo = 0
  | .closing w => if w = .loss then si = 3 ∧ cb = (if cfg.hasOnLoss then 1 else 0) ∧ lo = 0 else si < 3 ∧ cb = 0 ∧ lo = 0
  | .ended => (si = 3 ∧ cb = (if cfg.hasOnLoss then 1 else 0) ∧ lo = 1) ∨ (si = 3 ∧ cb = 1 ∧ pk ∧ lo = 0) ∨ (si < 3 ∧ cb = 0 ∧ lo = 0)

def HbInv (cfg : WCfg) (c : Nat) (s : WState) : Prop :=
  HbOk cfg (s.ctxs c).hb (silent c s.trace) (callbacks c s.trace) (losses c s.trace) (.lossCallback c true ∈ s.trace) ∧
  (.lossCallback c true ∈ s.trace → (s.ctxs c).hb = .ended ∧ losses c s.trace = 0) ∧
  AtEach (.closed c .loss) (fun tr => silent c tr = 3 ∧ callbacks c tr = (if cfg.hasOnLoss then 1 else 0)) s.trace

theorem callbacks_cons (c : Nat) (e : WatchEv) (tr : List WatchEv) :
    callbacks c (e :: tr) = callbacks c tr + (if e = .lossCallback c false ∨ e = .lossCallback c true then 1 else 0) := by
  simp only [callbacks, List.count_cons]
  cases e <;> simp <;> grind

theorem losses_cons (c : Nat) (e : WatchEv) (tr : List WatchEv) :
    losses c (e :: tr) = losses c tr + (if e = .closed c .loss then 1 else 0) := by
  simp only [losses, List.count_cons]
  cases e <;> simp

theorem atEach_nil (e : WatchEv) (P : List WatchEv → Prop) : AtEach e P [] := by
  intro post pre h
  cases post <;> cases h

theorem atEach_cons (e e' : WatchEv) (P : List WatchEv → Prop) (tr : List WatchEv) :
    AtEach e P (e' :: tr) ↔ (e' = e → P tr) ∧ AtEach e P tr := by
  constructor
  · intro h
    exact ⟨fun he => h [] tr (by rw [he]; rfl), fun post pre hp => h (e' :: post) pre (by rw [hp]; rfl)⟩
  · rintro ⟨h1, h2⟩ post pre hp
    cases post with
    | nil =>
      simp only [List.nil_append, List.cons.injEq] at hp
      rw [← hp.2]; exact h1 hp.1
    | cons a post =>
      simp only [List.cons_append, List.cons.injEq] at hp
      exact h2 post pre hp.2

theorem hbinv_step {cfg : WCfg} {s s' : WState} {l : WLabel} {c : Nat} (hw : WInv s) (h : HbInv cfg c s)
    (hs : s.step cfg l = some s') : HbInv cfg c s' := by
  obtain ⟨h1, h2, h3, h4⟩ := hw
  clear h4
  obtain ⟨h, g1, g2⟩ := h
  refine ⟨?_, ?_, ?_⟩
  · clear g1 g2
    cases l <;> wstep hs
    all_goals simp only [callbacks_cons, losses_cons, silent, List.mem_cons]
    all_goals grind [HbOk]
  · clear g2
    cases l <;> wstep hs
    all_goals simp only [losses_cons, List.mem_cons]
    all_goals grind [HbOk]
  · clear g1
    cases l <;> wstep hs
    all_goals simp only [atEach_cons]
    all_goals grind [HbOk]

theorem hbinv_run (cfg : WCfg) (life : Life) (jobs : Nat → List UCall) (c : Nat) (ls : List WLabel) :
    HbInv cfg c ((WState.start life jobs).run cfg ls) := by
  have : WInv ((WState.start life jobs).run cfg ls) ∧ HbInv cfg c ((WState.start life jobs).run cfg ls) := by
    refine WState.run_induct (P := fun s => WInv s ∧ HbInv cfg c s) ⟨winv_start life jobs, ?_⟩ ?_ ls
    · exact ⟨⟨rfl, rfl, rfl⟩, fun h => (by cases h), atEach_nil _ _⟩
    · exact fun s l s' h hs => ⟨winv_step h.1 hs, hbinv_step h.1 h.2 hs⟩
  exact this.2

/-- Other steps do not move the heartbeat watcher of an existing context. -/
theorem hb_frame {cfg : WCfg} {s s' : WState} {l : WLabel} {c : Nat} (hc : c < s.n) (hl : ∀ x, l ≠ .hb c x)
    (hs : s.step cfg l = some s') : (s'.ctxs c).hb = (s.ctxs c).hb ∧ c < s'.n := by
  cases l <;> wstep hs
  all_goals grind

theorem bc_frame {cfg : WCfg} {s s' : WState} {l : WLabel} {c : Nat} (hc : c < s.n) (hl : ∀ x, l ≠ .bc c x)
    (hs : s.step cfg l = some s') : (s'.ctxs c).bc = (s.ctxs c).bc ∧ c < s'.n := by
  cases l <;> wstep hs
  all_goals grind

theorem au_frame {cfg : WCfg} {s s' : WState} {l : WLabel} {c : Nat} (hc : c < s.n) (hl : ∀ x, l ≠ .au c x)
    (hs : s.step cfg l = some s') : (s'.ctxs c).au = (s.ctxs c).au ∧ c < s'.n := by
  cases l <;> wstep hs
  all_goals grind

end Tcpx
