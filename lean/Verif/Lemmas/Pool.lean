import Verif.Model.Pool
/-! # Lemmas about the concurrent pool model -/
namespace Tcpx

/-- The result of running a program alone. -/
inductive PExec (α : Type) where
  | done (a : α) (w : World)
  | panic (w : World)
  | blocked (w : World)

namespace PProg
variable {α β : Type}

/-- Uninterrupted execution. -/
def exec (tid : Nat) : PProg α → World → PExec α
  | .ret a, w => .done a w
  | .panic, w => .panic w
  | .act a k, w =>
    match w.act tid a with
    | some (r, w') => (k r).exec tid w'
    | none => .blocked w

theorem exec_bind (tid : Nat) (p : PProg α) (f : α → PProg β) (w : World) :
    (p.bind f).exec tid w = match p.exec tid w with
      | .done a w' => (f a).exec tid w'
      | .panic w' => .panic w'
      | .blocked w' => .blocked w' := by
  induction p generalizing w with
  | ret a => rfl
  | panic => rfl
  | act a k ih =>
    simp only [bind, exec]
    cases h : w.act tid a with
    | none => rfl
    | some x => exact ih x.1 x.2

theorem bind_bind {γ : Type} (p : PProg α) (f : α → PProg β) (g : β → PProg γ) :
    (p.bind f).bind g = p.bind (fun a => (f a).bind g) := by
  induction p with
  | ret a => rfl
  | panic => rfl
  | act a k ih => simp only [bind]; congr; funext r; exact ih r

/-- All actions satisfy `P`. -/
def All (P : PAct → Prop) : PProg α → Prop
  | .ret _ => True
  | .panic => True
  | .act a k => P a ∧ ∀ r, (k r).All P

theorem All.bind {P : PAct → Prop} {p : PProg α} {f : α → PProg β} (hp : p.All P) (hf : ∀ a, (f a).All P) : (p.bind f).All P := by
  induction p with
  | ret a => exact hf a
  | panic => trivial
  | act a k ih => exact ⟨hp.1, fun r => ih r (hp.2 r)⟩

end PProg

/-- Uninterrupted execution is what a schedule of that goroutine alone does. -/
theorem exec_is_run (y : PSys) (tid : Nat) (w : World) (p : PProg Unit) (hp : y.threads tid = p) (h : p.exec tid y.world = .done () w) :
    ∃ n, (y.run (List.replicate n tid)).world = w ∧ (y.run (List.replicate n tid)).threads tid = .ret () ∧
      ∀ i, i ≠ tid → (y.run (List.replicate n tid)).threads i = y.threads i := by
  induction p generalizing y with
  | ret a =>
    refine ⟨0, ?_, hp, fun _ _ => rfl⟩
    simp only [PProg.exec, PExec.done.injEq] at h
    exact h.2
  | panic => simp [PProg.exec] at h
  | act a k ih =>
    simp only [PProg.exec] at h
    cases hw : y.world.act tid a with
    | none => rw [hw] at h; cases h
    | some x =>
      rw [hw] at h
      have hstep : y.step tid = { world := x.2, threads := fun i => if i = tid then k x.1 else y.threads i,
                                  trace := ⟨tid, a, x.1⟩ :: y.trace } := by
        simp only [PSys.step, hp, hw]
      obtain ⟨n, h1, h2, h3⟩ := ih x.1 (y.step tid) (by rw [hstep]; simp) (by rw [hstep]; exact h)
      refine ⟨n + 1, ?_, ?_, ?_⟩
      · simpa [PSys.run, List.replicate_succ] using h1
      · simpa [PSys.run, List.replicate_succ] using h2
      · intro i hi
        have := h3 i hi
        simp only [PSys.run, List.replicate_succ, List.foldl_cons] at this ⊢
        rw [this, hstep]
        simp [hi]

/-- Induction over executions. -/
theorem PSys.run_induct {P : PSys → Prop} (y : PSys) (h0 : P y)
    (hs : ∀ z tid a k r w, P z → z.threads tid = .act a k → z.world.act tid a = some (r, w) →
      P { world := w, threads := fun i => if i = tid then k r else z.threads i, trace := ⟨tid, a, r⟩ :: z.trace })
    (sched : List Nat) : P (y.run sched) := by
  induction sched generalizing y with
  | nil => exact h0
  | cons t ts ih =>
    refine ih (y.step t) ?_
    unfold PSys.step
    cases ht : y.threads t with
    | ret a => exact h0
    | panic => exact h0
    | act a k =>
      simp only
      cases hw : y.world.act t a with
      | none => exact h0
      | some x => exact hs y t a k x.1 x.2 h0 ht hw

/-! ## Thread-wise reasoning

A `TS` assigns states to the points of a program: which actions are allowed, which results are possible, the next state. -/

structure TS (σ : Type) where
  ok : σ → PAct → Prop
  poss : σ → PAct → PVal → Prop
  next : σ → PAct → PVal → σ
  panicOk : σ → Prop

/-- The results an action can have. -/
def PAct.Typed : PAct → PVal → Prop
  | .look _ _, r => ∃ o, r = .conn o
  | .lookHeld _ _, r => ∃ o, r = .conn o
  | .keys _, r => ∃ l, r = .keys l
  | .closeEnd _, r => ∃ b, r = .bool b
  | .readOffline _, r => ∃ b, r = .bool b
  | .write _ _, r => ∃ b, r = .bool b
  | .getName _, r => ∃ o, r = .any o
  | _, r => r = .unit

theorem World.act_typed {w w' : World} {i : Nat} {a : PAct} {r : PVal} (h : w.act i a = some (r, w')) : a.Typed r := by
  cases a <;> simp only [World.act] at h <;> (try split at h) <;>
    simp only [Option.some.injEq, Prod.mk.injEq, reduceCtorEq] at h <;> obtain ⟨rfl, _⟩ := h <;> simp [PAct.Typed]

/-- From state `s` the program keeps to `t`, ending with `Q`. -/
def PProg.Tr {σ α : Type} (t : TS σ) (Q : α → σ → Prop) : σ → PProg α → Prop
  | s, .ret a => Q a s
  | s, .panic => t.panicOk s
  | s, .act a k => t.ok s a ∧ ∀ r, a.Typed r → t.poss s a r → PProg.Tr t Q (t.next s a r) (k r)

theorem PProg.tr_bind {σ α β : Type} (t : TS σ) (Q : β → σ → Prop) (p : PProg α) (f : α → PProg β) (s : σ) :
    (p.bind f).Tr t Q s ↔ p.Tr t (fun a s' => (f a).Tr t Q s') s := by
  induction p generalizing s with
  | ret a => exact Iff.rfl
  | panic => exact Iff.rfl
  | act a k ih =>
    simp only [PProg.bind, PProg.Tr]
    exact and_congr Iff.rfl (forall_congr' fun r => imp_congr Iff.rfl (imp_congr Iff.rfl (ih r _)))

theorem PProg.Tr.mono {σ α : Type} {t : TS σ} {Q Q' : α → σ → Prop} {s : σ} {p : PProg α} (h : ∀ a s, Q a s → Q' a s)
    (hp : p.Tr t Q s) : p.Tr t Q' s := by
  induction p generalizing s with
  | ret a => exact h a s hp
  | panic => exact hp
  | act a k ih => exact ⟨hp.1, fun r ht hr => ih r (hp.2 r ht hr)⟩

theorem PSys.run_tr {σ : Type} (t : TS σ) (Inv : World → List PEvent → Prop) (Rel : Nat → σ → World → List PEvent → Prop)
    (y : PSys) (h0 : Inv y.world y.trace)
    (ht : ∀ i, ∃ s, (y.threads i).Tr t (fun _ _ => True) s ∧ Rel i s y.world y.trace)
    (hs : ∀ i s w tr a r w', Inv w tr → Rel i s w tr → t.ok s a → w.act i a = some (r, w') →
      t.poss s a r ∧ Inv w' (⟨i, a, r⟩ :: tr) ∧ Rel i (t.next s a r) w' (⟨i, a, r⟩ :: tr) ∧
      ∀ j, j ≠ i → ∀ s', Rel j s' w tr → Rel j s' w' (⟨i, a, r⟩ :: tr))
    (sched : List Nat) :
    Inv (y.run sched).world (y.run sched).trace ∧
    ∀ i, ∃ s, ((y.run sched).threads i).Tr t (fun _ _ => True) s ∧ Rel i s (y.run sched).world (y.run sched).trace := by
  refine PSys.run_induct (P := fun z => Inv z.world z.trace ∧ ∀ i, ∃ s, (z.threads i).Tr t (fun _ _ => True) s ∧ Rel i s z.world z.trace)
    y ⟨h0, ht⟩ ?_ sched
  rintro z tid a k r w ⟨hi, hth⟩ hz hw
  obtain ⟨s, hs1, hs2⟩ := hth tid
  rw [hz] at hs1
  obtain ⟨q1, q2, q3, q4⟩ := hs tid s z.world z.trace a r w hi hs2 hs1.1 hw
  refine ⟨q2, fun i => ?_⟩
  by_cases h : i = tid
  · subst h
    simp only [if_true]
    exact ⟨_, hs1.2 r (World.act_typed hw) q1, q3⟩
  · simp only [if_neg h]
    obtain ⟨s', h1, h2⟩ := hth i
    exact ⟨s', h1, q4 i h s' h2⟩

/-- Code all of whose calls satisfy `P`. -/
inductive PCode.Calls (P : PCall → Prop) : PCode → Prop where
  | done : Calls P .done
  | call (c k) : P c → (∀ r, Calls P (k r)) → Calls P (.call c k)

theorem PCode.run_tr {σ : Type} (R : Nat → Option Nat) (t : TS σ) (P : PCall → Prop) (J : σ → Prop)
    (hc : ∀ c, P c → ∀ s, J s → (c.run R).Tr t (fun _ => J) s) (c : PCode) (h : c.Calls P) (s : σ) (hs : J s) :
    (c.run R).Tr t (fun _ _ => True) s := by
  induction h generalizing s with
  | done => trivial
  | call c k hp _ ih =>
    show ((c.run R).bind fun r => (k r).run R).Tr t _ s
    rw [PProg.tr_bind]
    exact (hc c hp s hs).mono fun r s' hs' => ih r s' hs'

section rules
variable {σ : Type} (t : TS σ) (s : σ)

theorem tr_monad_bind {α β : Type} (Q : β → σ → Prop) (p : PProg α) (f : α → PProg β) :
    (p >>= f).Tr t Q s ↔ p.Tr t (fun a s' => (f a).Tr t Q s') s := PProg.tr_bind t Q p f s

theorem tr_ret {α : Type} (Q : α → σ → Prop) (a : α) : (PProg.ret a).Tr t Q s ↔ Q a s := Iff.rfl

theorem tr_act {α : Type} (Q : α → σ → Prop) (a : PAct) (k : PVal → PProg α) :
    (PProg.act a k).Tr t Q s ↔ t.ok s a ∧ ∀ r, a.Typed r → t.poss s a r → (k r).Tr t Q (t.next s a r) := Iff.rfl

theorem tr_doUnit (Q : Unit → σ → Prop) (a : PAct) :
    (doUnit a).Tr t Q s ↔ t.ok s a ∧ ∀ r, a.Typed r → t.poss s a r → Q () (t.next s a r) := Iff.rfl

theorem tr_doAct (Q : PVal → σ → Prop) (a : PAct) :
    (doAct a).Tr t Q s ↔ t.ok s a ∧ ∀ r, a.Typed r → t.poss s a r → Q r (t.next s a r) := Iff.rfl

theorem tr_poolLook (Q : Option Nat → σ → Prop) (p : Nat) (u : String) :
    (poolLook p u).Tr t Q s ↔ t.ok s (.look p u) ∧ ∀ o, t.poss s (.look p u) (.conn o) → Q o (t.next s (.look p u) (.conn o)) := by
  unfold poolLook
  rw [tr_act]
  refine and_congr Iff.rfl ⟨fun h o ho => h _ ⟨o, rfl⟩ ho, ?_⟩
  rintro h _ ⟨o, rfl⟩ ho
  exact h o ho

theorem tr_isOfflineNow (Q : Bool → σ → Prop) (c : Nat) :
    (isOfflineNow c).Tr t Q s ↔ t.ok s (.readOffline c) ∧
      ∀ o, t.poss s (.readOffline c) (.bool o) → Q o (t.next s (.readOffline c) (.bool o)) := by
  unfold isOfflineNow
  rw [tr_act]
  refine and_congr Iff.rfl ⟨fun h o ho => h _ ⟨o, rfl⟩ ho, ?_⟩
  rintro h _ ⟨o, rfl⟩ ho
  exact h o ho

theorem tr_connName (Q : Option String → σ → Prop) (c : Nat) :
    (connName c).Tr t Q s ↔ t.ok s (.getName c) ∧
      (t.poss s (.getName c) (.any none) → Q none (t.next s (.getName c) (.any none))) ∧
      (∀ v, t.poss s (.getName c) (.any (some v)) →
        (∀ u, v = .str u → Q (some u) (t.next s (.getName c) (.any (some v)))) ∧
        ((∀ u, v ≠ .str u) → t.panicOk (t.next s (.getName c) (.any (some v))))) := by
  unfold connName
  rw [tr_act]
  refine and_congr Iff.rfl ⟨fun h => ⟨h _ ⟨none, rfl⟩, fun v hv => ?_⟩, ?_⟩
  · have := h _ ⟨some v, rfl⟩ hv
    cases v with
    | str u => exact ⟨fun u' e => (by cases e; exact this), fun hn => absurd rfl (hn u)⟩
    | _ => exact ⟨fun u' e => (by cases e), fun _ => this⟩
  · rintro ⟨h1, h2⟩ _ ⟨o, rfl⟩ ho
    cases o with
    | none => exact h1 ho
    | some v =>
      obtain ⟨h3, h4⟩ := h2 v ho
      cases v with
      | str u => exact h3 u rfl
      | _ => exact h4 (by simp)

end rules

end Tcpx
