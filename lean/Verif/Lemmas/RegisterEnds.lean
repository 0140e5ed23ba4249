import Verif.Lemmas.Register
/-!
# Lemmas about goroutines that register and dispatch: every execution ends
-/
namespace Tcpx
namespace Register
open Spec

/-- A bound on the steps from here to the next act of the same code, if there are never more than `N` anchors. -/
def rank (N : Nat) : Act → Nat
  | .scanLen => N + 2
  | .scan n j => n - j + 1
  | .useLook _ _ => 12
  | .urlAllow _ _ => 2
  | _ => 1

/-- The same for code. -/
def ranks (N : Nat) : List Act → Nat
  | [] => 0
  | a :: r => rank N a + ranks N r

/-- How many anchors the code may still add. -/
def adds : List Act → Nat
  | [] => 0
  | .useLook _ _ :: r => adds r + 1
  | .addAnchor :: r => adds r + 1
  | _ :: r => adds r

theorem rank_pos (N : Nat) (a : Act) : 1 ≤ rank N a := by cases a <;> simp [rank]

theorem ok_ne_nil {A : Hold → Act → Prop} {h : Hold} {r : List Act} (ho : Ok A h r) : 1 ≤ r.length := by
  cases r with
  | nil => simp only [Ok] at ho
  | cons a r => simp

theorem length_le_ranks (N : Nat) (r : List Act) : r.length ≤ ranks N r := by
  induction r with
  | nil => simp [ranks]
  | cons a r ih => have := rank_pos N a; simp only [ranks, List.length_cons]; omega

theorem unwind_ranks {A : Hold → Act → Prop} {h : Hold} (N : Nat) {r : List Act} (ho : Ok A h r) : ranks N (unwind r) ≤ ranks N r := by
  have h0 := ok_ne_nil ho
  have h1 := length_le_ranks N r
  unfold unwind
  split
  · simp only [Ok] at ho
    have h2 := ok_ne_nil ho.2
    simp only [List.length_cons] at h1
    simp only [ranks, rank] at h1 ⊢; omega
  · simp only [Ok] at ho
    have h2 := ok_ne_nil ho.2
    simp only [List.length_cons] at h1
    simp only [ranks, rank] at h1 ⊢; omega
  · simp only [ranks, rank]; omega

theorem exec_ranks {h : Hold} {a : Act} {r : List Act} (N : Nat) (hp : a.plain = true) (ho : Ok anyStep h (a :: r)) (s : Srv) (l : Loc)
    (hN : s.mux.anchors.length ≤ N) : ranks N (a.exec s l r).2.2 < ranks N (a :: r) := by
  rw [ok_plain hp] at ho
  have hu := unwind_ranks N ho.2.2.2
  have h1 := rank_pos N a
  have h2 := Nat.le_trans (ok_ne_nil ho.2.2.2) (length_le_ranks N r)
  cases a <;> simp only [Act.plain, Bool.false_eq_true] at hp <;> simp only [Act.exec]
  all_goals (repeat' split)
  all_goals (simp only [ranks, rank, locked, List.cons_append, List.nil_append] at *; try omega)

theorem unwind_adds (r : List Act) : adds (unwind r) = 0 := by unfold unwind; split <;> rfl

theorem addMiddlewareAnchor_length (m : Mux) (a : MAnchor) :
    (m.addMiddlewareAnchor a).anchors.length ≤ m.anchors.length + 1 := by
  unfold Mux.addMiddlewareAnchor; split <;> simp

theorem replaceFirst_length (a : MAnchor) (l : List MAnchor) : (Mux.replaceFirst a l).length = l.length := by
  induction l with
  | nil => rfl
  | cons v vs ih => simp only [Mux.replaceFirst]; split <;> simp [ih]

theorem replace_length (m : Mux) (a : MAnchor) : (m.replaceMiddlewareAnchor a).st.anchors.length = m.anchors.length := by
  unfold Mux.replaceMiddlewareAnchor; split
  · rfl
  · exact replaceFirst_length a m.anchors

theorem exec_adds (a : Act) (r : List Act) (hp : a.plain = true) (s : Srv) (l : Loc) :
    (a.exec s l r).1.mux.anchors.length + adds (a.exec s l r).2.2 ≤ s.mux.anchors.length + adds (a :: r) := by
  have hu := unwind_adds r
  cases a <;> simp only [Act.plain, Bool.false_eq_true] at hp
  case addAnchor =>
    simp only [Act.exec, adds]
    split
    · simp only; omega
    · next a _ => have := addMiddlewareAnchor_length s.mux a; simp only; omega
  case replAnchor =>
    simp only [Act.exec, adds]
    split
    · simp only; omega
    · next a _ =>
      have := replace_length s.mux a
      simp only
      split <;> omega
  all_goals simp only [Act.exec, adds]
  all_goals (repeat' split)
  all_goals (simp only [adds, locked, List.cons_append, List.nil_append, Mux.bump, Mux.addURLPatternHandler, hu] at *)
  all_goals (try omega)
  all_goals (split <;> simp only <;> omega)

/-- What is left for a goroutine. -/
def Gor.left (N : Nat) (g : Gor) : Nat :=
  (match g.cur with | none => 0 | some (_, r) => ranks N r + 1) + (g.todo.map fun c => ranks N c.code + 2).sum

/-- How many anchors a goroutine may still add. -/
def Gor.adds (g : Gor) : Nat :=
  (match g.cur with | none => 0 | some (_, r) => Register.adds r) + (g.todo.map fun c => Register.adds c.code).sum

theorem sum_set (f : Gor → Nat) (l : List Gor) (i : Nat) (g g' : Gor) (hg : l[i]? = some g) :
    ((l.set i g').map f).sum + f g = (l.map f).sum + f g' := by
  induction l generalizing i with
  | nil => simp at hg
  | cons x xs ih =>
    cases i with
    | zero =>
      simp only [List.getElem?_cons_zero, Option.some.injEq] at hg
      subst hg
      simp only [List.set_cons_zero, List.map_cons, List.sum_cons]; omega
    | succ i =>
      simp only [List.getElem?_cons_succ] at hg
      have := ih i hg
      simp only [List.set_cons_succ, List.map_cons, List.sum_cons]; omega

/-- What is left for all. -/
def Sys.left (N : Nat) (y : Sys) : Nat := (y.gors.map (Gor.left N)).sum

/-- A bound on the number of anchors there will ever be. -/
def Sys.bound (y : Sys) : Nat := y.srv.mux.anchors.length + (y.gors.map Gor.adds).sum

/-- A step in which something happens brings the end nearer. -/
theorem step_left {y : Sys} (h : LInv anyStep y) (N : Nat) (hN : y.bound ≤ N) (i : Nat) :
    (y.step i).bound ≤ N ∧ ((y.step i).left N < y.left N ∨ y.step i = y) := by
  have key : ∀ g g', y.gors[i]? = some g → ∀ (srv : Srv) (w : Option Nat) (rd : List Nat),
      srv.mux.anchors.length + g'.adds ≤ y.srv.mux.anchors.length + g.adds → g'.left N < g.left N →
      (Sys.mk srv w rd (y.gors.set i g')).bound ≤ N ∧
        ((Sys.mk srv w rd (y.gors.set i g')).left N < y.left N ∨ Sys.mk srv w rd (y.gors.set i g') = y) := by
    intro g g' hg srv w rd h1 h2
    have e1 := sum_set Gor.adds y.gors i g g' hg
    have e2 := sum_set (Gor.left N) y.gors i g g' hg
    simp only [Sys.bound, Sys.left] at hN ⊢
    constructor
    · omega
    · left; omega
  have hw := went y i
  generalize y.step i = z at hw
  cases hw with
  | stay => exact ⟨hN, .inr rfl⟩
  | begin g c cs hg hcur ht =>
    refine key g _ hg _ _ _ ?_ ?_
    · simp only [Gor.adds, hcur, ht, List.map_cons, List.sum_cons]; omega
    · simp only [Gor.left, hcur, ht, List.map_cons, List.sum_cons]; omega
  | lock g c r hg hcur hw hr =>
    refine key g _ hg _ _ _ ?_ ?_
    · simp only [Gor.adds, hcur, adds]; omega
    · simp only [Gor.left, hcur, ranks, rank]; omega
  | unlock g c r hg hcur hw =>
    refine key g _ hg _ _ _ ?_ ?_
    · simp only [Gor.adds, hcur, adds]; omega
    · simp only [Gor.left, hcur, ranks, rank]; omega
  | rlock g c r hg hcur hw =>
    refine key g _ hg _ _ _ ?_ ?_
    · simp only [Gor.adds, hcur, adds]; omega
    · simp only [Gor.left, hcur, ranks, rank]; omega
  | runlock g c r hg hcur hw =>
    refine key g _ hg _ _ _ ?_ ?_
    · simp only [Gor.adds, hcur, adds]; omega
    · simp only [Gor.left, hcur, ranks, rank]; omega
  | ret g c o r hg hcur =>
    refine key g _ hg _ _ _ ?_ ?_
    · simp only [Gor.adds, hcur, adds]; omega
    · simp only [Gor.left, hcur, ranks, rank]; omega
  | plain g c a r hg hcur hp =>
    have hok := (h.gor i g hg).2.1 _ _ hcur
    have h1 := exec_ranks N hp hok y.srv g.loc (by simp only [Sys.bound] at hN; omega)
    have h2 := exec_adds a r hp y.srv g.loc
    refine key g _ hg _ _ _ ?_ ?_
    · simp only [Gor.adds, hcur]; omega
    · simp only [Gor.left, hcur]; omega

theorem moves_le {y : Sys} (h : LInv anyStep y) (N : Nat) (hN : y.bound ≤ N) (sched : List Nat) : moves y sched ≤ y.left N := by
  induction sched generalizing y with
  | nil => simp [moves]
  | cons i t ih =>
    obtain ⟨h1, h2⟩ := step_left h N hN i
    have := ih (linv_step anyStep_closed h i) h1
    simp only [moves]
    rcases h2 with h2 | h2
    · split <;> omega
    · rw [if_pos h2]; rw [h2] at this; rw [h2]; omega

/-- In a call that does not wait for the mutex something happens. -/
theorem step_ne {y : Sys} (h : LInv anyStep y) (i : Nat) (g : Gor) (c : Call) (a : Act) (r : List Act) (hg : y.gors[i]? = some g)
    (hcur : g.cur = some (c, a :: r)) (hl : a ≠ .lock) (hrl : a ≠ .rlock) : y.step i ≠ y := by
  have hne : ∀ g' : Gor, g' ≠ g → y.gors.set i g' ≠ y.gors := by
    intro g' hd e
    have hi : i < y.gors.length := (List.getElem?_eq_some_iff.1 hg).1
    have : (y.gors.set i g')[i]? = some g' := by simp [hi]
    rw [e, hg] at this
    exact hd (by simpa using this.symm)
  have hok := (h.gor i g hg).2.1 _ _ hcur
  have hlen : ∀ (r' : List Act) (l : Loc), r' ≠ a :: r → { g with cur := some (c, r'), loc := l } ≠ g := by
    intro r' l hr' e
    have := congrArg Gor.cur e
    simp only [hcur, Option.some.injEq, Prod.mk.injEq, true_and] at this
    exact hr' this
  intro e
  have eg : (y.step i).gors = y.gors := by rw [e]
  cases hp : a.plain with
  | true =>
    rw [step_plain y i g c a r hg hcur hp] at eg
    refine hne _ (hlen _ _ ?_) eg
    have := exec_ranks y.srv.mux.anchors.length hp hok y.srv g.loc (Nat.le_refl _)
    intro e'; rw [e'] at this; omega
  | false =>
    cases a <;> simp only [Act.plain, Bool.true_eq_false] at hp
    · exact hl rfl
    · simp only [Ok] at hok
      have hw : y.writer = some i := by
        have := hok.1
        unfold holdOf at this
        split at this
        · assumption
        · split at this <;> cases this
      simp only [Sys.step, hg, hcur, hw, if_true] at eg
      exact hne _ (hlen _ g.loc (by simp)) eg
    · exact hrl rfl
    · simp only [Ok] at hok
      have hw : i ∈ y.readers := by
        have := hok.1
        unfold holdOf at this
        split at this
        · cases this
        · split at this
          · assumption
          · cases this
      simp only [Sys.step, hg, hcur, hw, if_true] at eg
      exact hne _ (hlen _ g.loc (by simp)) eg
    · simp only [Sys.step, hg, hcur] at eg
      refine hne _ ?_ eg
      intro e'
      have := congrArg Gor.cur e'
      rw [hcur] at this; cases this

theorem progress {y : Sys} (h : LInv anyStep y) (hd : ¬ AllDone y) : ∃ i, y.step i ≠ y := by
  have inCall : ∀ i, holdOf y i ≠ .no → ∃ i, y.step i ≠ y := by
    intro i hi
    have hlt := h.held i hi
    have hg : y.gors[i]? = some y.gors[i] := by simp [hlt]
    obtain ⟨h1, h2, _⟩ := h.gor i _ hg
    cases hc : (y.gors[i]).cur with
    | none => exact absurd (h1 hc) hi
    | some p =>
      obtain ⟨c, r⟩ := p
      have hok := h2 _ _ hc
      cases r with
      | nil => simp only [Ok] at hok
      | cons a r =>
        refine ⟨i, step_ne h i _ c a r hg hc ?_ ?_⟩
        · rintro rfl; simp only [Ok] at hok; exact hi hok.1
        · rintro rfl; simp only [Ok] at hok; exact hi hok.1
  by_cases hx : ∃ i, holdOf y i ≠ .no
  · obtain ⟨i, hi⟩ := hx; exact inCall i hi
  · have hn : ∀ i, holdOf y i = .no := fun i => Classical.byContradiction fun e => hx ⟨i, e⟩
    have hw : y.writer = none := by
      cases e : y.writer with
      | none => rfl
      | some k => have := hn k; simp [holdOf, e] at this
    have hr : y.readers = [] := by
      cases e : y.readers with
      | nil => rfl
      | cons k t => have := hn k; simp [holdOf, hw, e] at this
    have : ∃ g ∈ y.gors, ¬ (g.cur = none ∧ g.todo = []) :=
      Classical.byContradiction fun e => hd fun g hg => Classical.byContradiction fun e' => e ⟨g, hg, e'⟩
    obtain ⟨g, hg, hgd⟩ := this
    obtain ⟨i, hlt, rfl⟩ := List.getElem_of_mem hg
    have hg : y.gors[i]? = some y.gors[i] := by simp [hlt]
    have hset : ∀ g' : Gor, g' ≠ y.gors[i] → y.gors.set i g' ≠ y.gors := by
      intro g' hd e
      have : (y.gors.set i g')[i]? = some g' := by simp [hlt]
      rw [e, hg] at this
      exact hd (by simpa using this.symm)
    refine ⟨i, ?_⟩
    cases hc : (y.gors[i]).cur with
    | none =>
      cases ht : (y.gors[i]).todo with
      | nil => exact absurd ⟨hc, ht⟩ hgd
      | cons c cs =>
        intro e
        have eg : (y.step i).gors = y.gors := by rw [e]
        simp only [Sys.step, hg, hc, ht] at eg
        refine hset _ ?_ eg
        intro e'
        have := congrArg Gor.cur e'
        rw [hc] at this; cases this
    | some p =>
      obtain ⟨c, r⟩ := p
      have hok := (h.gor i _ hg).2.1 _ _ hc
      cases r with
      | nil => simp only [Ok] at hok
      | cons a r =>
        by_cases hl : a = .lock
        · subst hl
          intro e
          have : (y.step i).writer = y.writer := by rw [e]
          simp only [Sys.step, hg, hc, hw, hr, and_self, if_true] at this
          cases this
        · by_cases hrl : a = .rlock
          · subst hrl
            intro e
            have : (y.step i).readers = y.readers := by rw [e]
            simp only [Sys.step, hg, hc, hw, hr, if_true] at this
            cases this
          · exact step_ne h i _ c a r hg hc hl hrl

theorem start_inv (s : Srv) (progs : List (List Call)) (sched : List Nat) : LInv anyStep ((start s progs).run sched) :=
  linv_run anyStep_closed (linv_start s progs fun _ _ c _ => code_anyStep c) sched

end Register
end Tcpx
