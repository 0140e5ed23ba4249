import Verif.Lemmas.RegisterEnds
/-!
# Lemmas about goroutines that register and dispatch: the registrations for one id
-/
namespace Tcpx
namespace Register
open Spec

/-- The step may put something under the id. -/
def Act.touches (id : Int32) : Act → Bool
  | .selfMw i _ => i = id
  | .handle i _ => i = id
  | .idAnchor i => i = id
  | _ => false

/-- The step takes away what there is for the id read before. -/
def Act.dels : Act → Bool
  | .delHandler => true
  | .delIdAnchor => true
  | _ => false

/-- No goroutine is about to take away what there is for the id. -/
def NoDel (id : Int32) (y : Sys) : Prop :=
  ∀ g ∈ y.gors, ∀ c a r, g.cur = some (c, a :: r) → a.dels = true → g.loc.hb ≠ id

/-- Nothing changes for the id. -/
structure Same (id : Int32) (s s' : Srv) : Prop where
  h : s'.mux.handlers.get? id = s.mux.handlers.get? id
  m : s'.mux.selfMw.get? id = s.mux.selfMw.get? id
  a : s'.mux.idAnchors.get? id = s.mux.idAnchors.get? id
  al : s'.mux.allowAdd = s.mux.allowAdd
  sd : s.mux.seed ≤ s'.mux.seed

theorem Same.rfl' (id : Int32) (s : Srv) : Same id s s := ⟨rfl, rfl, rfl, rfl, Nat.le_refl _⟩

theorem exec_same (id : Int32) (a : Act) (ht : a.touches id = false) (s : Srv) (l : Loc) (hd : a.dels = true → l.hb ≠ id) (r : List Act) :
    Same id s (a.exec s l r).1 := by
  cases a
  case selfMw i ms =>
    have hne : ¬ id = i := by rintro rfl; simp [Act.touches] at ht
    simp only [Act.exec]; split
    · exact Same.rfl' _ _
    · dsimp only; split
      · exact Same.rfl' _ _
      · exact ⟨rfl, (by simp only [GoMap.get?_set]; rw [if_neg hne]), rfl, rfl, Nat.le_refl _⟩
  case handle i f =>
    have hne : ¬ id = i := by rintro rfl; simp [Act.touches] at ht
    simp only [Act.exec]; split
    · exact Same.rfl' _ _
    · exact ⟨(by simp only [GoMap.get?_set]; rw [if_neg hne]), rfl, rfl, rfl, Nat.le_refl _⟩
  case idAnchor i =>
    have hne : ¬ id = i := by rintro rfl; simp [Act.touches] at ht
    simp only [Act.exec]; split
    · exact Same.rfl' _ _
    · exact ⟨rfl, rfl, (by simp only [GoMap.get?_set]; rw [if_neg hne]), rfl, Nat.le_refl _⟩
  case delHandler =>
    have hne : ¬ id = l.hb := fun e => hd rfl e.symm
    exact ⟨(by simp only [Act.exec, GoMap.get?_delete, if_neg hne]), rfl, rfl, rfl, Nat.le_refl _⟩
  case delIdAnchor =>
    have hne : ¬ id = l.hb := fun e => hd rfl e.symm
    exact ⟨rfl, rfl, (by simp only [Act.exec, GoMap.get?_delete, if_neg hne]), rfl, Nat.le_refl _⟩
  case index => exact ⟨rfl, rfl, rfl, rfl, Nat.le_succ _⟩
  case replAnchor =>
    simp only [Act.exec]; split
    · exact Same.rfl' _ _
    · dsimp only; unfold Mux.replaceMiddlewareAnchor
      split <;> exact ⟨rfl, rfl, rfl, rfl, Nat.le_refl _⟩
  case addAnchor =>
    simp only [Act.exec]; split
    · exact Same.rfl' _ _
    · dsimp only; unfold Mux.addMiddlewareAnchor
      split <;> exact ⟨rfl, rfl, rfl, rfl, Nat.le_refl _⟩
  case urlPut =>
    simp only [Act.exec]
    unfold Mux.addURLPatternHandler
    split <;> exact ⟨rfl, rfl, rfl, rfl, Nat.le_refl _⟩
  all_goals simp only [Act.exec]
  all_goals (repeat' split)
  all_goals exact ⟨rfl, rfl, rfl, rfl, Nat.le_refl _⟩

theorem unwind_touches (id : Int32) (r : List Act) : ∀ a ∈ unwind r, a.touches id = false := by
  unfold unwind; split <;> simp [Act.touches]

theorem exec_touches (id : Int32) (a : Act) (s : Srv) (l : Loc) (r : List Act) (hr : ∀ b ∈ r, b.touches id = false) :
    ∀ b ∈ (a.exec s l r).2.2, b.touches id = false := by
  have hu := unwind_touches id r
  cases a <;> simp only [Act.exec]
  all_goals (repeat' split)
  all_goals first
    | exact hr
    | exact hu
    | (intro b hb; simp only [locked, List.cons_append, List.nil_append, List.mem_cons, List.not_mem_nil, or_false] at hb
       rcases hb with rfl | hb
       · rfl
       · exact hr b hb)
    | (simp [locked, Act.touches])

/-- The call is `RewriteHeartBeatHandler`. -/
def Call.rewrites : Call → Bool
  | .rewriteHeartBeat _ _ => true
  | _ => false

theorem addHandlerCode_touches (id id' : Int32) (hs : List H) (h : id' ≠ id) : ∀ a ∈ addHandlerCode id' hs, a.touches id = false := by
  unfold addHandlerCode
  split
  · simp [Act.touches]
  · split <;> simp [locked, Act.touches, h]

theorem code_touches (id : Int32) (c : Call) (hc : registersId id c = false) (hr : ∀ f, c ≠ .rewriteHeartBeat id f) :
    ∀ a ∈ c.code, a.touches id = false := by
  cases c with
  | addHandler id' hs =>
    have : id' ≠ id := by rintro rfl; simp [registersId] at hc
    exact addHandlerCode_touches id id' hs this
  | useGlobal ms => simp [Call.code, locked, Act.touches]
  | use k f => simp [Call.code, Act.touches]
  | unUse k => simp [Call.code, locked, Act.touches]
  | any p hs => simp only [Call.code, anyCode]; (repeat' split) <;> simp [locked, Act.touches]
  | rewriteHeartBeat id' f =>
    have : id' ≠ id := by rintro rfl; exact hr f rfl
    intro a ha
    simp only [Call.code, List.mem_append, List.mem_cons, List.not_mem_nil, or_false] at ha
    rcases ha with (rfl | rfl | rfl | rfl) | ha
    · rfl
    · rfl
    · rfl
    · rfl
    · exact addHandlerCode_touches id id' [f] this a ha
  | listen => simp [Call.code, Act.touches]
  | byId i => simp [Call.code, rlocked, Act.touches]
  | byUrl p => simp [Call.code, rlocked, Act.touches]

/-! ## Where a call of `AddHandler` is -/

/-- The code of `AddHandler` with middlewares. -/
def full (id : Int32) (hs : List H) (f : H) : List Act :=
  [.lock, .selfMw id hs.dropLast, .unlock, .allow, .lock, .handle id f, .unlock, .index, .lock, .idAnchor id, .unlock, .ret .returned]

theorem code_full (id : Int32) (hs : List H) (f : H) (hf : hs.getLast? = some f) :
    addHandlerCode id hs = (full id hs f).drop (if hs.length > 1 then 0 else 3) := by
  unfold addHandlerCode
  simp only [hf]
  split <;> simp [full, locked]

/-- `k` steps of the code are behind. -/
structure OnId (id : Int32) (seed0 : Nat) (s : Srv) (hs : List H) (f : H) (k : Nat) (r : List Act) (l : Loc) : Prop where
  last : hs.getLast? = some f
  le : k ≤ 11
  code : r = (full id hs f).drop k
  short : hs.length ≤ 1 → 3 ≤ k
  self : 2 ≤ k → hs.length > 1 → s.mux.selfMw.get? id = some hs.dropLast
  hand : 6 ≤ k → s.mux.handlers.get? id = some f
  idx : 8 ≤ k → seed0 < l.idx ∧ l.idx ≤ s.mux.seed
  notyet : 6 ≤ k → k < 10 → s.mux.idAnchors.get? id = none
  anch : 10 ≤ k → (s.mux.idAnchors.get? id).isSome = true

/-- A call that has been refused. -/
def Refused (r : List Act) : Prop := r = [.unlock, .ret .panicked] ∨ r = [.ret .panicked]

/-- What the calls of a goroutine that register for `id` have done. -/
structure GorInv (id : Int32) (seed0 : Nat) (s : Srv) (g : Gor) : Prop where
  ret : ∀ hs, (.addHandler id hs, .returned) ∈ g.log → hs ≠ [] ∧ s.mux.handlers.get? id = hs.getLast? ∧
    (hs.length > 1 → s.mux.selfMw.get? id = some hs.dropLast) ∧ (s.mux.idAnchors.get? id).isSome = true
  ref : ∀ hs, (.addHandler id hs, .panicked) ∈ g.log → hs ≠ [] →
    (s.mux.selfMw.get? id).isSome = true ∨ (s.mux.handlers.get? id).isSome = true
  out : ∀ hs o, (.addHandler id hs, o) ∈ g.log → o = .returned ∨ o = .panicked
  cur : ∀ c r, g.cur = some (c, r) →
    (∃ hs f, c = .addHandler id hs ∧ hs.getLast? = some f ∧
      ((∃ k, OnId id seed0 s hs f k r g.loc) ∨
        (Refused r ∧ ((s.mux.selfMw.get? id).isSome = true ∨ (s.mux.handlers.get? id).isSome = true)))) ∨
    (c = .addHandler id [] ∧ r = [.ret .panicked]) ∨
    (registersId id c = false ∧ ∀ a ∈ r, a.touches id = false)

/-- A call for `id` that has its handler in the mux and is not over. -/
def passing (id : Int32) (g : Gor) : Nat :=
  match g.cur with
  | some (c, r) => if registersId id c = true ∧ r.length ≤ 6 ∧ r.getLast? = some (.ret .returned) then 1 else 0
  | none => 0

/-- The calls for `id` that have put their handler into the mux. -/
def passes (id : Int32) (g : Gor) : Nat :=
  passing id g + g.log.countP fun e => registersId id e.1 && e.2 == .returned

/-- A call that has put its middlewares into the mux and not yet its handler. -/
def HalfWay (id : Int32) (g : Gor) : Prop :=
  ∃ hs f r k, g.cur = some (.addHandler id hs, r) ∧ hs.getLast? = some f ∧ r = (full id hs f).drop k ∧ 2 ≤ k ∧ k < 6

/-- The state of the registrations for one id. -/
structure IdInv (id : Int32) (seed0 : Nat) (progs : List (List Call)) (y : Sys) : Prop where
  allow : y.srv.mux.allowAdd = true
  seed : seed0 ≤ y.srv.mux.seed
  sum : (y.gors.map (passes id)).sum = if (y.srv.mux.handlers.get? id).isSome then 1 else 0
  noneA : y.srv.mux.handlers.get? id = none → y.srv.mux.idAnchors.get? id = none
  anch : ∀ k, y.srv.mux.idAnchors.get? id = some k → seed0 < k ∧ k ≤ y.srv.mux.seed
  self : ∀ ms, y.srv.mux.selfMw.get? id = some ms →
    (∃ p ∈ progs, ∃ hs, .addHandler id hs ∈ p ∧ hs.length > 1 ∧ ms = hs.dropLast) ∧
    ((y.srv.mux.handlers.get? id).isSome = true ∨ ∃ g ∈ y.gors, HalfWay id g)
  gor : ∀ (i : Nat) (g : Gor), y.gors[i]? = some g → GorInv id seed0 y.srv g
  prog : ∀ (i : Nat) (g : Gor), y.gors[i]? = some g →
    progs[i]? = some (g.log.reverse.map (·.1) ++ ((g.cur.map (·.1)).toList ++ g.todo))

theorem GorInv.same {id : Int32} {seed0 : Nat} {s s' : Srv} {g : Gor} (h : GorInv id seed0 s g) (hs : Same id s s') :
    GorInv id seed0 s' g := by
  obtain ⟨h1, h2, h3, h4⟩ := h
  refine ⟨?_, ?_, h3, ?_⟩
  · rw [hs.h, hs.m, hs.a]; exact h1
  · rw [hs.h, hs.m]; exact h2
  · intro c r e
    rcases h4 c r e with ⟨hs', f, e1, e2, h⟩ | h | h
    · refine .inl ⟨hs', f, e1, e2, ?_⟩
      rw [hs.h, hs.m]
      rcases h with ⟨k, h⟩ | h
      · refine .inl ⟨k, h.last, h.le, h.code, h.short, ?_, ?_, ?_, ?_, ?_⟩
        · rw [hs.m]; exact h.self
        · rw [hs.h]; exact h.hand
        · intro hk; have := h.idx hk; have := hs.sd; omega
        · rw [hs.a]; exact h.notyet
        · rw [hs.a]; exact h.anch
      · exact .inr h
    · exact .inr (.inl h)
    · exact .inr (.inr h)

theorem sum_mem (f : Gor → Nat) (l : List Gor) (i : Nat) (g : Gor) (hg : l[i]? = some g) : f g ≤ (l.map f).sum := by
  induction l generalizing i with
  | nil => simp at hg
  | cons x xs ih =>
    cases i with
    | zero =>
      simp only [List.getElem?_cons_zero, Option.some.injEq] at hg
      subst hg
      simp only [List.map_cons, List.sum_cons]; omega
    | succ i =>
      simp only [List.getElem?_cons_succ] at hg
      have := ih i hg
      simp only [List.map_cons, List.sum_cons]; omega

theorem sum_two (f : Gor → Nat) (l : List Gor) (i j : Nat) (g g' : Gor) (hg : l[i]? = some g) (hg' : l[j]? = some g') (hne : i ≠ j) :
    f g + f g' ≤ (l.map f).sum := by
  induction l generalizing i j with
  | nil => simp at hg
  | cons x xs ih =>
    cases i with
    | zero =>
      cases j with
      | zero => exact absurd rfl hne
      | succ j =>
        simp only [List.getElem?_cons_zero, Option.some.injEq] at hg
        simp only [List.getElem?_cons_succ] at hg'
        subst hg
        have := sum_mem f xs j g' hg'
        simp only [List.map_cons, List.sum_cons]; omega
    | succ i =>
      cases j with
      | zero =>
        simp only [List.getElem?_cons_zero, Option.some.injEq] at hg'
        simp only [List.getElem?_cons_succ] at hg
        subst hg'
        have := sum_mem f xs i g hg
        simp only [List.map_cons, List.sum_cons]; omega
      | succ j =>
        simp only [List.getElem?_cons_succ] at hg hg'
        have := ih i j hg hg' (fun e => hne (by rw [e]))
        simp only [List.map_cons, List.sum_cons]; omega

/-- A step that changes nothing for the id. -/
theorem IdInv.quiet {id : Int32} {seed0 : Nat} {progs : List (List Call)} {y : Sys} (h : IdInv id seed0 progs y) {i : Nat} {g g' : Gor}
    (hg : y.gors[i]? = some g) {s : Srv} (hs : Same id y.srv s) (w : Option Nat) (rd : List Nat)
    (h1 : GorInv id seed0 s g') (h2 : passes id g' = passes id g)
    (h3 : g'.log.reverse.map (·.1) ++ ((g'.cur.map (·.1)).toList ++ g'.todo) = g.log.reverse.map (·.1) ++ ((g.cur.map (·.1)).toList ++ g.todo))
    (h4 : HalfWay id g → (s.mux.handlers.get? id).isSome = true ∨ HalfWay id g') :
    IdInv id seed0 progs ⟨s, w, rd, y.gors.set i g'⟩ := by
  have hsd := hs.sd
  have hsd0 := h.seed
  have hlt : i < y.gors.length := (List.getElem?_eq_some_iff.1 hg).1
  refine ⟨(by rw [← h.allow]; exact hs.al), (by show seed0 ≤ s.mux.seed; omega), ?_, ?_, ?_, ?_, ?_, ?_⟩
  · show ((y.gors.set i g').map (passes id)).sum = if (s.mux.handlers.get? id).isSome then 1 else 0
    rw [hs.h, ← h.sum]
    have := sum_set (passes id) y.gors i g g' hg
    omega
  · show s.mux.handlers.get? id = none → s.mux.idAnchors.get? id = none
    rw [hs.h, hs.a]; exact h.noneA
  · intro k hk
    have := h.anch k (by rw [← hs.a]; exact hk)
    exact ⟨this.1, by show k ≤ s.mux.seed; omega⟩
  · intro ms hm
    obtain ⟨a, b⟩ := h.self ms (by rw [← hs.m]; exact hm)
    refine ⟨a, ?_⟩
    rcases b with b | ⟨g0, hg0, hw⟩
    · left; show (s.mux.handlers.get? id).isSome = true; rw [hs.h]; exact b
    · obtain ⟨j, hj, rfl⟩ := List.getElem_of_mem hg0
      by_cases e : j = i
      · subst e
        have : y.gors[j] = g := by
          have := hg; rw [List.getElem?_eq_getElem hj] at this; simpa using this
        rw [this] at hw
        rcases h4 hw with h4 | h4
        · exact .inl h4
        · exact .inr ⟨g', List.mem_iff_getElem?.2 ⟨j, by simp [hj]⟩, h4⟩
      · right
        refine ⟨y.gors[j], List.mem_iff_getElem?.2 ⟨j, ?_⟩, hw⟩
        show (y.gors.set i g')[j]? = _
        rw [List.getElem?_set_ne (Ne.symm e)]; simp [hj]
  · intro j gj hj
    rcases get_set _ _ _ _ _ hj with ⟨rfl, rfl, _⟩ | ⟨_, hj⟩
    · exact h1
    · exact (h.gor j gj hj).same hs
  · intro j gj hj
    rcases get_set _ _ _ _ _ hj with ⟨rfl, rfl, _⟩ | ⟨_, hj⟩
    · rw [h3]; exact h.prog _ _ hg
    · exact h.prog j gj hj

/-- What is left of the code, step by step. -/
theorem drop_full {id : Int32} {hs : List H} {f : H} {k : Nat} {a : Act} {r : List Act} (hk : k ≤ 11) (h : (full id hs f).drop k = a :: r) :
    r = (full id hs f).drop (k + 1) ∧ r.length = 11 - k ∧
    (k = 0 ∧ a = .lock ∨ k = 1 ∧ a = .selfMw id hs.dropLast ∨ k = 2 ∧ a = .unlock ∨ k = 3 ∧ a = .allow ∨ k = 4 ∧ a = .lock ∨
     k = 5 ∧ a = .handle id f ∨ k = 6 ∧ a = .unlock ∨ k = 7 ∧ a = .index ∨ k = 8 ∧ a = .lock ∨ k = 9 ∧ a = .idAnchor id ∨
     k = 10 ∧ a = .unlock ∨ k = 11 ∧ a = .ret .returned) := by
  have hc : k = 0 ∨ k = 1 ∨ k = 2 ∨ k = 3 ∨ k = 4 ∨ k = 5 ∨ k = 6 ∨ k = 7 ∨ k = 8 ∨ k = 9 ∨ k = 10 ∨ k = 11 := by omega
  rcases hc with rfl | rfl | rfl | rfl | rfl | rfl | rfl | rfl | rfl | rfl | rfl | rfl <;>
    (simp only [full, List.drop_succ_cons, List.drop_zero, List.cons.injEq] at h
     obtain ⟨rfl, rfl⟩ := h
     simp [full])

theorem full_last (id : Int32) (hs : List H) (f : H) (k : Nat) (hk : k ≤ 11) :
    ((full id hs f).drop k).getLast? = some (.ret .returned) := by
  have hc : k = 0 ∨ k = 1 ∨ k = 2 ∨ k = 3 ∨ k = 4 ∨ k = 5 ∨ k = 6 ∨ k = 7 ∨ k = 8 ∨ k = 9 ∨ k = 10 ∨ k = 11 := by omega
  rcases hc with rfl | rfl | rfl | rfl | rfl | rfl | rfl | rfl | rfl | rfl | rfl | rfl <;> rfl

theorem full_length (id : Int32) (hs : List H) (f : H) (k : Nat) : ((full id hs f).drop k).length = 12 - k := by
  simp [full]

theorem passing_full {id : Int32} {hs : List H} {f : H} {k : Nat} {r : List Act} {g : Gor} (hc : g.cur = some (.addHandler id hs, r))
    (hk : k ≤ 11) (hr : r = (full id hs f).drop k) : passing id g = if 6 ≤ k then 1 else 0 := by
  unfold passing
  rw [hc]
  have h1 := full_length id hs f k
  have h2 := full_last id hs f k hk
  rw [← hr] at h1 h2
  simp only [registersId, decide_true, h1, h2, true_and, and_true]
  by_cases h : 6 ≤ k
  · rw [if_pos (by omega), if_pos h]
  · rw [if_neg (by omega), if_neg h]

theorem passing_refused {id : Int32} {c : Call} {r : List Act} {g : Gor} (hc : g.cur = some (c, r)) (hr : Refused r) : passing id g = 0 := by
  unfold passing
  rw [hc]
  rcases hr with rfl | rfl <;> simp

theorem passing_other {id : Int32} {c : Call} {r : List Act} {g : Gor} (hc : g.cur = some (c, r)) (hn : registersId id c = false) :
    passing id g = 0 := by
  unfold passing
  rw [hc]
  simp [hn]

theorem unwind_unlock (r : List Act) : Refused (unwind (.unlock :: r)) := .inl rfl

/-- A step of a call that registers for `id`, other than the three that write. -/
theorem OnId.next {id : Int32} {seed0 : Nat} {s s' : Srv} {hs : List H} {f : H} {k : Nat} {r : List Act} {l l' : Loc}
    (h : OnId id seed0 s hs f k r l) (hk : k < 11) (h1 : k ≠ 1) (h5 : k ≠ 5) (h9 : k ≠ 9) (hs' : Same id s s')
    (hl : 8 ≤ k + 1 → seed0 < l'.idx ∧ l'.idx ≤ s'.mux.seed) : OnId id seed0 s' hs f (k + 1) ((full id hs f).drop (k + 1)) l' := by
  refine ⟨h.last, by omega, rfl, ?_, ?_, ?_, hl, ?_, ?_⟩
  · intro e; have := h.short e; omega
  · intro e; rw [hs'.m]; exact h.self (by omega)
  · intro e; rw [hs'.h]; exact h.hand (by omega)
  · intro e e'; rw [hs'.a]; exact h.notyet (by omega) (by omega)
  · intro e; rw [hs'.a]; exact h.anch (by omega)

/-- A step that is neither the end of the call nor one of the three writes of its own id. -/
theorem IdInv.advance {id : Int32} {seed0 : Nat} {progs : List (List Call)} {y : Sys} (h : IdInv id seed0 progs y) {i : Nat} {g : Gor}
    (hg : y.gors[i]? = some g) {c : Call} {a : Act} {r : List Act} (hcur : g.cur = some (c, a :: r)) {s : Srv} (hs : Same id y.srv s)
    (w : Option Nat) (rd : List Nat) (ha : a.touches id = false) (hret : ∀ o, a ≠ .ret o) {l : Loc} {r' : List Act}
    (hidx : a ≠ .index → l.idx = g.loc.idx ∨ registersId id c = false)
    (hidx' : a = .index → l.idx = s.mux.seed ∧ seed0 < s.mux.seed)
    (hr : registersId id c = true → r' = r) (hr' : (∀ b ∈ r, b.touches id = false) → ∀ b ∈ r', b.touches id = false) :
    IdInv id seed0 progs ⟨s, w, rd, y.gors.set i { g with cur := some (c, r'), loc := l }⟩ := by
  have hgi := h.gor i g hg
  have hseed := hs.sd
  have key : (∀ hs0 f, c = .addHandler id hs0 → hs0.getLast? = some f →
      ((∃ k, OnId id seed0 y.srv hs0 f k (a :: r) g.loc) ∨
        (Refused (a :: r) ∧ ((y.srv.mux.selfMw.get? id).isSome = true ∨ (y.srv.mux.handlers.get? id).isSome = true))) →
      ((∃ k, OnId id seed0 s hs0 f k r' l) ∨
        (Refused r' ∧ ((s.mux.selfMw.get? id).isSome = true ∨ (s.mux.handlers.get? id).isSome = true))) ∧
      passing id { g with cur := some (c, r'), loc := l } = passing id g) := by
    intro hs0 f hc hf hh
    subst hc
    have er : r' = r := hr (by simp [registersId])
    subst er
    rcases hh with ⟨k, hk⟩ | ⟨href, hst⟩
    · obtain ⟨e1, e2, e3⟩ := drop_full hk.le hk.code.symm
      have hcase : k < 11 ∧ k ≠ 1 ∧ k ≠ 5 ∧ k ≠ 9 := by
        have hle := hk.le
        rcases e3 with ⟨rfl, rfl⟩ | ⟨rfl, rfl⟩ | ⟨rfl, rfl⟩ | ⟨rfl, rfl⟩ | ⟨rfl, rfl⟩ | ⟨rfl, rfl⟩ | ⟨rfl, rfl⟩ | ⟨rfl, rfl⟩ | ⟨rfl, rfl⟩ |
          ⟨rfl, rfl⟩ | ⟨rfl, rfl⟩ | ⟨rfl, rfl⟩ <;> first
            | omega
            | (simp [Act.touches] at ha; done)
            | exact absurd rfl (hret _)
      obtain ⟨k1, k2, k3, k4⟩ := hcase
      refine ⟨.inl ⟨k + 1, ?_⟩, ?_⟩
      · rw [e1]
        refine hk.next k1 k2 k3 k4 hs ?_
        intro hk8
        by_cases hia : a = .index
        · obtain ⟨q1, q2⟩ := hidx' hia; rw [q1]; exact ⟨q2, Nat.le_refl _⟩
        · have hk8' : 8 ≤ k := by
            rcases e3 with ⟨rfl, rfl⟩ | ⟨rfl, rfl⟩ | ⟨rfl, rfl⟩ | ⟨rfl, rfl⟩ | ⟨rfl, rfl⟩ | ⟨rfl, rfl⟩ | ⟨rfl, rfl⟩ | ⟨rfl, rfl⟩ | ⟨rfl, rfl⟩ |
              ⟨rfl, rfl⟩ | ⟨rfl, rfl⟩ | ⟨rfl, rfl⟩ <;> first
                | omega
                | exact absurd rfl hia
          have := hk.idx hk8'
          rcases hidx hia with q | q
          · rw [q]; omega
          · simp [registersId] at q
      · rw [passing_full (g := { g with cur := some (.addHandler id hs0, r'), loc := l }) rfl (by omega) e1, passing_full hcur hk.le hk.code]
        by_cases hk6 : 6 ≤ k
        · rw [if_pos hk6, if_pos (by omega)]
        · rw [if_neg hk6, if_neg (by omega)]
    · have hr2 : Refused r' := by
        rcases href with e | e
        · simp only [List.cons.injEq] at e; obtain ⟨_, rfl⟩ := e; exact .inr rfl
        · simp only [List.cons.injEq] at e; exact absurd e.1 (hret _)
      refine ⟨.inr ⟨hr2, ?_⟩, ?_⟩
      · rw [hs.m, hs.h]; exact hst
      · rw [passing_refused (g := { g with cur := some (.addHandler id hs0, r'), loc := l }) rfl hr2, passing_refused hcur href]
  refine h.quiet hg hs w rd ?_ ?_ ?_ ?_
  · have hgs := hgi.same hs
    refine ⟨hgs.ret, hgs.ref, hgs.out, ?_⟩
    intro c' r'' e
    simp only [Option.some.injEq, Prod.mk.injEq] at e
    obtain ⟨rfl, rfl⟩ := e
    rcases hgi.cur _ _ hcur with ⟨hs0, f, e1, e2, hh⟩ | ⟨e1, e2⟩ | ⟨e1, e2⟩
    · exact .inl ⟨hs0, f, e1, e2, (key hs0 f e1 e2 hh).1⟩
    · simp only [List.cons.injEq] at e2; exact absurd e2.1 (hret _)
    · exact .inr (.inr ⟨e1, hr' fun b hb => e2 b (List.mem_cons_of_mem _ hb)⟩)
  · simp only [passes]
    congr 1
    rcases hgi.cur _ _ hcur with ⟨hs0, f, e1, e2, hh⟩ | ⟨e1, e2⟩ | ⟨e1, e2⟩
    · exact (key hs0 f e1 e2 hh).2
    · simp only [List.cons.injEq] at e2; exact absurd e2.1 (hret _)
    · rw [passing_other (g := { g with cur := some (c, r'), loc := l }) rfl e1, passing_other hcur e1]
  · rw [hcur]; rfl
  · rintro ⟨hs0, f, r0, k, q1, q2, q3, q4, q5⟩
    rw [hcur] at q1
    simp only [Option.some.injEq, Prod.mk.injEq] at q1
    obtain ⟨rfl, rfl⟩ := q1
    obtain ⟨e1, e2, e3⟩ := drop_full (by omega) q3.symm
    have hk5 : k ≠ 5 := by
      rintro rfl
      rcases e3 with ⟨q, _⟩ | ⟨q, _⟩ | ⟨q, _⟩ | ⟨q, _⟩ | ⟨q, _⟩ | ⟨q, rfl⟩ | ⟨q, _⟩ | ⟨q, _⟩ | ⟨q, _⟩ | ⟨q, _⟩ | ⟨q, _⟩ | ⟨q, _⟩ <;>
        first | omega | (simp [Act.touches] at ha; done)
    right
    refine ⟨hs0, f, r', k + 1, rfl, q2, ?_, by omega, by omega⟩
    rw [hr (by simp [registersId])]; exact e1

/-- A registration that is refused. -/
theorem IdInv.refuse {id : Int32} {seed0 : Nat} {progs : List (List Call)} {y : Sys} (h : IdInv id seed0 progs y) {i : Nat} {g : Gor}
    (hg : y.gors[i]? = some g) {hs : List H} {f : H} {a : Act} {r : List Act} (hcur : g.cur = some (.addHandler id hs, a :: r)) (hf : hs.getLast? = some f)
    {k : Nat} (hk : OnId id seed0 y.srv hs f k (a :: r) g.loc) (hk5 : k = 1 ∨ k = 5)
    (hst : (k = 1 ∧ (y.srv.mux.selfMw.get? id).isSome = true) ∨ (y.srv.mux.handlers.get? id).isSome = true) {r' : List Act} (hr : Refused r') :
    IdInv id seed0 progs ⟨y.srv, y.writer, y.readers, y.gors.set i { g with cur := some (.addHandler id hs, r') }⟩ := by
  have hgi := h.gor i g hg
  refine h.quiet hg (Same.rfl' _ _) y.writer y.readers ?_ ?_ ?_ ?_
  · refine ⟨hgi.ret, hgi.ref, hgi.out, ?_⟩
    intro c' r'' e
    simp only [Option.some.injEq, Prod.mk.injEq] at e
    obtain ⟨rfl, rfl⟩ := e
    exact .inl ⟨hs, f, rfl, hf, .inr ⟨hr, hst.imp And.right _root_.id⟩⟩
  · simp only [passes]
    congr 1
    rw [passing_refused (g := { g with cur := some (.addHandler id hs, r') }) rfl hr, passing_full hcur hk.le hk.code, if_neg (by omega)]
  · rw [hcur]; rfl
  · rintro ⟨hs0, f0, r0, k0, q1, q2, q3, q4, q5⟩
    rcases hst with ⟨rfl, _⟩ | hst
    · rw [hcur] at q1
      simp only [Option.some.injEq, Prod.mk.injEq, Call.addHandler.injEq, true_and] at q1
      obtain ⟨rfl, rfl⟩ := q1
      have l1 := congrArg List.length hk.code
      have l2 := congrArg List.length q3
      rw [full_length] at l1 l2
      omega
    · exact .inl hst

/-- The rest of the mux after a write for `id`. -/
theorem IdInv.write {id : Int32} {seed0 : Nat} {progs : List (List Call)} {y : Sys} (h : IdInv id seed0 progs y) {i : Nat} {g g' : Gor}
    (hg : y.gors[i]? = some g) {s : Srv} (hal : s.mux.allowAdd = y.srv.mux.allowAdd) (hsd : s.mux.seed = y.srv.mux.seed)
    (hsum : passes id g' + (if (y.srv.mux.handlers.get? id).isSome then 1 else 0) = passes id g + (if (s.mux.handlers.get? id).isSome then 1 else 0))
    (hnone : s.mux.handlers.get? id = none → s.mux.idAnchors.get? id = none)
    (hanch : ∀ k, s.mux.idAnchors.get? id = some k → seed0 < k ∧ k ≤ s.mux.seed)
    (hself : ∀ ms, s.mux.selfMw.get? id = some ms →
      (∃ p ∈ progs, ∃ hs, .addHandler id hs ∈ p ∧ hs.length > 1 ∧ ms = hs.dropLast) ∧
      ((s.mux.handlers.get? id).isSome = true ∨ ∃ g ∈ y.gors.set i g', HalfWay id g))
    (hgor : GorInv id seed0 s g') (hoth : ∀ (j : Nat) (gj : Gor), j ≠ i → y.gors[j]? = some gj → GorInv id seed0 y.srv gj → GorInv id seed0 s gj)
    (h3 : g'.log.reverse.map (·.1) ++ ((g'.cur.map (·.1)).toList ++ g'.todo) = g.log.reverse.map (·.1) ++ ((g.cur.map (·.1)).toList ++ g.todo))
    (w : Option Nat) (rd : List Nat) : IdInv id seed0 progs ⟨s, w, rd, y.gors.set i g'⟩ := by
  have hsd0 := h.seed
  refine ⟨(by rw [← h.allow]; exact hal), (by show seed0 ≤ s.mux.seed; omega), ?_, hnone, hanch, hself, ?_, ?_⟩
  · show ((y.gors.set i g').map (passes id)).sum = if (s.mux.handlers.get? id).isSome then 1 else 0
    have := sum_set (passes id) y.gors i g g' hg
    have := h.sum
    omega
  · intro j gj hj
    rcases get_set _ _ _ _ _ hj with ⟨rfl, rfl, _⟩ | ⟨hne, hj⟩
    · exact hgor
    · exact hoth j gj hne hj (h.gor j gj hj)
  · intro j gj hj
    rcases get_set _ _ _ _ _ hj with ⟨rfl, rfl, _⟩ | ⟨_, hj⟩
    · rw [h3]; exact h.prog _ _ hg
    · exact h.prog j gj hj

theorem prog_mem {id : Int32} {seed0 : Nat} {progs : List (List Call)} {y : Sys} (h : IdInv id seed0 progs y) {i : Nat} {g : Gor}
    (hg : y.gors[i]? = some g) {c : Call} (hc : c ∈ g.log.reverse.map (·.1) ++ ((g.cur.map (·.1)).toList ++ g.todo)) :
    ∃ p ∈ progs, c ∈ p :=
  ⟨_, List.mem_of_getElem? (h.prog i g hg), hc⟩

theorem getLast_cases (hs : List H) : hs = [] ∨ ∃ f, hs.getLast? = some f := by
  cases h : hs.getLast? with
  | none => left; simpa using h
  | some f => right; exact ⟨f, rfl⟩

/-- `AddMessageIDSelfMiddleware` for the id. -/
theorem IdInv.selfStep {id : Int32} {seed0 : Nat} {progs : List (List Call)} {y : Sys} (h : IdInv id seed0 progs y) {i : Nat} {g : Gor}
    (hg : y.gors[i]? = some g) {hs : List H} {f : H} {r : List Act} (hcur : g.cur = some (.addHandler id hs, .selfMw id hs.dropLast :: r))
    (hk : OnId id seed0 y.srv hs f 1 (.selfMw id hs.dropLast :: r) g.loc) :
    IdInv id seed0 progs (y.step i) := by
  obtain ⟨e1, _, _⟩ := drop_full hk.le hk.code.symm
  have hlen : hs.length > 1 := by
    apply Classical.byContradiction; intro hn; have := hk.short (by omega); omega
  have hd : hs.dropLast ≠ [] := by
    intro e
    have := congrArg List.length e
    simp only [List.length_dropLast, List.length_nil] at this
    omega
  have hgi := h.gor i g hg
  have er : r = .unlock :: (full id hs f).drop 3 := e1
  rw [step_plain y i g _ _ r hg hcur rfl]
  cases hm : y.srv.mux.selfMw.get? id with
  | some ms =>
    simp only [Act.exec, hm]
    exact h.refuse hg hcur hk.last hk (.inl rfl) (.inl ⟨rfl, by rw [hm]; rfl⟩) (by rw [er]; exact unwind_unlock _)
  | none =>
    simp only [Act.exec, hm, if_neg hd]
    refine h.write hg ?ha ?hb ?_ ?hn ?hm ?_ ?_ ?_ ?h3 _ _
    case hn => exact h.noneA
    case hm => exact h.anch
    case h3 => rw [hcur]; rfl
    case ha => rfl
    case hb => rfl
    · simp only [passes]
      rw [passing_full hcur hk.le hk.code, passing_full (g := { g with cur := some (.addHandler id hs, r) }) rfl (by omega) e1]
      simp
    · intro ms e
      simp only [GoMap.get?_set_self, Option.some.injEq] at e
      refine ⟨?_, .inr ⟨{ g with cur := some (.addHandler id hs, r) }, List.mem_iff_getElem?.2 ⟨i, ?_⟩, hs, f, r, 2, rfl, hk.last, e1, by omega, by omega⟩⟩
      · obtain ⟨p, hp, hcp⟩ := prog_mem h hg (c := .addHandler id hs) (by rw [hcur]; simp)
        exact ⟨p, hp, hs, hcp, hlen, e.symm⟩
      · have : i < y.gors.length := (List.getElem?_eq_some_iff.1 hg).1
        simp [this]
    · refine ⟨?_, ?_, hgi.out, ?_⟩
      · intro hs' hm'
        obtain ⟨q1, q2, q3, q4⟩ := hgi.ret hs' hm'
        exact ⟨q1, q2, (by intro hl; have := q3 hl; rw [hm] at this; cases this), q4⟩
      · intro hs' _ _
        left; simp only [GoMap.get?_set_self, Option.isSome_some]
      · intro c' r' e
        simp only [Option.some.injEq, Prod.mk.injEq] at e
        obtain ⟨rfl, rfl⟩ := e
        refine .inl ⟨hs, f, rfl, hk.last, .inl ⟨2, hk.last, by omega, e1, (by intro e; omega), ?_, (by intro e; omega), (by intro e; omega),
          (by intro e; omega), (by intro e; omega)⟩⟩
        intro _ _; simp only [GoMap.get?_set_self]
    · intro j gj hne hj hgj
      refine ⟨?_, ?_, hgj.out, ?_⟩
      · intro hs' hm'
        obtain ⟨q1, q2, q3, q4⟩ := hgj.ret hs' hm'
        exact ⟨q1, q2, (by intro hl; have := q3 hl; rw [hm] at this; cases this), q4⟩
      · intro hs' _ _
        left; simp only [GoMap.get?_set_self, Option.isSome_some]
      · intro c' r' e
        rcases hgj.cur c' r' e with ⟨hs', f', q1, q2, q3⟩ | q | q
        · refine .inl ⟨hs', f', q1, q2, ?_⟩
          rcases q3 with ⟨k, q3⟩ | ⟨q3, _⟩
          · refine .inl ⟨k, q3.last, q3.le, q3.code, q3.short, ?_, q3.hand, q3.idx, q3.notyet, q3.anch⟩
            intro a b; have := q3.self a b; rw [hm] at this; cases this
          · exact .inr ⟨q3, by left; simp only [GoMap.get?_set_self, Option.isSome_some]⟩
        · exact .inr (.inl q)
        · exact .inr (.inr q)

/-- `AddHandleFunc` for the id. -/
theorem IdInv.handleStep {id : Int32} {seed0 : Nat} {progs : List (List Call)} {y : Sys} (h : IdInv id seed0 progs y) {i : Nat} {g : Gor}
    (hg : y.gors[i]? = some g) {hs : List H} {f : H} {r : List Act} (hcur : g.cur = some (.addHandler id hs, .handle id f :: r))
    (hk : OnId id seed0 y.srv hs f 5 (.handle id f :: r) g.loc) :
    IdInv id seed0 progs (y.step i) := by
  obtain ⟨e1, _, _⟩ := drop_full hk.le hk.code.symm
  have hgi := h.gor i g hg
  have er : r = .unlock :: (full id hs f).drop 7 := e1
  rw [step_plain y i g _ _ r hg hcur rfl]
  cases hm : y.srv.mux.handlers.get? id with
  | some h0 =>
    simp only [Act.exec, hm]
    exact h.refuse hg hcur hk.last hk (.inr rfl) (.inr (by rw [hm]; rfl)) (by rw [er]; exact unwind_unlock _)
  | none =>
    simp only [Act.exec, hm]
    have han := h.noneA hm
    have noret : ∀ (j : Nat) (gj : Gor), y.gors[j]? = some gj → ∀ hs', (.addHandler id hs', .returned) ∉ gj.log := by
      intro j gj hj hs' hm'
      obtain ⟨q1, q2, _⟩ := (h.gor j gj hj).ret hs' hm'
      rw [hm] at q2
      exact q1 (by simpa using q2.symm)
    refine h.write hg ?ha ?hb ?_ ?_ ?_ ?_ ?_ ?_ ?h3 _ _
    case h3 => rw [hcur]; rfl
    case ha => rfl
    case hb => rfl
    · simp only [passes]
      rw [passing_full hcur hk.le hk.code, passing_full (g := { g with cur := some (.addHandler id hs, r) }) rfl (by omega) e1]
      simp [hm]; omega
    · intro e; simp only [GoMap.get?_set_self] at e; cases e
    · intro k e; rw [show y.srv.mux.idAnchors.get? id = none from han] at e; cases e
    · intro ms e
      exact ⟨(h.self ms e).1, .inl (by simp only [GoMap.get?_set_self, Option.isSome_some])⟩
    · refine ⟨?_, ?_, hgi.out, ?_⟩
      · intro hs' hm'; exact absurd hm' (noret i g hg hs')
      · intro hs' _ _
        right; simp only [GoMap.get?_set_self, Option.isSome_some]
      · intro c' r' e
        simp only [Option.some.injEq, Prod.mk.injEq] at e
        obtain ⟨rfl, rfl⟩ := e
        refine .inl ⟨hs, f, rfl, hk.last, .inl ⟨6, hk.last, by omega, e1, (by intro e; omega), ?_, ?_, (by intro e; omega),
          ?_, (by intro e; omega)⟩⟩
        · intro _ hl; exact hk.self (by omega) hl
        · intro _; simp only [GoMap.get?_set_self]
        · intro _ _; exact han
    · intro j gj hne hj hgj
      refine ⟨?_, ?_, hgj.out, ?_⟩
      · intro hs' hm'; exact absurd hm' (noret j gj hj hs')
      · intro hs' _ _
        right; simp only [GoMap.get?_set_self, Option.isSome_some]
      · intro c' r' e
        rcases hgj.cur c' r' e with ⟨hs', f', q1, q2, q3⟩ | q | q
        · refine .inl ⟨hs', f', q1, q2, ?_⟩
          rcases q3 with ⟨k, q3⟩ | ⟨q3, _⟩
          · refine .inl ⟨k, q3.last, q3.le, q3.code, q3.short, q3.self, ?_, q3.idx, q3.notyet, q3.anch⟩
            intro a; have := q3.hand a; rw [hm] at this; cases this
          · exact .inr ⟨q3, by right; simp only [GoMap.get?_set_self, Option.isSome_some]⟩
        · exact .inr (.inl q)
        · exact .inr (.inr q)

/-- `AddMessageIDAnchor` for the id. -/
theorem IdInv.anchorStep {id : Int32} {seed0 : Nat} {progs : List (List Call)} {y : Sys} (h : IdInv id seed0 progs y) {i : Nat} {g : Gor}
    (hg : y.gors[i]? = some g) {hs : List H} {f : H} {r : List Act} (hcur : g.cur = some (.addHandler id hs, .idAnchor id :: r))
    (hk : OnId id seed0 y.srv hs f 9 (.idAnchor id :: r) g.loc) :
    IdInv id seed0 progs (y.step i) := by
  obtain ⟨e1, _, _⟩ := drop_full hk.le hk.code.symm
  have hgi := h.gor i g hg
  have hm := hk.notyet (by omega) (by omega)
  have hh := hk.hand (by omega)
  have hidx := hk.idx (by omega)
  rw [step_plain y i g _ _ r hg hcur rfl]
  simp only [Act.exec, hm]
  have hp : passing id g = 1 := by rw [passing_full hcur hk.le hk.code]; rfl
  refine h.write hg ?ha ?hb ?_ ?_ ?_ ?_ ?_ ?_ ?h3 _ _
  case h3 => rw [hcur]; rfl
  case ha => rfl
  case hb => rfl
  · simp only [passes]
    rw [hp, passing_full (g := { g with cur := some (.addHandler id hs, r) }) rfl (by omega) e1]
    simp
  · intro e; rw [show y.srv.mux.handlers.get? id = some f from hh] at e; cases e
  · intro k e
    simp only [GoMap.get?_set_self, Option.some.injEq] at e
    subst e; exact hidx
  · intro ms e
    exact ⟨(h.self ms e).1, .inl (by show (y.srv.mux.handlers.get? id).isSome = true; rw [hh]; rfl)⟩
  · refine ⟨?_, hgi.ref, hgi.out, ?_⟩
    · intro hs' hm'
      obtain ⟨q1, q2, q3, _⟩ := hgi.ret hs' hm'
      exact ⟨q1, q2, q3, by simp only [GoMap.get?_set_self, Option.isSome_some]⟩
    · intro c' r' e
      simp only [Option.some.injEq, Prod.mk.injEq] at e
      obtain ⟨rfl, rfl⟩ := e
      refine .inl ⟨hs, f, rfl, hk.last, .inl ⟨10, hk.last, by omega, e1, (by intro e; omega), ?_, ?_, ?_, (by intro _ e; omega), ?_⟩⟩
      · intro _ hl; exact hk.self (by omega) hl
      · intro _; exact hh
      · intro _; exact hidx
      · intro _; simp only [GoMap.get?_set_self, Option.isSome_some]
  · intro j gj hne hj hgj
    refine ⟨?_, hgj.ref, hgj.out, ?_⟩
    · intro hs' hm'
      obtain ⟨q1, q2, q3, _⟩ := hgj.ret hs' hm'
      exact ⟨q1, q2, q3, by simp only [GoMap.get?_set_self, Option.isSome_some]⟩
    · intro c' r' e
      rcases hgj.cur c' r' e with ⟨hs', f', q1, q2, q3⟩ | q | q
      · refine .inl ⟨hs', f', q1, q2, ?_⟩
        rcases q3 with ⟨k, q3⟩ | q3
        · refine .inl ⟨k, q3.last, q3.le, q3.code, q3.short, q3.self, q3.hand, q3.idx, ?_, ?_⟩
          · intro a _
            exfalso
            subst q1
            have hpj : passing id gj = 1 := by rw [passing_full e q3.le q3.code, if_pos a]
            have := sum_two (passes id) y.gors i j g gj hg hj (Ne.symm hne)
            rw [h.sum, hh] at this
            simp only [passes, hp, hpj, Option.isSome_some, if_true] at this
            omega
          · intro _; simp only [GoMap.get?_set_self, Option.isSome_some]
        · exact .inr q3
      · exact .inr (.inl q)
      · exact .inr (.inr q)

/-- A call that begins. -/
theorem IdInv.beginStep {id : Int32} {seed0 : Nat} {progs : List (List Call)} {y : Sys} (h : IdInv id seed0 progs y)
    (hprogs : ∀ p ∈ progs, ∀ c ∈ p, ∀ f, c ≠ .rewriteHeartBeat id f) {i : Nat} {g : Gor}
    (hg : y.gors[i]? = some g) {c : Call} {cs : List Call} (hcur : g.cur = none) (ht : g.todo = c :: cs) :
    IdInv id seed0 progs { y with gors := y.gors.set i { g with cur := some (c, c.code), loc := {}, todo := cs } } := by
  have hgi := h.gor i g hg
  have hrw : ∀ f, c ≠ .rewriteHeartBeat id f := by
    obtain ⟨p, hp, hc⟩ := prog_mem h hg (c := c) (by rw [ht]; simp)
    exact hprogs p hp c hc
  have key : ((∃ hs f, c = .addHandler id hs ∧ hs.getLast? = some f ∧ ∃ k, OnId id seed0 y.srv hs f k c.code {}) ∨
      (c = .addHandler id [] ∧ c.code = [.ret .panicked]) ∨ (registersId id c = false ∧ ∀ a ∈ c.code, a.touches id = false)) ∧
      passing id { g with cur := some (c, c.code), loc := {}, todo := cs } = 0 := by
    cases hr : registersId id c with
    | false =>
      exact ⟨.inr (.inr ⟨rfl, code_touches id c hr hrw⟩), passing_other rfl hr⟩
    | true =>
      cases c with
      | addHandler id' hs =>
        simp only [registersId, decide_eq_true_eq] at hr
        subst hr
        rcases getLast_cases hs with rfl | ⟨f, hf⟩
        · exact ⟨.inr (.inl ⟨rfl, rfl⟩), passing_refused rfl (.inr rfl)⟩
        · have hcode := code_full id' hs f hf
          refine ⟨.inl ⟨hs, f, rfl, hf, _, hf, ?_, hcode, ?_, ?_, ?_, ?_, ?_, ?_⟩, ?_⟩
          · split <;> omega
          · intro hl; rw [if_neg (by omega)]; omega
          · intro e hl; rw [if_pos hl] at e; omega
          · intro e; split at e <;> omega
          · intro e; split at e <;> omega
          · intro e; split at e <;> omega
          · intro e; split at e <;> omega
          · rw [passing_full rfl (by split <;> omega) hcode]
            rw [if_neg (by split <;> omega)]
      | _ => simp [registersId] at hr
  refine h.quiet hg (Same.rfl' _ _) y.writer y.readers ?_ ?_ ?_ ?_
  · refine ⟨hgi.ret, hgi.ref, hgi.out, ?_⟩
    intro c' r' e
    simp only [Option.some.injEq, Prod.mk.injEq] at e
    obtain ⟨rfl, rfl⟩ := e
    rcases key.1 with ⟨hs, f, q1, q2, q3⟩ | q | q
    · exact .inl ⟨hs, f, q1, q2, .inl q3⟩
    · exact .inr (.inl q)
    · exact .inr (.inr q)
  · simp only [passes]
    congr 1
    rw [key.2]; simp [passing, hcur]
  · rw [hcur, ht]; rfl
  · rintro ⟨hs, f, r, k, q1, _⟩; rw [hcur] at q1; cases q1

/-- A call that ends. -/
theorem IdInv.retStep {id : Int32} {seed0 : Nat} {progs : List (List Call)} {y : Sys} (h : IdInv id seed0 progs y) {i : Nat} {g : Gor}
    (hg : y.gors[i]? = some g) {c : Call} {o : Outcome} {r : List Act} (hcur : g.cur = some (c, .ret o :: r)) :
    IdInv id seed0 progs { y with gors := y.gors.set i { g with cur := none, log := (c, o) :: g.log } } := by
  have hgi := h.gor i g hg
  have hk11 : ∀ hs f k, (full id hs f).drop k = .ret o :: r → k ≤ 11 → k = 11 ∧ o = .returned := by
    intro hs f k e hk
    obtain ⟨_, _, e3⟩ := drop_full hk e
    rcases e3 with ⟨_, q⟩ | ⟨_, q⟩ | ⟨_, q⟩ | ⟨_, q⟩ | ⟨_, q⟩ | ⟨_, q⟩ | ⟨_, q⟩ | ⟨_, q⟩ | ⟨_, q⟩ | ⟨_, q⟩ | ⟨_, q⟩ | ⟨q0, q⟩ <;> cases q
    exact ⟨q0, rfl⟩
  have href : Refused (.ret o :: r) → o = .panicked := by
    rintro (e | e) <;> simp at e; exact e.1
  refine h.quiet hg (Same.rfl' _ _) y.writer y.readers ?_ ?_ ?_ ?_
  · rcases hgi.cur _ _ hcur with ⟨hs, f, rfl, hf, ⟨k, hk⟩ | ⟨hrf, hst⟩⟩ | ⟨rfl, e⟩ | ⟨hn, ha⟩
    · obtain ⟨rfl, rfl⟩ := hk11 hs f k hk.code.symm hk.le
      refine ⟨?_, ?_, ?_, (by intro c r e; cases e)⟩
      · intro hs' hm
        rcases List.mem_cons.1 hm with e | hm
        · simp only [Prod.mk.injEq, Call.addHandler.injEq, true_and, and_true] at e
          subst e
          refine ⟨?_, ?_, hk.self (by omega), hk.anch (by omega)⟩
          · rintro rfl; cases hf
          · rw [hf]; exact hk.hand (by omega)
        · exact hgi.ret hs' hm
      · intro hs' hm
        rcases List.mem_cons.1 hm with e | hm
        · cases e
        · exact hgi.ref hs' hm
      · intro hs' o' hm
        rcases List.mem_cons.1 hm with e | hm
        · cases e; exact .inl rfl
        · exact hgi.out hs' o' hm
    · obtain rfl := href hrf
      refine ⟨?_, ?_, ?_, (by intro c r e; cases e)⟩
      · intro hs' hm
        rcases List.mem_cons.1 hm with e | hm
        · cases e
        · exact hgi.ret hs' hm
      · intro hs' hm
        rcases List.mem_cons.1 hm with e | hm
        · intro _; exact hst
        · exact hgi.ref hs' hm
      · intro hs' o' hm
        rcases List.mem_cons.1 hm with e | hm
        · cases e; exact .inr rfl
        · exact hgi.out hs' o' hm
    · simp only [List.cons.injEq, Act.ret.injEq] at e
      obtain ⟨rfl, rfl⟩ := e
      refine ⟨?_, ?_, ?_, (by intro c r e; cases e)⟩
      · intro hs' hm
        rcases List.mem_cons.1 hm with e | hm
        · cases e
        · exact hgi.ret hs' hm
      · intro hs' hm
        rcases List.mem_cons.1 hm with e | hm
        · cases e; intro q; exact absurd rfl q
        · exact hgi.ref hs' hm
      · intro hs' o' hm
        rcases List.mem_cons.1 hm with e | hm
        · cases e; exact .inr rfl
        · exact hgi.out hs' o' hm
    · have hne : ∀ hs', c ≠ .addHandler id hs' := by rintro hs' rfl; simp [registersId] at hn
      refine ⟨?_, ?_, ?_, (by intro c r e; cases e)⟩
      · intro hs' hm
        rcases List.mem_cons.1 hm with e | hm
        · cases e; exact absurd rfl (hne _)
        · exact hgi.ret hs' hm
      · intro hs' hm
        rcases List.mem_cons.1 hm with e | hm
        · cases e; exact absurd rfl (hne _)
        · exact hgi.ref hs' hm
      · intro hs' o' hm
        rcases List.mem_cons.1 hm with e | hm
        · cases e; exact absurd rfl (hne _)
        · exact hgi.out hs' o' hm
  · have hp0 : passing id { g with cur := none, log := (c, o) :: g.log } = 0 := rfl
    simp only [passes, hp0, List.countP_cons]
    rcases hgi.cur _ _ hcur with ⟨hs, f, rfl, hf, ⟨k, hk⟩ | ⟨hrf, hst⟩⟩ | ⟨rfl, e⟩ | ⟨hn, ha⟩
    · obtain ⟨rfl, rfl⟩ := hk11 hs f k hk.code.symm hk.le
      rw [passing_full hcur hk.le hk.code]
      simp [registersId]; omega
    · obtain rfl := href hrf
      rw [passing_refused hcur hrf]; simp
    · simp only [List.cons.injEq, Act.ret.injEq] at e
      obtain ⟨rfl, rfl⟩ := e
      rw [passing_refused hcur (.inr rfl)]; simp
    · rw [passing_other hcur hn]; simp [hn]
  · rw [hcur]; simp
  · rintro ⟨hs, f, r0, k, q1, q2, q3, q4, q5⟩
    rw [hcur] at q1
    simp only [Option.some.injEq, Prod.mk.injEq] at q1
    obtain ⟨rfl, rfl⟩ := q1
    have := (hk11 hs f k q3.symm (by omega)).1
    omega

theorem exec_idx (a : Act) (s : Srv) (l : Loc) (r : List Act) (h : ∀ i, a ≠ .readIdx i) (h' : ∀ p, a ≠ .readUrlIdx p) (h'' : a ≠ .index) :
    (a.exec s l r).2.1.idx = l.idx := by
  cases a <;> simp only [Act.exec] <;> (repeat' split) <;> first | rfl | (exact absurd rfl (h _)) | (exact absurd rfl (h' _)) | (exact absurd rfl h'')

theorem idInv_step {id : Int32} {seed0 : Nat} {progs : List (List Call)} {y : Sys} (h : IdInv id seed0 progs y)
    (hprogs : ∀ p ∈ progs, ∀ c ∈ p, ∀ f, c ≠ .rewriteHeartBeat id f) (hnd : NoDel id y) (i : Nat) : IdInv id seed0 progs (y.step i) := by
  have hw := went y i
  generalize hz : y.step i = z at hw
  cases hw with
  | stay => exact h
  | begin g c cs hg hcur ht => exact h.beginStep hprogs hg hcur ht
  | lock g c r hg hcur _ _ =>
    exact h.advance hg hcur (l := g.loc) (r' := r) (Same.rfl' _ _) _ _ rfl (by intro o e; cases e) (fun _ => .inl rfl) (by intro e; cases e)
      (fun _ => rfl) (fun q => q)
  | unlock g c r hg hcur _ =>
    exact h.advance hg hcur (l := g.loc) (r' := r) (Same.rfl' _ _) _ _ rfl (by intro o e; cases e) (fun _ => .inl rfl) (by intro e; cases e)
      (fun _ => rfl) (fun q => q)
  | rlock g c r hg hcur _ =>
    exact h.advance hg hcur (l := g.loc) (r' := r) (Same.rfl' _ _) _ _ rfl (by intro o e; cases e) (fun _ => .inl rfl) (by intro e; cases e)
      (fun _ => rfl) (fun q => q)
  | runlock g c r hg hcur _ =>
    exact h.advance hg hcur (l := g.loc) (r' := r) (Same.rfl' _ _) _ _ rfl (by intro o e; cases e) (fun _ => .inl rfl) (by intro e; cases e)
      (fun _ => rfl) (fun q => q)
  | ret g c o r hg hcur => exact h.retStep hg hcur
  | plain g c a r hg hcur hp =>
    have hret : ∀ o, a ≠ .ret o := by rintro o rfl; simp [Act.plain] at hp
    have hseed := h.seed
    rcases (h.gor i g hg).cur _ _ hcur with ⟨hs, f, rfl, hf, ⟨k, hk⟩ | ⟨hrf, _⟩⟩ | ⟨_, e⟩ | ⟨hn, ha⟩
    · obtain ⟨e1, _, e3⟩ := drop_full hk.le hk.code.symm
      rcases e3 with ⟨rfl, rfl⟩ | ⟨rfl, rfl⟩ | ⟨rfl, rfl⟩ | ⟨rfl, rfl⟩ | ⟨rfl, rfl⟩ | ⟨rfl, rfl⟩ | ⟨rfl, rfl⟩ | ⟨rfl, rfl⟩ | ⟨rfl, rfl⟩ |
        ⟨rfl, rfl⟩ | ⟨rfl, rfl⟩ | ⟨rfl, rfl⟩ <;> try (simp [Act.plain] at hp; done)
      · rw [← step_plain y i g _ _ r hg hcur rfl]; exact h.selfStep hg hcur hk
      · simp only [Act.exec, h.allow, if_true]
        exact h.advance hg hcur (l := g.loc) (r' := r) (Same.rfl' _ _) _ _ rfl hret (fun _ => .inl rfl) (by intro e; cases e)
          (fun _ => rfl) (fun q => q)
      · rw [← step_plain y i g _ _ r hg hcur rfl]; exact h.handleStep hg hcur hk
      · refine h.advance hg hcur (exec_same id .index rfl _ _ (by intro e; cases e) _) _ _ rfl hret (fun e => absurd rfl e) ?_ (fun _ => rfl) (fun q => q)
        intro _
        simp only [Act.exec, Mux.bump, true_and]; omega
      · rw [← step_plain y i g _ _ r hg hcur rfl]; exact h.anchorStep hg hcur hk
    · rcases hrf with e | e <;> simp only [List.cons.injEq] at e <;> obtain ⟨rfl, _⟩ := e <;> simp [Act.plain] at hp
    · simp only [List.cons.injEq] at e
      exact absurd e.1 (hret _)
    · have hta := ha a (by simp)
      refine h.advance hg hcur (exec_same id a hta _ _ (hnd g (List.mem_of_getElem? hg) _ _ _ hcur) _) _ _ hta hret (fun _ => .inr hn) ?_ ?_ ?_
      · rintro rfl; simp only [Act.exec, Mux.bump, true_and]; omega
      · intro e; rw [hn] at e; cases e
      · intro hr; exact exec_touches id a _ _ r hr

theorem idInv_run {id : Int32} {seed0 : Nat} {progs : List (List Call)} {y : Sys} (h : IdInv id seed0 progs y)
    (hprogs : ∀ p ∈ progs, ∀ c ∈ p, ∀ f, c ≠ .rewriteHeartBeat id f) (hnd : ∀ t, NoDel id (y.run t)) (sched : List Nat) :
    IdInv id seed0 progs (y.run sched) := by
  induction sched generalizing y with
  | nil => exact h
  | cons i t ih => exact ih (idInv_step h hprogs (hnd []) i) fun t' => hnd (i :: t')

theorem idInv_start (id : Int32) (s : Srv) (progs : List (List Call)) (hal : s.mux.allowAdd = true) (hh : s.mux.handlers.get? id = none)
    (hm : s.mux.selfMw.get? id = none) (ha : s.mux.idAnchors.get? id = none) : IdInv id s.mux.seed progs (start s progs) := by
  refine ⟨hal, Nat.le_refl _, ?_, fun _ => ha, ?_, ?_, ?_, ?_⟩
  · show (((progs.map fun p => ({ todo := p } : Gor))).map (passes id)).sum = if (s.mux.handlers.get? id).isSome then 1 else 0
    rw [hh, List.map_map]
    have : (progs.map (passes id ∘ fun p => ({ todo := p } : Gor))).sum = 0 := by
      induction progs with
      | nil => rfl
      | cons p ps ih => simp only [List.map_cons, List.sum_cons, ih]; rfl
    rw [this]; rfl
  · intro k e; rw [show (start s progs).srv.mux.idAnchors.get? id = none from ha] at e; cases e
  · intro ms e; rw [show (start s progs).srv.mux.selfMw.get? id = none from hm] at e; cases e
  · intro i g hg
    have hmem := List.mem_of_getElem? hg
    simp only [start, List.mem_map] at hmem
    obtain ⟨p, _, rfl⟩ := hmem
    exact ⟨(by intro hs e; cases e), (by intro hs e; cases e), (by intro hs o e; cases e), (by intro c r e; cases e)⟩
  · intro i g hg
    simp only [start, List.getElem?_map, Option.map_eq_some_iff] at hg
    obtain ⟨p, hp, rfl⟩ := hg
    simp [hp]

end Register
end Tcpx
