import Verif.Lemmas.RegisterHist
import Verif.Spec.Period
/-!
# Lemmas about goroutines that register and dispatch: the anchors, when `UnUse` is among the calls

What holds of every anchor (in the map, in the list, and in the local variables of the calls under way) and is kept by `callUse` and
`callUnUse` holds for ever.
-/
namespace Tcpx
namespace Register
open Spec

/-- The steps that deal with anchors of middlewares. -/
def Act.anch : Act → Bool
  | .useLook _ _ => true
  | .callUse => true
  | .usePut _ => true
  | .addAnchor => true
  | .unLook _ => true
  | .callUnUse => true
  | .replAnchor => true
  | _ => false

def uold (k : String) : List Act := [.index, .callUse, .usePut k, .ret .returned]

def unCode (k : String) : List Act := [.unLook k, .index, .callUnUse, .lock, .replAnchor, .unlock, .ret .returned]

/-- Where a call is: `G` holds of the anchor it has in hand, `I` of the index it has drawn for it. -/
inductive OnAnch (G : String → MAnchor → Prop) (I : String → Nat → Prop) (F : String → H → Prop) : Call → List Act → Loc → Prop
  | quiet (c : Call) (r : List Act) (l : Loc) (h : ∀ a ∈ r, a.anch = false) : OnAnch G I F c r l
  | look (k : String) (f : H) (l : Loc) (hF : F k f) : OnAnch G I F (.use k f) [.useLook k f, .ret .returned] l
  | new (k : String) (f : H) (l : Loc) (j : Nat) (hj : j ≤ 3) (a : MAnchor) (ha : l.anchor = some a) (hG : G k a)
      (hI : j = 1 → I k l.idx) : OnAnch G I F (.use k f) (ufull.drop j) l
  | old (k : String) (f : H) (l : Loc) (j : Nat) (hj : j ≤ 2) (a : MAnchor) (ha : l.anchor = some a) (hG : G k a)
      (hI : j = 1 → I k l.idx) : OnAnch G I F (.use k f) ((uold k).drop j) l
  | un0 (k : String) (l : Loc) : OnAnch G I F (.unUse k) (unCode k) l
  | un (k : String) (l : Loc) (j : Nat) (h1 : 1 ≤ j) (hj : j ≤ 4) (a : MAnchor) (ha : l.anchor = some a) (hG : G k a)
      (hI : j = 2 → I k l.idx) : OnAnch G I F (.unUse k) ((unCode k).drop j) l

/-- What `G` must satisfy: `A` are keys known to be in the map, indices above `lo` are allowed by `I`. -/
structure Clo (G : String → MAnchor → Prop) (I : String → Nat → Prop) (F : String → H → Prop) (A : String → Prop) (lo : Nat) : Prop where
  key : ∀ k a, G k a → a.key = k
  use : ∀ k a i a', G k a → I k i → a.callUse i = some a' → G k a'
  un : ∀ k a i a', G k a → I k i → a.callUnUse i = some a' → G k a'
  idx : ∀ k i, lo < i → I k i
  fresh : ∀ k f, F k f → ¬ A k → G k ⟨k, f, [], []⟩

/-- `G` holds of the anchors of the server. -/
structure AS (G : String → MAnchor → Prop) (A : String → Prop) (lo : Nat) (s : Srv) : Prop where
  map : ∀ k a, s.mux.anchorMap.get? k = some a → G k a
  list : ∀ a ∈ s.mux.anchors, G a.key a
  known : ∀ k, A k → (s.mux.anchorMap.get? k).isSome = true
  seed : lo ≤ s.mux.seed

/-- `G` holds of all anchors. -/
structure AI (G : String → MAnchor → Prop) (I : String → Nat → Prop) (F : String → H → Prop) (A : String → Prop) (lo : Nat) (y : Sys) : Prop where
  srv : AS G A lo y.srv
  gor : ∀ (i : Nat) (g : Gor), y.gors[i]? = some g → ∀ c r, g.cur = some (c, r) → OnAnch G I F c r g.loc
  todo : ∀ (i : Nat) (g : Gor), y.gors[i]? = some g → ∀ k f, .use k f ∈ g.todo → F k f

theorem unwind_anch (r : List Act) : ∀ a ∈ unwind r, a.anch = false := by
  unfold unwind; split <;> simp [Act.anch]

theorem exec_anch (a : Act) (ha : a.anch = false) (s : Srv) (l : Loc) (r : List Act) (hr : ∀ b ∈ r, b.anch = false) :
    ∀ b ∈ (a.exec s l r).2.2, b.anch = false := by
  have hu := unwind_anch r
  cases a <;> simp only [Act.exec]
  all_goals (repeat' split)
  all_goals first
    | exact hr
    | exact hu
    | (intro b hb; simp only [List.mem_cons] at hb
       rcases hb with rfl | hb
       · rfl
       · exact hr b hb)
    | (simp [Act.anch]; done)
    | (simp [Act.anch] at ha; done)

/-- The anchors and the map of them. -/
structure SameAnch (s s' : Srv) : Prop where
  map : s'.mux.anchorMap = s.mux.anchorMap
  list : s'.mux.anchors = s.mux.anchors
  seed : s.mux.seed ≤ s'.mux.seed

theorem SameAnch.rfl' (s : Srv) : SameAnch s s := ⟨rfl, rfl, Nat.le_refl _⟩

theorem exec_sameAnch (a : Act) (ha : a.anch = false) (s : Srv) (l : Loc) (r : List Act) : SameAnch s (a.exec s l r).1 := by
  cases a <;> try (simp [Act.anch] at ha; done)
  case index => exact ⟨rfl, rfl, Nat.le_succ _⟩
  case urlPut =>
    simp only [Act.exec]
    unfold Mux.addURLPatternHandler
    split <;> exact ⟨rfl, rfl, Nat.le_refl _⟩
  case selfMw =>
    simp only [Act.exec]; split
    · exact SameAnch.rfl' _
    · dsimp only; split <;> exact ⟨rfl, rfl, Nat.le_refl _⟩
  all_goals simp only [Act.exec]
  all_goals (repeat' split)
  all_goals exact ⟨rfl, rfl, Nat.le_refl _⟩

theorem AS.same {G : String → MAnchor → Prop} {A : String → Prop} {lo : Nat} {s s' : Srv} (h : AS G A lo s) (hs : SameAnch s s') : AS G A lo s' :=
  ⟨by rw [hs.map]; exact h.map, by rw [hs.list]; exact h.list, by rw [hs.map]; exact h.known, Nat.le_trans h.seed hs.seed⟩

theorem replaceFirst_mem {a b : MAnchor} {l : List MAnchor} (h : b ∈ Mux.replaceFirst a l) : b = a ∨ b ∈ l := by
  induction l with
  | nil => cases h
  | cons v vs ih =>
    simp only [Mux.replaceFirst] at h
    split at h
    · rcases List.mem_cons.1 h with h | h
      · exact .inl h
      · exact .inr (List.mem_cons_of_mem _ h)
    · rcases List.mem_cons.1 h with h | h
      · exact .inr (h ▸ List.mem_cons_self)
      · rcases ih h with h | h
        · exact .inl h
        · exact .inr (List.mem_cons_of_mem _ h)

theorem AS.put {G : String → MAnchor → Prop} {A : String → Prop} {lo : Nat} {s : Srv} (h : AS G A lo s) {k : String} {a : MAnchor} (hG : G k a) :
    AS G A lo { s with mux := { s.mux with anchorMap := s.mux.anchorMap.set k a } } := by
  refine ⟨?_, h.list, ?_, h.seed⟩
  · intro k' a' e
    simp only [GoMap.get?_set] at e
    split at e
    · next q => cases e; subst q; exact hG
    · exact h.map _ _ e
  · intro k' q
    simp only [GoMap.get?_set]
    split
    · rfl
    · exact h.known _ q

theorem AS.add {G : String → MAnchor → Prop} {A : String → Prop} {lo : Nat} {s : Srv} (h : AS G A lo s) {k : String} {a : MAnchor} (hk : a.key = k)
    (hG : G k a) : AS G A lo { s with mux := s.mux.addMiddlewareAnchor a } := by
  subst hk
  unfold Mux.addMiddlewareAnchor
  split
  · exact h
  · have h1 := h.put hG
    refine ⟨h1.map, ?_, h1.known, h1.seed⟩
    intro b hb
    rcases List.mem_append.1 hb with hb | hb
    · exact h.list b hb
    · simp only [List.mem_singleton] at hb; subst hb; exact hG

theorem AS.repl {G : String → MAnchor → Prop} {A : String → Prop} {lo : Nat} {s : Srv} (h : AS G A lo s) {k : String} {a : MAnchor} (hk : a.key = k)
    (hG : G k a) : AS G A lo { s with mux := (s.mux.replaceMiddlewareAnchor a).st } := by
  subst hk
  unfold Mux.replaceMiddlewareAnchor
  split
  · exact h
  · have h1 := h.put hG
    refine ⟨h1.map, ?_, h1.known, h1.seed⟩
    intro b hb
    rcases replaceFirst_mem hb with rfl | hb
    · exact hG
    · exact h.list b hb

/-- What remains of the code of `Use` and `UnUse`. -/
theorem drop_ufull {j : Nat} {a : Act} {r : List Act} (hj : j ≤ 3) (h : ufull.drop j = a :: r) : r = ufull.drop (j + 1) ∧
    (j = 0 ∧ a = .index ∨ j = 1 ∧ a = .callUse ∨ j = 2 ∧ a = .lock ∨ j = 3 ∧ a = .addAnchor) := by
  have hc : j = 0 ∨ j = 1 ∨ j = 2 ∨ j = 3 := by omega
  rcases hc with rfl | rfl | rfl | rfl <;>
    (simp only [ufull, List.drop_succ_cons, List.drop_zero, List.cons.injEq] at h
     obtain ⟨rfl, rfl⟩ := h
     simp [ufull])

theorem drop_uold {k : String} {j : Nat} {a : Act} {r : List Act} (hj : j ≤ 2) (h : (uold k).drop j = a :: r) : r = (uold k).drop (j + 1) ∧
    (j = 0 ∧ a = .index ∨ j = 1 ∧ a = .callUse ∨ j = 2 ∧ a = .usePut k) := by
  have hc : j = 0 ∨ j = 1 ∨ j = 2 := by omega
  rcases hc with rfl | rfl | rfl <;>
    (simp only [uold, List.drop_succ_cons, List.drop_zero, List.cons.injEq] at h
     obtain ⟨rfl, rfl⟩ := h
     simp [uold])

theorem drop_ucode {k : String} {j : Nat} {a : Act} {r : List Act} (hj : j ≤ 4) (h : (unCode k).drop j = a :: r) : r = (unCode k).drop (j + 1) ∧
    (j = 0 ∧ a = .unLook k ∨ j = 1 ∧ a = .index ∨ j = 2 ∧ a = .callUnUse ∨ j = 3 ∧ a = .lock ∨ j = 4 ∧ a = .replAnchor) := by
  have hc : j = 0 ∨ j = 1 ∨ j = 2 ∨ j = 3 ∨ j = 4 := by omega
  rcases hc with rfl | rfl | rfl | rfl | rfl <;>
    (simp only [unCode, List.drop_succ_cons, List.drop_zero, List.cons.injEq] at h
     obtain ⟨rfl, rfl⟩ := h
     simp [unCode])

/-- A step of the mutex. -/
theorem OnAnch.pass {G : String → MAnchor → Prop} {I : String → Nat → Prop} {F : String → H → Prop} {c : Call} {a : Act} {r : List Act} {l : Loc}
    (h : OnAnch G I F c (a :: r) l) (hp : a.plain = false) : OnAnch G I F c r l := by
  generalize hq : a :: r = q at h
  cases h with
  | quiet _ _ _ h => subst hq; exact .quiet _ _ _ fun b hb => h b (List.mem_cons_of_mem _ hb)
  | look k f _ hF =>
    cases hq
    simp [Act.plain] at hp
  | new k f _ j hj a' ha hG hI =>
    obtain ⟨e, q⟩ := drop_ufull hj hq.symm
    rcases q with ⟨rfl, rfl⟩ | ⟨rfl, rfl⟩ | ⟨rfl, rfl⟩ | ⟨rfl, rfl⟩ <;> try (simp [Act.plain] at hp; done)
    rw [e]
    exact .new k f l 3 (by omega) a' ha hG (by omega)
  | old k f _ j hj a' ha hG hI =>
    obtain ⟨e, q⟩ := drop_uold hj hq.symm
    rcases q with ⟨rfl, rfl⟩ | ⟨rfl, rfl⟩ | ⟨rfl, rfl⟩ <;> simp [Act.plain] at hp
  | un0 k _ =>
    cases hq
    simp [Act.plain] at hp
  | un k _ j h1 hj a' ha hG hI =>
    obtain ⟨e, q⟩ := drop_ucode hj hq.symm
    rcases q with ⟨rfl, rfl⟩ | ⟨rfl, rfl⟩ | ⟨rfl, rfl⟩ | ⟨rfl, rfl⟩ | ⟨rfl, rfl⟩ <;> try (simp [Act.plain] at hp; done)
    rw [e]
    exact .un k l 4 (by omega) (by omega) a' ha hG (by omega)

/-- Any other step. -/
theorem OnAnch.exec {G : String → MAnchor → Prop} {I : String → Nat → Prop} {F : String → H → Prop} {A : String → Prop} {lo : Nat}
    (hC : Clo G I F A lo) {c : Call} {a : Act} {r : List Act} {l : Loc} (h : OnAnch G I F c (a :: r) l) {s : Srv} (hs : AS G A lo s) :
    AS G A lo (a.exec s l r).1 ∧ OnAnch G I F c (a.exec s l r).2.2 (a.exec s l r).2.1 := by
  generalize hq : a :: r = q at h
  cases h with
  | quiet _ _ _ h =>
    subst hq
    have ha := h a List.mem_cons_self
    exact ⟨hs.same (exec_sameAnch a ha s l r), .quiet _ _ _ (exec_anch a ha s l r fun b hb => h b (List.mem_cons_of_mem _ hb))⟩
  | look k f _ hF =>
    cases hq
    simp only [Act.exec]
    split
    · next a' e => exact ⟨hs, .old k f _ 0 (by omega) a' rfl (hs.map _ _ e) (by omega)⟩
    · next e =>
      refine ⟨hs, .new k f _ 0 (by omega) _ rfl (hC.fresh k f hF ?_) (by omega)⟩
      intro q
      have := hs.known k q
      rw [e] at this; cases this
  | new k f _ j hj a' ha hG hI =>
    obtain ⟨e, q⟩ := drop_ufull hj hq.symm
    rcases q with ⟨rfl, rfl⟩ | ⟨rfl, rfl⟩ | ⟨rfl, rfl⟩ | ⟨rfl, rfl⟩
    · refine ⟨hs.same (exec_sameAnch .index rfl s l r), ?_⟩
      rw [e]
      exact .new k f _ 1 (by omega) a' ha hG fun _ => hC.idx k _ (Nat.lt_succ_of_le hs.seed)
    · simp only [Act.exec, ha, Option.bind_some]
      split
      · exact ⟨hs, .quiet _ _ _ (unwind_anch r)⟩
      · next a'' e' => exact ⟨hs, e ▸ .new k f _ 2 (by omega) a'' rfl (hC.use _ _ _ _ hG (hI rfl) e') (by omega)⟩
    · exact ⟨hs, e ▸ .new k f _ 3 (by omega) a' ha hG (by omega)⟩
    · simp only [Act.exec, ha]
      refine ⟨hs.add (hC.key _ _ hG) hG, .quiet _ _ _ ?_⟩
      rw [e]; simp [ufull, Act.anch]
  | old k f _ j hj a' ha hG hI =>
    obtain ⟨e, q⟩ := drop_uold hj hq.symm
    rcases q with ⟨rfl, rfl⟩ | ⟨rfl, rfl⟩ | ⟨rfl, rfl⟩
    · refine ⟨hs.same (exec_sameAnch .index rfl s l r), ?_⟩
      rw [e]
      exact .old k f _ 1 (by omega) a' ha hG fun _ => hC.idx k _ (Nat.lt_succ_of_le hs.seed)
    · simp only [Act.exec, ha, Option.bind_some]
      split
      · exact ⟨hs, .quiet _ _ _ (unwind_anch r)⟩
      · next a'' e' => exact ⟨hs, e ▸ .old k f _ 2 (by omega) a'' rfl (hC.use _ _ _ _ hG (hI rfl) e') (by omega)⟩
    · simp only [Act.exec, ha]
      refine ⟨hs.put hG, .quiet _ _ _ ?_⟩
      rw [e]; simp [uold, Act.anch]
  | un0 k _ =>
    cases hq
    simp only [Act.exec]
    split
    · exact ⟨hs, .quiet _ _ _ (by simp [unwind, Act.anch])⟩
    · next a' e => exact ⟨hs, .un k _ 1 (by omega) (by omega) a' rfl (hs.map _ _ e) (by omega)⟩
  | un k _ j h1 hj a' ha hG hI =>
    obtain ⟨e, q⟩ := drop_ucode hj hq.symm
    rcases q with ⟨rfl, _⟩ | ⟨rfl, rfl⟩ | ⟨rfl, rfl⟩ | ⟨rfl, rfl⟩ | ⟨rfl, rfl⟩
    · omega
    · refine ⟨hs.same (exec_sameAnch .index rfl s l r), ?_⟩
      rw [e]
      exact .un k _ 2 (by omega) (by omega) a' ha hG fun _ => hC.idx k _ (Nat.lt_succ_of_le hs.seed)
    · simp only [Act.exec, ha, Option.bind_some]
      split
      · exact ⟨hs, .quiet _ _ _ (unwind_anch r)⟩
      · next a'' e' => exact ⟨hs, e ▸ .un k _ 3 (by omega) (by omega) a'' rfl (hC.un _ _ _ _ hG (hI rfl) e') (by omega)⟩
    · exact ⟨hs, e ▸ .un k _ 4 (by omega) (by omega) a' ha hG (by omega)⟩
    · simp only [Act.exec, ha]
      refine ⟨hs.repl (hC.key _ _ hG) hG, .quiet _ _ _ ?_⟩
      split
      · exact unwind_anch r
      · rw [e]; simp [unCode, Act.anch]

theorem code_onAnch (G : String → MAnchor → Prop) (I : String → Nat → Prop) (F : String → H → Prop) (c : Call)
    (hF : ∀ k f, c = .use k f → F k f) (l : Loc) : OnAnch G I F c c.code l := by
  cases c with
  | addHandler id hs =>
    refine .quiet _ _ _ ?_
    simp only [Call.code, addHandlerCode]
    (repeat' split) <;> simp [locked, Act.anch]
  | useGlobal ms => exact .quiet _ _ _ (by simp [Call.code, locked, Act.anch])
  | use k f => exact .look k f l (hF k f rfl)
  | unUse k => exact .un0 k l
  | any p hs =>
    refine .quiet _ _ _ ?_
    simp only [Call.code, anyCode]; (repeat' split) <;> simp [locked, Act.anch]
  | rewriteHeartBeat id' f =>
    refine .quiet _ _ _ ?_
    simp only [Call.code, addHandlerCode]
    (repeat' split) <;> simp [locked, Act.anch]
  | listen => exact .quiet _ _ _ (by simp [Call.code, Act.anch])
  | byId i => exact .quiet _ _ _ (by simp [Call.code, rlocked, Act.anch])
  | byUrl p => exact .quiet _ _ _ (by simp [Call.code, rlocked, Act.anch])

theorem ai_step {G : String → MAnchor → Prop} {I : String → Nat → Prop} {F : String → H → Prop} {A : String → Prop} {lo : Nat}
    (hC : Clo G I F A lo) {y : Sys} (h : AI G I F A lo y) (j : Nat) : AI G I F A lo (y.step j) := by
  have key : ∀ (g' : Gor) (s : Srv) (w : Option Nat) (rd : List Nat), AS G A lo s → (∀ c r, g'.cur = some (c, r) → OnAnch G I F c r g'.loc) →
      (∀ k f, .use k f ∈ g'.todo → F k f) → AI G I F A lo ⟨s, w, rd, y.gors.set j g'⟩ := by
    intro g' s w rd hs h1 h2
    refine ⟨hs, ?_, ?_⟩
    · intro i gi hi
      rcases get_set _ _ _ _ _ hi with ⟨rfl, rfl, _⟩ | ⟨_, hi⟩
      · exact h1
      · exact h.gor i gi hi
    · intro i gi hi
      rcases get_set _ _ _ _ _ hi with ⟨rfl, rfl, _⟩ | ⟨_, hi⟩
      · exact h2
      · exact h.todo i gi hi
  have pass : ∀ {a : Act} {c : Call} {r : List Act} (g : Gor) (w : Option Nat) (rd : List Nat), y.gors[j]? = some g → g.cur = some (c, a :: r) →
      a.plain = false → AI G I F A lo ⟨y.srv, w, rd, y.gors.set j { g with cur := some (c, r) }⟩ := by
    intro a c r g w rd hg hcur hp
    refine key _ _ _ _ h.srv ?_ (h.todo j g hg)
    intro c' r' e
    simp only [Option.some.injEq, Prod.mk.injEq] at e
    obtain ⟨rfl, rfl⟩ := e
    exact (h.gor j g hg _ _ hcur).pass hp
  have hw := went y j
  generalize y.step j = z at hw
  cases hw with
  | stay => exact h
  | begin g c cs hg hcur ht =>
    have h0 := h.todo j g hg
    rw [ht] at h0
    refine key _ _ _ _ h.srv ?_ fun k f q => h0 k f (List.mem_cons_of_mem _ q)
    intro c' r' e
    simp only [Option.some.injEq, Prod.mk.injEq] at e
    obtain ⟨rfl, rfl⟩ := e
    exact code_onAnch G I F c (fun k f e => h0 k f (e ▸ List.mem_cons_self)) _
  | lock g c r hg hcur _ _ => exact pass g _ _ hg hcur rfl
  | unlock g c r hg hcur _ => exact pass g _ _ hg hcur rfl
  | rlock g c r hg hcur _ => exact pass g _ _ hg hcur rfl
  | runlock g c r hg hcur _ => exact pass g _ _ hg hcur rfl
  | ret g c o r hg hcur => exact key _ _ _ _ h.srv (by intro c r e; cases e) (h.todo j g hg)
  | plain g c a r hg hcur hp =>
    obtain ⟨q1, q2⟩ := (h.gor j g hg _ _ hcur).exec hC h.srv
    refine key _ _ _ _ q1 ?_ (h.todo j g hg)
    intro c' r' e
    simp only [Option.some.injEq, Prod.mk.injEq] at e
    obtain ⟨rfl, rfl⟩ := e
    exact q2

theorem ai_run {G : String → MAnchor → Prop} {I : String → Nat → Prop} {F : String → H → Prop} {A : String → Prop} {lo : Nat}
    (hC : Clo G I F A lo) {y : Sys} (h : AI G I F A lo y) (sched : List Nat) : AI G I F A lo (y.run sched) := by
  induction sched generalizing y with
  | nil => exact h
  | cons j t ih => exact ih (ai_step hC h j)

theorem ai_start {G : String → MAnchor → Prop} {I : String → Nat → Prop} {F : String → H → Prop} {A : String → Prop} {lo : Nat} {s : Srv}
    (hs : AS G A lo s) (progs : List (List Call)) (hF : ∀ p ∈ progs, ∀ k f, .use k f ∈ p → F k f) : AI G I F A lo (start s progs) := by
  refine ⟨hs, ?_, ?_⟩
  · intro i g hg
    have hmem := List.mem_of_getElem? hg
    simp only [start, List.mem_map] at hmem
    obtain ⟨p, _, rfl⟩ := hmem
    intro c r e; cases e
  · intro i g hg
    have hmem := List.mem_of_getElem? hg
    simp only [start, List.mem_map] at hmem
    obtain ⟨p, hpm, rfl⟩ := hmem
    exact hF p hpm

/-! ## Ranges -/

/-- As many ends as starts, or one less. -/
def Wf (a : MAnchor) : Prop := a.ends.length ≤ a.starts.length ∧ a.starts.length ≤ a.ends.length + 1

theorem scan_some (ss es : List Nat) (i : Nat) (hl : es.length ≤ ss.length) : ∃ b, MAnchor.scan ss es i = some b := by
  induction es generalizing ss with
  | nil => exact ⟨false, by cases ss <;> rfl⟩
  | cons e es ih =>
    cases ss with
    | nil => simp at hl
    | cons s ss =>
      simp only [MAnchor.scan]
      split
      · exact ⟨_, rfl⟩
      · exact ih ss (by simpa using hl)

/-- `Contains` does not panic. -/
theorem Wf.contains {a : MAnchor} (h : Wf a) (i : Nat) : ∃ b, a.contains i = some b := by
  unfold MAnchor.contains
  split
  · exact scan_some _ _ _ h.1
  · next hne =>
    cases hl : a.starts.getLast? with
    | none =>
      have hn : a.starts = [] := by simpa using hl
      have := h.1
      rw [hn] at this hne
      simp only [List.length_nil] at this hne
      omega
    | some l =>
      simp only
      split
      · exact ⟨_, rfl⟩
      · exact scan_some _ _ _ h.1

theorem callUse_eq {a a' : MAnchor} {i : Nat} (h : a.callUse i = some a') :
    a' = { a with starts := a.starts ++ [i] } ∧ a.starts.length ≤ a.ends.length := by
  unfold MAnchor.callUse at h
  split at h
  · cases h
  · cases h; exact ⟨rfl, by omega⟩

theorem callUnUse_eq {a a' : MAnchor} {i : Nat} (h : a.callUnUse i = some a') :
    a' = { a with ends := a.ends ++ [i] } ∧ a.ends.length < a.starts.length := by
  unfold MAnchor.callUnUse at h
  split at h
  · cases h
  · cases h; exact ⟨rfl, by omega⟩

theorem Wf.use {a a' : MAnchor} {i : Nat} (h : Wf a) (e : a.callUse i = some a') : Wf a' := by
  obtain ⟨rfl, hl⟩ := callUse_eq e
  have := h.1
  exact ⟨by simp only [List.length_append, List.length_singleton]; omega, by simp only [List.length_append, List.length_singleton]; omega⟩

theorem Wf.un {a a' : MAnchor} {i : Nat} (h : Wf a) (e : a.callUnUse i = some a') : Wf a' := by
  obtain ⟨rfl, hl⟩ := callUnUse_eq e
  have := h.2
  exact ⟨by simp only [List.length_append, List.length_singleton]; omega, by simp only [List.length_append, List.length_singleton]; omega⟩

/-- A period that begins later does not change what is covered. -/
theorem contains_use {a a' : MAnchor} {i x : Nat} (h : Wf a) (hx : x < i) (e : a.callUse i = some a') : a'.contains x = a.contains x := by
  obtain ⟨rfl, hl⟩ := callUse_eq e
  have hle := h.1
  have hlen : a.starts.length = a.ends.length := by omega
  rw [contains_eq, contains_eq]
  simp only
  rw [containsR_open _ _ _ _ hlen, containsR_closed _ _ _ hlen, if_neg (by omega)]

/-- A period that ends later does not change what is covered. -/
theorem contains_un {a a' : MAnchor} {i x : Nat} (h : Wf a) (hx : x < i) (e : a.callUnUse i = some a') : a'.contains x = a.contains x := by
  obtain ⟨rfl, hl⟩ := callUnUse_eq e
  have h1 := h.1
  have h2 := h.2
  have hlen : a.starts.length = a.ends.length + 1 := by omega
  rw [contains_eq, contains_eq]
  simp only
  have hne : a.starts ≠ [] := by intro q; rw [q] at hlen; simp at hlen
  obtain ⟨ss, st, q⟩ : ∃ ss st, a.starts = ss ++ [st] := ⟨a.starts.dropLast, a.starts.getLast hne, (List.dropLast_concat_getLast hne).symm⟩
  rw [q] at hlen ⊢
  have hlen' : ss.length = a.ends.length := by simpa using hlen
  rw [containsR_open _ _ _ _ hlen', containsR_closed _ _ _ (by simp [hlen'])]
  exact scan_snoc _ _ _ _ _ hlen'.symm (by omega)

theorem anchorsAt_some (as : List MAnchor) (i : Nat) (h : ∀ a ∈ as, Wf a) :
    ∃ l, anchorsAt as i = some l ∧ ∀ m, m ∈ l ↔ ∃ a ∈ as, a.contains i = some true ∧ a.mw = m := by
  induction as with
  | nil => exact ⟨[], rfl, by simp⟩
  | cons a as ih =>
    obtain ⟨l, e, q⟩ := ih fun b hb => h b (List.mem_cons_of_mem _ hb)
    obtain ⟨b, hb⟩ := (h a List.mem_cons_self).contains i
    refine ⟨if b then a.mw :: l else l, by simp only [anchorsAt, hb, e, Option.map_some], ?_⟩
    intro m
    cases b with
    | true =>
      simp only [if_true, List.mem_cons, q]
      constructor
      · rintro (rfl | ⟨a', h1, h2⟩)
        · exact ⟨a, .inl rfl, hb, rfl⟩
        · exact ⟨a', .inr h1, h2⟩
      · rintro ⟨a', rfl | h1, h2, h3⟩
        · exact .inl h3.symm
        · exact .inr ⟨a', h1, h2, h3⟩
    | false =>
      simp only [Bool.false_eq_true, if_false, List.mem_cons, q]
      constructor
      · rintro ⟨a', h1, h2⟩; exact ⟨a', .inr h1, h2⟩
      · rintro ⟨a', rfl | h1, h2, h3⟩
        · rw [hb] at h2; simp at h2
        · exact ⟨a', h1, h2, h3⟩

/-! ## The anchors of one key -/

/-- What the server has of a key. -/
structure SameKey (k : String) (s s' : Srv) : Prop where
  map : s'.mux.anchorMap.get? k = s.mux.anchorMap.get? k
  list : s'.mux.anchors.filter (fun a => a.key = k) = s.mux.anchors.filter (fun a => a.key = k)
  seed : s.mux.seed ≤ s'.mux.seed

theorem SameKey.rfl' (k : String) (s : Srv) : SameKey k s s := ⟨rfl, rfl, Nat.le_refl _⟩

theorem SameAnch.key {s s' : Srv} (h : SameAnch s s') (k : String) : SameKey k s s' := ⟨by rw [h.map], by rw [h.list], h.seed⟩

theorem filter_replaceFirst {k : String} {a : MAnchor} (hk : a.key ≠ k) (l : List MAnchor) :
    (Mux.replaceFirst a l).filter (fun b => b.key = k) = l.filter (fun b => b.key = k) := by
  induction l with
  | nil => rfl
  | cons v vs ih =>
    simp only [Mux.replaceFirst]
    split
    · next e => simp [hk, e]
    · simp only [List.filter_cons, ih]

/-- A call that does not name the key leaves it alone. -/
theorem OnAnch.other {G : String → MAnchor → Prop} {I : String → Nat → Prop} {F : String → H → Prop} (hkey : ∀ k a, G k a → a.key = k)
    {c : Call} {a : Act} {r : List Act} {l : Loc} (h : OnAnch G I F c (a :: r) l) {k : String} (hc : names k c = false) (s : Srv) :
    SameKey k s (a.exec s l r).1 := by
  generalize hq : a :: r = q at h
  have put : ∀ {k' : String} (a' : MAnchor), k' ≠ k → SameKey k s { s with mux := { s.mux with anchorMap := s.mux.anchorMap.set k' a' } } := by
    intro k' a' hne
    exact ⟨by simp only [GoMap.get?_set, if_neg (Ne.symm hne)], rfl, Nat.le_refl _⟩
  cases h with
  | quiet _ _ _ h => subst hq; exact (exec_sameAnch a (h a List.mem_cons_self) s l r).key k
  | look k' f _ hF =>
    cases hq
    simp only [Act.exec]
    split <;> exact SameKey.rfl' _ _
  | new k' f _ j hj a' ha hG hI =>
    have hne : k' ≠ k := by simpa [names] using hc
    obtain ⟨e, q⟩ := drop_ufull hj hq.symm
    rcases q with ⟨rfl, rfl⟩ | ⟨rfl, rfl⟩ | ⟨rfl, rfl⟩ | ⟨rfl, rfl⟩
    · exact (exec_sameAnch .index rfl s l r).key k
    · simp only [Act.exec]; split <;> exact SameKey.rfl' _ _
    · exact SameKey.rfl' _ _
    · simp only [Act.exec, ha]
      unfold Mux.addMiddlewareAnchor
      have hk' := hkey _ _ hG
      split
      · exact SameKey.rfl' _ _
      · have h1 := put (k' := a'.key) a' (by rw [hk']; exact hne)
        refine ⟨h1.map, ?_, Nat.le_refl _⟩
        simp [List.filter_append, hk', hne]
  | old k' f _ j hj a' ha hG hI =>
    have hne : k' ≠ k := by simpa [names] using hc
    obtain ⟨e, q⟩ := drop_uold hj hq.symm
    rcases q with ⟨rfl, rfl⟩ | ⟨rfl, rfl⟩ | ⟨rfl, rfl⟩
    · exact (exec_sameAnch .index rfl s l r).key k
    · simp only [Act.exec]; split <;> exact SameKey.rfl' _ _
    · simp only [Act.exec, ha]
      exact put a' hne
  | un0 k' _ =>
    cases hq
    simp only [Act.exec]
    split <;> exact SameKey.rfl' _ _
  | un k' _ j h1 hj a' ha hG hI =>
    have hne : k' ≠ k := by simpa [names] using hc
    obtain ⟨e, q⟩ := drop_ucode hj hq.symm
    rcases q with ⟨rfl, rfl⟩ | ⟨rfl, rfl⟩ | ⟨rfl, rfl⟩ | ⟨rfl, rfl⟩ | ⟨rfl, rfl⟩
    · omega
    · exact (exec_sameAnch .index rfl s l r).key k
    · simp only [Act.exec]; split <;> exact SameKey.rfl' _ _
    · exact SameKey.rfl' _ _
    · simp only [Act.exec, ha]
      unfold Mux.replaceMiddlewareAnchor
      have hk' := hkey _ _ hG
      split
      · exact SameKey.rfl' _ _
      · have h1 := put (k' := a'.key) a' (by rw [hk']; exact hne)
        refine ⟨h1.map, ?_, Nat.le_refl _⟩
        exact filter_replaceFirst (by rw [hk']; exact hne) _

theorem replaceFirst_keys (a : MAnchor) (l : List MAnchor) : (Mux.replaceFirst a l).map (·.key) = l.map (·.key) := by
  induction l with
  | nil => rfl
  | cons v vs ih =>
    simp only [Mux.replaceFirst]
    split
    · next e => simp [e]
    · simp [ih]

/-- The list of keys is only ever extended. -/
theorem exec_keys (a : Act) (s : Srv) (l : Loc) (r : List Act) : s.mux.anchors.map (·.key) <+: (a.exec s l r).1.mux.anchors.map (·.key) := by
  by_cases ha : a.anch = false
  · rw [(exec_sameAnch a ha s l r).list]; exact List.prefix_refl _
  · cases a <;> try (exact absurd rfl ha)
    case addAnchor =>
      simp only [Act.exec]; split
      · exact List.prefix_refl _
      · dsimp only; unfold Mux.addMiddlewareAnchor
        split
        · exact List.prefix_refl _
        · simp
    case replAnchor =>
      simp only [Act.exec]; split
      · exact List.prefix_refl _
      · dsimp only; unfold Mux.replaceMiddlewareAnchor
        split
        · exact List.prefix_refl _
        · simp only [Out.ret, replaceFirst_keys]; exact List.prefix_refl _
    all_goals simp only [Act.exec]
    all_goals (repeat' split)
    all_goals exact List.prefix_refl _

theorem step_keys (y : Sys) (j : Nat) : y.srv.mux.anchors.map (·.key) <+: (y.step j).srv.mux.anchors.map (·.key) := by
  have hw := went y j
  generalize y.step j = z at hw
  cases hw with
  | plain g c a r hg hcur hp => exact exec_keys a _ _ _
  | _ => exact List.prefix_refl _

end Register
end Tcpx
