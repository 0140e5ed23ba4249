import Verif.Lemmas.RegisterCov
/-!
# Lemmas about goroutines that register and dispatch: ids that are not those of the heartbeat, while its handler is rewritten
-/
namespace Tcpx
namespace Register
open Spec

/-- The rest of a call neither makes the id that of the heartbeat nor takes away what there is for it. -/
structure Spares (id : Int32) (l : Loc) (r : List Act) : Prop where
  sets : Act.setHb id ∉ r
  dels : (∃ r', r = .readHb :: r') ∨ (∀ a ∈ r, a.dels = false) ∨ l.hb ≠ id

theorem exec_rest (id : Int32) (a : Act) (s : Srv) (l : Loc) (r : List Act) :
    ∀ b ∈ (a.exec s l r).2.2, b ∈ r ∨ (b ≠ .setHb id ∧ b.dels = false) := by
  have hu : ∀ b ∈ unwind r, b ∈ r ∨ (b ≠ .setHb id ∧ b.dels = false) := by
    intro b hb
    right
    unfold unwind at hb
    split at hb
    all_goals simp only [List.mem_cons, List.not_mem_nil, or_false] at hb
    · rcases hb with rfl | rfl <;> exact ⟨(by intro e; cases e), rfl⟩
    · rcases hb with rfl | rfl <;> exact ⟨(by intro e; cases e), rfl⟩
    · subst hb; exact ⟨(by intro e; cases e), rfl⟩
  have hr : ∀ b ∈ r, b ∈ r ∨ (b ≠ .setHb id ∧ b.dels = false) := fun b hb => .inl hb
  cases a <;> simp only [Act.exec]
  all_goals (repeat' split)
  all_goals first
    | exact hr
    | exact hu
    | (intro b hb; simp only [List.mem_cons] at hb
       rcases hb with rfl | hb
       · exact .inr ⟨(by intro e; cases e), rfl⟩
       · exact .inl hb)
    | (intro b hb; right; simp only [Register.locked, List.cons_append, List.nil_append, List.mem_cons, List.not_mem_nil, or_false] at hb
       repeat' (rcases hb with rfl | hb)
       all_goals first | exact ⟨(by intro e; cases e), rfl⟩ | (subst hb; exact ⟨(by intro e; cases e), rfl⟩))

theorem exec_hb (a : Act) (ha : a ≠ .readHb) (s : Srv) (l : Loc) (r : List Act) : (a.exec s l r).2.1.hb = l.hb := by
  cases a <;> try (exact absurd rfl ha)
  all_goals simp only [Act.exec]
  all_goals (repeat' split)
  all_goals rfl

/-- The settings dispatch reads are as before, for this id. -/
structure CfgFor (id : Int32) (s s' : Srv) : Prop where
  hbId : s'.hbId ≠ id
  authId : s'.authId = s.authId
  authThrough : s'.authThrough = s.authThrough

theorem exec_cfgFor {id : Int32} {s0 s : Srv} (h : CfgFor id s0 s) (a : Act) (ha : a ≠ .setHb id) (l : Loc) (r : List Act) :
    CfgFor id s0 (a.exec s l r).1 := by
  cases hs : a.cfgs with
  | false =>
    have hc := exec_cfg a hs s l r
    exact ⟨by rw [hc.hbId]; exact h.hbId, hc.authId.trans h.authId, hc.authThrough.trans h.authThrough⟩
  | true =>
    cases a <;> try (cases hs; done)
    · exact ⟨h.hbId, h.authId, h.authThrough⟩
    · exact ⟨h.hbId, h.authId, h.authThrough⟩
    · next i => exact ⟨(by intro e; exact ha (congrArg Act.setHb e)), h.authId, h.authThrough⟩

theorem exec_spares (id : Int32) (a : Act) (s : Srv) (hs : s.hbId ≠ id) (l : Loc) (r : List Act) (h : Spares id l (a :: r)) :
    Spares id (a.exec s l r).2.1 (a.exec s l r).2.2 := by
  refine ⟨?_, ?_⟩
  · intro hb
    rcases exec_rest id a s l r _ hb with q | q
    · exact h.sets (List.mem_cons_of_mem _ q)
    · exact q.1 rfl
  · by_cases ha : a = .readHb
    · subst ha; exact .inr (.inr hs)
    · rcases h.dels with ⟨r', e⟩ | q | q
      · simp only [List.cons.injEq] at e; exact absurd e.1 ha
      · right; left
        intro b hb
        rcases exec_rest id a s l r b hb with w | w
        · exact q b (List.mem_cons_of_mem _ w)
        · exact w.2
      · right; right
        rw [exec_hb a ha]; exact q

theorem code_spares (id : Int32) (c : Call) (hc : ∀ f, c ≠ .rewriteHeartBeat id f) (l : Loc) : Spares id l c.code := by
  by_cases hr : rewritesHb c = false
  · have := code_cfgs c hr
    exact ⟨fun h => (by have := this _ h; cases this), .inr (.inl fun a ha => by have := this a ha; cases a <;> first | rfl | cases this)⟩
  · cases c <;> try (exact absurd rfl hr)
    next i f =>
      have hi : i ≠ id := by rintro rfl; exact hc f rfl
      refine ⟨?_, .inl ⟨_, rfl⟩⟩
      intro ha
      simp only [Call.code, List.mem_append, List.mem_cons, List.not_mem_nil, or_false] at ha
      rcases ha with (e | e | e | e) | ha
      · cases e
      · cases e
      · cases e
      · exact hi (Act.setHb.inj e).symm
      · have := code_cfgs (.addHandler i [f]) rfl _ ha
        cases this

/-- The id is not that of the heartbeat, and nothing under way or to come makes it that or takes away what there is for it. -/
structure SpareInv (id : Int32) (s0 : Srv) (y : Sys) : Prop where
  cfg : CfgFor id s0 y.srv
  gor : ∀ g ∈ y.gors, (∀ c ∈ g.todo, ∀ f, c ≠ .rewriteHeartBeat id f) ∧ ∀ c r, g.cur = some (c, r) → Spares id g.loc r

theorem spare_step {id : Int32} {s0 : Srv} {y : Sys} (h : SpareInv id s0 y) (j : Nat) : SpareInv id s0 (y.step j) := by
  have key : ∀ (g' : Gor) (s : Srv) (w : Option Nat) (rd : List Nat), CfgFor id s0 s →
      ((∀ c ∈ g'.todo, ∀ f, c ≠ .rewriteHeartBeat id f) ∧ ∀ c r, g'.cur = some (c, r) → Spares id g'.loc r) →
      SpareInv id s0 ⟨s, w, rd, y.gors.set j g'⟩ := by
    intro g' s w rd hs hg'
    refine ⟨hs, ?_⟩
    intro g hg
    rcases List.mem_or_eq_of_mem_set hg with q | q
    · exact h.gor g q
    · subst q; exact hg'
  have pass : ∀ {a : Act} {c : Call} {r : List Act} (g : Gor) (w : Option Nat) (rd : List Nat), y.gors[j]? = some g → g.cur = some (c, a :: r) →
      a ≠ .readHb → SpareInv id s0 ⟨y.srv, w, rd, y.gors.set j { g with cur := some (c, r) }⟩ := by
    intro a c r g w rd hg hcur hne
    obtain ⟨q1, q2⟩ := h.gor g (List.mem_of_getElem? hg)
    refine key _ _ _ _ h.cfg ⟨q1, ?_⟩
    intro c' r' e
    simp only [Option.some.injEq, Prod.mk.injEq] at e
    obtain ⟨rfl, rfl⟩ := e
    have := q2 _ _ hcur
    refine ⟨fun hb => this.sets (List.mem_cons_of_mem _ hb), ?_⟩
    rcases this.dels with ⟨r', e⟩ | q | q
    · simp only [List.cons.injEq] at e; exact absurd e.1 hne
    · exact .inr (.inl fun b hb => q b (List.mem_cons_of_mem _ hb))
    · exact .inr (.inr q)
  have hw := went y j
  generalize y.step j = z at hw
  cases hw with
  | stay => exact h
  | begin g c cs hg hcur ht =>
    obtain ⟨q1, q2⟩ := h.gor g (List.mem_of_getElem? hg)
    rw [ht] at q1
    refine key _ _ _ _ h.cfg ⟨fun c hc => q1 c (List.mem_cons_of_mem _ hc), ?_⟩
    intro c' r' e
    simp only [Option.some.injEq, Prod.mk.injEq] at e
    obtain ⟨rfl, rfl⟩ := e
    exact code_spares id c (q1 c List.mem_cons_self) _
  | lock g c r hg hcur _ _ => exact pass g _ _ hg hcur (by intro e; cases e)
  | unlock g c r hg hcur _ => exact pass g _ _ hg hcur (by intro e; cases e)
  | rlock g c r hg hcur _ => exact pass g _ _ hg hcur (by intro e; cases e)
  | runlock g c r hg hcur _ => exact pass g _ _ hg hcur (by intro e; cases e)
  | ret g c o r hg hcur =>
    exact key _ _ _ _ h.cfg ⟨(h.gor g (List.mem_of_getElem? hg)).1, by intro c r e; cases e⟩
  | plain g c a r hg hcur hp =>
    obtain ⟨q1, q2⟩ := h.gor g (List.mem_of_getElem? hg)
    have hs := q2 _ _ hcur
    refine key _ _ _ _ (exec_cfgFor h.cfg a (by rintro rfl; exact hs.sets List.mem_cons_self) g.loc r) ⟨q1, ?_⟩
    intro c' r' e
    simp only [Option.some.injEq, Prod.mk.injEq] at e
    obtain ⟨rfl, rfl⟩ := e
    exact exec_spares id a y.srv h.cfg.hbId g.loc r hs

theorem spare_run {id : Int32} {s0 : Srv} {y : Sys} (h : SpareInv id s0 y) (sched : List Nat) : SpareInv id s0 (y.run sched) := by
  induction sched generalizing y with
  | nil => exact h
  | cons j t ih => exact ih (spare_step h j)

theorem SpareInv.noDel {id : Int32} {s0 : Srv} {y : Sys} (h : SpareInv id s0 y) : NoDel id y := by
  intro g hg c a r hcur hd
  rcases ((h.gor g hg).2 _ _ hcur).dels with ⟨r', e⟩ | q | q
  · simp only [List.cons.injEq] at e; rw [e.1] at hd; cases hd
  · rw [q a List.mem_cons_self] at hd; cases hd
  · exact q

theorem CfgInv.noDel {s0 : Srv} {y : Sys} (h : CfgInv s0 y) (id : Int32) : NoDel id y := by
  intro g hg c a r hcur hd
  have := (h.gor g hg).2 _ _ hcur a List.mem_cons_self
  cases a <;> first | (cases hd; done) | (cases this; done)

/-- The handler of the id is not taken away, and what is said of it stays. -/
theorem notRewritten_run {h : List RegEv} {id : Int32} {progs : List (List Call)} (hp : NotRewritten h id progs) (t : List Nat) :
    NoDel id ((start (runHist h) progs).run t) ∧ (Bypass ((start (runHist h) progs).run t).srv id ↔ bypasses h id) := by
  obtain ⟨c1, c2, _⟩ := cfg_eq h
  rcases hp with hp | ⟨hne, hp⟩
  · have := cfg_run (cfg_start (runHist h) progs hp) t
    exact ⟨this.noDel id, bypass_cfg h id this.same⟩
  · have h0 : (runHist h).hbId ≠ id := by rw [← c1] at hne; exact hne
    have hi : SpareInv id (runHist h) (start (runHist h) progs) := by
      refine ⟨⟨h0, rfl, rfl⟩, ?_⟩
      intro g hg
      simp only [start, List.mem_map] at hg
      obtain ⟨q, hq, rfl⟩ := hg
      exact ⟨hp q hq, by intro c r e; cases e⟩
    have hs := spare_run hi t
    refine ⟨hs.noDel, ?_⟩
    unfold Bypass bypasses
    rw [hs.cfg.authId, hs.cfg.authThrough, ← c2]
    constructor
    · rintro (q | q)
      · exact absurd q.1.symm hs.cfg.hbId
      · exact .inr q
    · rintro (q | q)
      · exact absurd q.1.symm hne
      · exact .inr q

theorem notRewritten_not {h : List RegEv} {id : Int32} {progs : List (List Call)} (hp : NotRewritten h id progs) :
    ∀ p ∈ progs, ∀ c ∈ p, ∀ f, c ≠ .rewriteHeartBeat id f := by
  rcases hp with hp | hp
  · rintro p hpm c hc f rfl
    have := hp p hpm _ hc
    cases this
  · exact hp.2

theorem notRewritten_of {h : List RegEv} {id : Int32} {progs : List (List Call)} (hp : ∀ p ∈ progs, ∀ c ∈ p, c.rewrites = false) :
    NotRewritten h id progs := .inl fun p hpm c hc => (rewritesHb_eq c).symm.trans (hp p hpm c hc)

end Register
end Tcpx
