import Verif.Lemmas.RegisterCov
import Verif.Lemmas.RegisterUrl
/-!
# Lemmas about goroutines that register and dispatch: a message dispatched while the anchors change

As in `RegisterDisp` and the end of `RegisterUrl`, but the anchors that the dispatch has still to read may be replaced meanwhile.
-/
namespace Tcpx
namespace Register
namespace Live
open Spec

/-- The middlewares of the anchors with the index. -/
def caught (i : Nat) (R : List MAnchor) : List H := (R.filter fun a => a.contains i = some true).map (·.mw)

theorem caught_snoc (i : Nat) (R : List MAnchor) (a : MAnchor) :
    caught i (R ++ [a]) = caught i R ++ if a.contains i = some true then [a.mw] else [] := by
  unfold caught
  rw [List.filter_append, List.map_append]
  congr 1
  by_cases h : a.contains i = some true <;> simp [h]

theorem grow {K : List String} {as R : List MAnchor} (hK : K <+: as.map (·.key)) (hR : R.map (·.key) <+: K) (hlt : R.length < K.length)
    (hlen : R.length < as.length) : (R ++ [as[R.length]]).map (·.key) <+: K := by
  obtain ⟨t, ht⟩ := hR
  obtain ⟨t', ht'⟩ := hK
  cases t with
  | nil => rw [← ht] at hlt; simp at hlt
  | cons x t =>
    refine ⟨t, ?_⟩
    rw [← ht]
    have : (as.map (·.key))[R.length]? = some x := by rw [← ht', ← ht]; simp
    rw [List.getElem?_map, List.getElem?_eq_getElem hlen] at this
    simp only [Option.map_some, Option.some.injEq] at this
    simp [this]

/-- What stays, of what there is for the id. -/
structure Keeps (id : Int32) (s s' : Srv) : Prop where
  keys : s.mux.anchors.map (·.key) <+: s'.mux.anchors.map (·.key)
  handlers : (s.mux.handlers.get? id).isSome = true → (s'.mux.handlers.get? id).isSome = true
  anch : ∀ i, s.mux.idAnchors.get? id = some i → s'.mux.idAnchors.get? id = some i

theorem Keeps.rfl' (id : Int32) (s : Srv) : Keeps id s s := ⟨List.prefix_refl _, fun h => h, fun _ h => h⟩

theorem exec_keeps (id : Int32) (a : Act) (s : Srv) (l : Loc) (ha : a.dels = true → l.hb ≠ id) (r : List Act) : Keeps id s (a.exec s l r).1 := by
  refine ⟨exec_keys a s l r, ?_, ?_⟩
  · intro h
    cases a
    case delHandler =>
      have hne : ¬ id = l.hb := fun e => ha rfl e.symm
      simpa only [Act.exec, GoMap.get?_delete, if_neg hne] using h
    case handle id' f =>
      simp only [Act.exec]
      split
      · exact h
      · simp only [GoMap.get?_set]
        split
        · rfl
        · exact h
    case addAnchor =>
      simp only [Act.exec]; split
      · exact h
      · simp only [Mux.addMiddlewareAnchor]; split <;> exact h
    case replAnchor =>
      simp only [Act.exec]; split
      · exact h
      · simp only [Mux.replaceMiddlewareAnchor]; (repeat' split) <;> exact h
    case urlPut =>
      simp only [Act.exec, Mux.addURLPatternHandler]; split <;> exact h
    case selfMw =>
      simp only [Act.exec]; split
      · exact h
      · dsimp only; split <;> exact h
    all_goals simp only [Act.exec]
    all_goals (repeat' split)
    all_goals exact h
  · intro i h
    cases a
    case delIdAnchor =>
      have hne : ¬ id = l.hb := fun e => ha rfl e.symm
      simpa only [Act.exec, GoMap.get?_delete, if_neg hne] using h
    case idAnchor id' =>
      simp only [Act.exec]
      split
      · exact h
      · next hn =>
        simp only [GoMap.get?_set]
        split
        · next e => rw [e, hn] at h; cases h
        · exact h
    case addAnchor =>
      simp only [Act.exec]; split
      · exact h
      · simp only [Mux.addMiddlewareAnchor]; split <;> exact h
    case replAnchor =>
      simp only [Act.exec]; split
      · exact h
      · simp only [Mux.replaceMiddlewareAnchor]; (repeat' split) <;> exact h
    case urlPut =>
      simp only [Act.exec, Mux.addURLPatternHandler]; split <;> exact h
    case selfMw =>
      simp only [Act.exec]; split
      · exact h
      · dsimp only; split <;> exact h
    all_goals simp only [Act.exec]
    all_goals (repeat' split)
    all_goals exact h

theorem keeps_step {id : Int32} {y : Sys} (h : NoDel id y) (j : Nat) : Keeps id y.srv (y.step j).srv := by
  have hw := went y j
  generalize y.step j = z at hw
  cases hw with
  | plain g c a r hg hcur hp => exact exec_keeps id a _ _ (h g (List.mem_of_getElem? hg) _ _ _ hcur) _
  | _ => exact Keeps.rfl' _ _

/-! ## Ids -/

/-- What dispatch may find for the id while others register. -/
structure Ends where
  id : Int32
  f : H
  self : List H
  okK : Nat → List String → Prop
  okA : Nat → MAnchor → Prop
  good : List H → Prop
  byp : Prop
  okN : Prop
  okP : Prop

structure View (e : Ends) (s : Srv) : Prop where
  hand : ∀ f, s.mux.handlers.get? e.id = some f → f = e.f ∧ (s.mux.selfMw.get? e.id).getD [] = e.self ∧ e.good s.mux.globals
  noneH : s.mux.handlers.get? e.id = none → e.okN
  anch : ∀ i, s.mux.idAnchors.get? e.id = some i → e.okK i (s.mux.anchors.map (·.key)) ∧ ∀ a ∈ s.mux.anchors, e.okA i a ∧ ∃ b, a.contains i = some b
  noneA : s.mux.idAnchors.get? e.id = none → e.okP
  byp : Bypass s e.id ↔ e.byp

/-- The middlewares found. -/
def Ends.okAs (e : Ends) (as : List H) : Prop := ∃ i R, e.okK i (R.map (·.key)) ∧ (∀ a ∈ R, e.okA i a) ∧ as = caught i R

/-- How the dispatch may end. -/
def Ends.Res (e : Ends) (o : Outcome) : Prop :=
  (e.okN ∧ o = .disp .nothing) ∨ (e.okP ∧ ¬ e.byp ∧ o = .panicked) ∨ (e.byp ∧ o = .disp (.direct e.f)) ∨
  (¬ e.byp ∧ ∃ g as, e.good g ∧ e.okAs as ∧ o = .disp (.chain (g ++ as ++ e.self ++ [e.f])))

/-- Where the dispatch of a message is. -/
inductive OnDisp (e : Ends) (s : Srv) : List Act → Loc → Prop
  | at0 (l : Loc) : OnDisp e s (dcode e.id) l
  | at1 (l : Loc) (hf : l.found = [e.f]) (hh : (s.mux.handlers.get? e.id).isSome = true) : OnDisp e s ((dcode e.id).drop 1) l
  | at2 (l : Loc) (hf : l.found = [e.f]) (hh : (s.mux.handlers.get? e.id).isSome = true) (hb : ¬ e.byp) : OnDisp e s ((dcode e.id).drop 2) l
  | at3 (l : Loc) (hf : l.found = [e.f]) (hh : (s.mux.handlers.get? e.id).isSome = true) (hb : ¬ e.byp) (hg : e.good l.chain) :
      OnDisp e s ((dcode e.id).drop 3) l
  | at4 (l : Loc) (hf : l.found = [e.f]) (hh : (s.mux.handlers.get? e.id).isSome = true) (hb : ¬ e.byp) (hg : e.good l.chain) :
      OnDisp e s ((dcode e.id).drop 4) l
  | at5 (l : Loc) (hf : l.found = [e.f]) (hh : (s.mux.handlers.get? e.id).isSome = true) (hb : ¬ e.byp) (hg : e.good l.chain)
      (hi : s.mux.idAnchors.get? e.id = some l.idx) : OnDisp e s ((dcode e.id).drop 5) l
  | at6 (l : Loc) (hf : l.found = [e.f]) (hh : (s.mux.handlers.get? e.id).isSome = true) (hb : ¬ e.byp) (hg : e.good l.chain)
      (hi : s.mux.idAnchors.get? e.id = some l.idx) : OnDisp e s ((dcode e.id).drop 6) l
  | scan (l : Loc) (K : List String) (R : List MAnchor) (g : List H) (hK : K <+: s.mux.anchors.map (·.key)) (hok : e.okK l.idx K)
      (hR : R.map (·.key) <+: K) (hA : ∀ a ∈ R, e.okA l.idx a) (hi : s.mux.idAnchors.get? e.id = some l.idx) (hf : l.found = [e.f]) (hh : (s.mux.handlers.get? e.id).isSome = true) (hb : ¬ e.byp) (hg : e.good g)
      (hc : l.chain = g ++ caught l.idx R) : OnDisp e s (.scan K.length R.length :: (dcode e.id).drop 7) l
  | at7 (l : Loc) (g as : List H) (hok : e.okAs as) (hf : l.found = [e.f]) (hh : (s.mux.handlers.get? e.id).isSome = true) (hb : ¬ e.byp) (hg : e.good g)
      (hc : l.chain = g ++ as) : OnDisp e s ((dcode e.id).drop 7) l
  | at8 (l : Loc) (g as : List H) (hok : e.okAs as) (hf : l.found = [e.f]) (hb : ¬ e.byp) (hg : e.good g)
      (hc : l.chain = g ++ as ++ e.self) : OnDisp e s ((dcode e.id).drop 8) l
  | over (l : Loc) (o : Outcome) (h : e.Res o) : OnDisp e s [.ret o] l
  | overR (l : Loc) (o : Outcome) (h : e.Res o) : OnDisp e s [.runlock, .ret o] l

theorem OnDisp.stays {e : Ends} {s s' : Srv} (hs : Keeps e.id s s') {r : List Act} {l : Loc} (h : OnDisp e s r l) : OnDisp e s' r l := by
  cases h with
  | at0 => exact .at0 _
  | at1 _ hf hh => exact .at1 _ hf (hs.handlers hh)
  | at2 _ hf hh hb => exact .at2 _ hf (hs.handlers hh) hb
  | at3 _ hf hh hb hg => exact .at3 _ hf (hs.handlers hh) hb hg
  | at4 _ hf hh hb hg => exact .at4 _ hf (hs.handlers hh) hb hg
  | at5 _ hf hh hb hg hi => exact .at5 _ hf (hs.handlers hh) hb hg (hs.anch _ hi)
  | at6 _ hf hh hb hg hi => exact .at6 _ hf (hs.handlers hh) hb hg (hs.anch _ hi)
  | scan _ K R g hK hok hR hA hi hf hh hb hg hc =>
    exact .scan _ K R g (hK.trans hs.keys) hok hR hA (hs.anch _ hi) hf (hs.handlers hh) hb hg hc
  | at7 _ g as hok hf hh hb hg hc => exact .at7 _ g as hok hf (hs.handlers hh) hb hg hc
  | at8 _ g as hok hf hb hg hc => exact .at8 _ g as hok hf hb hg hc
  | over _ o h => exact .over _ o h
  | overR _ o h => exact .overR _ o h

/-- One step of the dispatch that is not one of the mutex. -/
theorem OnDisp.exec {e : Ends} {s : Srv} (hv : View e s) {a : Act} {r : List Act} {l : Loc} (h : OnDisp e s (a :: r) l) (hp : a.plain = true) :
    OnDisp e s (a.exec s l r).2.2 (a.exec s l r).2.1 := by
  have some_of : (s.mux.handlers.get? e.id).isSome = true → ∃ f, s.mux.handlers.get? e.id = some f := fun q => Option.isSome_iff_exists.1 q
  generalize hq : a :: r = q at h
  cases h with
  | at0 =>
    simp only [dcode, List.cons.injEq] at hq
    obtain ⟨rfl, rfl⟩ := hq
    simp only [Act.exec]
    cases hm : s.mux.handlers.get? e.id with
    | none => exact .over _ _ (.inl ⟨hv.noneH hm, rfl⟩)
    | some f =>
      obtain ⟨rfl, _⟩ := hv.hand f hm
      exact .at1 _ rfl (by rw [hm]; rfl)
  | at1 _ hf hh =>
    simp only [dcode, List.drop_succ_cons, List.drop_zero, List.cons.injEq] at hq
    obtain ⟨rfl, rfl⟩ := hq
    simp only [Act.exec]
    split
    · next hb => rw [hf]; exact .over _ _ (.inr (.inr (.inl ⟨hv.byp.1 hb, rfl⟩)))
    · next hb => exact .at2 _ hf hh (fun q => hb (hv.byp.2 q))
  | at2 _ hf hh hb =>
    simp only [dcode, List.drop_succ_cons, List.drop_zero, List.cons.injEq] at hq
    obtain ⟨rfl, rfl⟩ := hq
    obtain ⟨f, hm⟩ := some_of hh
    exact .at3 _ hf hh hb (hv.hand f hm).2.2
  | at3 _ hf hh hb hg =>
    simp only [dcode, List.drop_succ_cons, List.drop_zero, List.cons.injEq] at hq
    obtain ⟨rfl, rfl⟩ := hq
    simp [Act.plain] at hp
  | at4 _ hf hh hb hg =>
    simp only [dcode, List.drop_succ_cons, List.drop_zero, List.cons.injEq] at hq
    obtain ⟨rfl, rfl⟩ := hq
    simp only [Act.exec]
    cases hm : s.mux.idAnchors.get? e.id with
    | none => exact .overR _ _ (.inr (.inl ⟨hv.noneA hm, hb, rfl⟩))
    | some i => exact .at5 _ hf hh hb hg hm
  | at5 _ hf hh hb hg hi =>
    simp only [dcode, List.drop_succ_cons, List.drop_zero, List.cons.injEq] at hq
    obtain ⟨rfl, rfl⟩ := hq
    simp [Act.plain] at hp
  | at6 _ hf hh hb hg hi =>
    simp only [dcode, List.drop_succ_cons, List.drop_zero, List.cons.injEq] at hq
    obtain ⟨rfl, rfl⟩ := hq
    simp only [Act.exec]
    have := OnDisp.scan (e := e) (s := s) l (s.mux.anchors.map (·.key)) [] l.chain (List.prefix_refl _) (hv.anch _ hi).1 List.nil_prefix
      (by intro a ha; cases ha) hi hf hh hb hg (by simp [caught])
    simpa [dcode] using this
  | scan _ K R g hK hok hR hA hi hf hh hb hg hc =>
    simp only [List.cons.injEq] at hq
    obtain ⟨rfl, rfl⟩ := hq
    simp only [Act.exec]
    by_cases hlt : R.length < K.length
    · rw [if_pos hlt]
      have hlen : R.length < s.mux.anchors.length := by
        have := hK.length_le
        simp only [List.length_map] at this
        omega
      rw [List.getElem?_eq_getElem hlen]
      obtain ⟨hok', b, hcon⟩ := (hv.anch _ hi).2 _ (List.getElem_mem hlen)
      have hpre : (R ++ [s.mux.anchors[R.length]]).map (·.key) <+: K := grow hK hR hlt hlen
      have hA' : ∀ a ∈ R ++ [s.mux.anchors[R.length]], e.okA l.idx a := by
        intro a ha
        rcases List.mem_append.1 ha with ha | ha
        · exact hA a ha
        · simp only [List.mem_singleton] at ha
          subst ha; exact hok'
      simp only [hcon]
      have := OnDisp.scan (e := e) (s := s) { l with chain := if b then l.chain ++ [s.mux.anchors[R.length].mw] else l.chain } K
        (R ++ [s.mux.anchors[R.length]]) g hK hok hpre hA' hi hf hh hb hg (by cases b <;> simp [caught_snoc, hcon, hc])
      simpa using this
    · rw [if_neg hlt]
      have hfull : R.map (·.key) = K := hR.eq_of_length (by have := hR.length_le; simp only [List.length_map] at this ⊢; omega)
      exact .at7 _ g _ ⟨l.idx, R, by rw [hfull]; exact hok, hA, rfl⟩ hf hh hb hg hc
  | at7 _ g as hok hf hh hb hg hc =>
    simp only [dcode, List.drop_succ_cons, List.drop_zero, List.cons.injEq] at hq
    obtain ⟨rfl, rfl⟩ := hq
    obtain ⟨f, hm⟩ := some_of hh
    refine .at8 _ g as hok hf hb hg ?_
    simp only [Act.exec, (hv.hand f hm).2.1, hc]
  | at8 _ g as hok hf hb hg hc =>
    simp only [dcode, List.drop_succ_cons, List.drop_zero, List.cons.injEq] at hq
    obtain ⟨rfl, rfl⟩ := hq
    simp only [Act.exec, hf, hc]
    exact .over _ _ (.inr (.inr (.inr ⟨hb, g, as, hg, hok, rfl⟩)))
  | over _ o h =>
    simp only [List.cons.injEq] at hq
    obtain ⟨rfl, rfl⟩ := hq
    simp [Act.plain] at hp
  | overR _ o h =>
    simp only [List.cons.injEq] at hq
    obtain ⟨rfl, rfl⟩ := hq
    simp [Act.plain] at hp

/-- A step of the mutex. -/
theorem OnDisp.mutex {e : Ends} {s : Srv} {a : Act} {r : List Act} {l : Loc} (h : OnDisp e s (a :: r) l) (hp : a.plain = false)
    (hr : ∀ o, a ≠ .ret o) : OnDisp e s r l := by
  generalize hq : a :: r = q at h
  cases h with
  | at3 _ hf hh hb hg =>
    simp only [dcode, List.drop_succ_cons, List.drop_zero, List.cons.injEq] at hq
    obtain ⟨rfl, rfl⟩ := hq
    exact .at4 _ hf hh hb hg
  | at5 _ hf hh hb hg hi =>
    simp only [dcode, List.drop_succ_cons, List.drop_zero, List.cons.injEq] at hq
    obtain ⟨rfl, rfl⟩ := hq
    exact .at6 _ hf hh hb hg hi
  | overR _ o h =>
    simp only [List.cons.injEq] at hq
    obtain ⟨rfl, rfl⟩ := hq
    exact .over _ _ h
  | over _ o h =>
    simp only [List.cons.injEq] at hq
    obtain ⟨rfl, rfl⟩ := hq
    exact absurd rfl (hr _)
  | _ =>
    simp only [dcode, List.drop_succ_cons, List.drop_zero, List.cons.injEq] at hq
    obtain ⟨rfl, rfl⟩ := hq
    simp [Act.plain] at hp

theorem OnDisp.ret {e : Ends} {s : Srv} {o : Outcome} {r : List Act} {l : Loc} (h : OnDisp e s (.ret o :: r) l) : e.Res o := by
  generalize hq : Act.ret o :: r = q at h
  cases h with
  | over _ o' h =>
    simp only [List.cons.injEq, Act.ret.injEq] at hq
    rw [hq.1]; exact h
  | _ =>
    simp [dcode] at hq

/-- All dispatches of messages with this id. -/
def DispInv (e : Ends) (y : Sys) : Prop :=
  ∀ (i : Nat) (g : Gor), y.gors[i]? = some g → (∀ o, (.byId e.id, o) ∈ g.log → e.Res o) ∧
    ∀ r, g.cur = some (.byId e.id, r) → OnDisp e y.srv r g.loc

theorem disp_step {e : Ends} {y : Sys} (h : DispInv e y) (hv : View e y.srv) (j : Nat) (hs : Keeps e.id y.srv (y.step j).srv) : DispInv e (y.step j) := by
  have key : ∀ (g' : Gor) (s : Srv) (w : Option Nat) (rd : List Nat), Keeps e.id y.srv s → ((∀ o, (.byId e.id, o) ∈ g'.log → e.Res o) ∧
      ∀ r, g'.cur = some (.byId e.id, r) → OnDisp e s r g'.loc) → DispInv e ⟨s, w, rd, y.gors.set j g'⟩ := by
    intro g' s w rd hst hg' i gi hi
    rcases get_set _ _ _ _ _ hi with ⟨rfl, rfl, _⟩ | ⟨_, hi⟩
    · exact hg'
    · exact ⟨(h i gi hi).1, fun r q => ((h i gi hi).2 r q).stays hst⟩
  have mtx : ∀ {a : Act} {c : Call} {r : List Act} (g : Gor) (w : Option Nat) (rd : List Nat), y.gors[j]? = some g → g.cur = some (c, a :: r) →
      a.plain = false → (∀ o, a ≠ .ret o) → DispInv e ⟨y.srv, w, rd, y.gors.set j { g with cur := some (c, r) }⟩ := by
    intro a c r g w rd hg hcur hp hr
    refine key _ _ _ _ (Keeps.rfl' _ _) ⟨(h j g hg).1, ?_⟩
    intro r' q
    simp only [Option.some.injEq, Prod.mk.injEq] at q
    obtain ⟨rfl, rfl⟩ := q
    exact ((h j g hg).2 _ hcur).mutex hp hr
  have hw := went y j
  generalize y.step j = z at hw hs
  cases hw with
  | stay => exact h
  | begin g c cs hg hcur ht =>
    refine key _ _ _ _ (Keeps.rfl' _ _) ⟨(h j g hg).1, ?_⟩
    intro r' q
    simp only [Option.some.injEq, Prod.mk.injEq] at q
    obtain ⟨rfl, rfl⟩ := q
    exact .at0 _
  | lock g c r hg hcur _ _ => exact mtx g _ _ hg hcur rfl (by intro o q; cases q)
  | unlock g c r hg hcur _ => exact mtx g _ _ hg hcur rfl (by intro o q; cases q)
  | rlock g c r hg hcur _ => exact mtx g _ _ hg hcur rfl (by intro o q; cases q)
  | runlock g c r hg hcur _ => exact mtx g _ _ hg hcur rfl (by intro o q; cases q)
  | ret g c o r hg hcur =>
    refine key _ _ _ _ (Keeps.rfl' _ _) ⟨?_, by intro r q; cases q⟩
    intro o' hm
    rcases List.mem_cons.1 hm with q | hm
    · simp only [Prod.mk.injEq] at q
      obtain ⟨rfl, rfl⟩ := q
      exact ((h j g hg).2 _ hcur).ret
    · exact (h j g hg).1 o' hm
  | plain g c a r hg hcur hp =>
    refine key _ _ _ _ hs ⟨(h j g hg).1, ?_⟩
    intro r' q
    simp only [Option.some.injEq, Prod.mk.injEq] at q
    obtain ⟨rfl, rfl⟩ := q
    exact (((h j g hg).2 _ hcur).exec hv hp).stays hs

/-- If at all times dispatch may only find that, every dispatch ends accordingly. -/
theorem disp_run {e : Ends} {y : Sys} (h : DispInv e y) (hnd : ∀ t, NoDel e.id (y.run t)) (sched : List Nat)
    (hv : ∀ t, t <+: sched → View e (y.run t).srv) : DispInv e (y.run sched) := by
  induction sched generalizing y with
  | nil => exact h
  | cons j t ih =>
    exact ih (disp_step h (hv [] List.nil_prefix) j (keeps_step (hnd []) j)) (fun t' => hnd (j :: t'))
      (fun t' ht => hv (j :: t') (by simpa using ht))

theorem disp_start (e : Ends) (s : Srv) (progs : List (List Call)) : DispInv e (start s progs) := by
  intro i g hg
  have hmem := List.mem_of_getElem? hg
  simp only [start, List.mem_map] at hmem
  obtain ⟨p, _, rfl⟩ := hmem
  exact ⟨(by intro o q; cases q), by intro r q; cases q⟩

/-! ## Patterns -/

/-- What dispatch may find for the pattern while others register. -/
structure EndsU where
  p : String
  okL : List H → Prop
  okK : Nat → List String → Prop
  okA : Nat → MAnchor → Prop
  good : List H → Prop
  okN : Prop
  okP : Prop

structure ViewU (e : EndsU) (s : Srv) : Prop where
  hand : ∀ l, s.mux.urlMux.get? e.p = some l → e.okL l ∧ e.good s.mux.globals
  noneH : s.mux.urlMux.get? e.p = none → e.okN
  anch : ∀ i, s.mux.urlAnchors.get? e.p = some i → e.okK i (s.mux.anchors.map (·.key)) ∧ ∀ a ∈ s.mux.anchors, e.okA i a ∧ ∃ b, a.contains i = some b
  noneA : s.mux.urlAnchors.get? e.p = none → e.okP

/-- The middlewares found. -/
def EndsU.okAs (e : EndsU) (as : List H) : Prop := ∃ i R, e.okK i (R.map (·.key)) ∧ (∀ a ∈ R, e.okA i a) ∧ as = caught i R

/-- How the dispatch may end. -/
def EndsU.Res (e : EndsU) (o : Outcome) : Prop :=
  (e.okN ∧ o = .disp .nothing) ∨ (e.okP ∧ (∃ l, e.okL l) ∧ o = .panicked) ∨ ∃ g as l, e.good g ∧ e.okAs as ∧ e.okL l ∧ o = .disp (.chain (g ++ as ++ l))

/-- Where the dispatch of a message is. -/
inductive OnDispU (e : EndsU) (s : Srv) : List Act → Loc → Prop
  | at0 (l : Loc) : OnDispU e s (ucode e.p) l
  | at1 (l : Loc) (hf : e.okL l.found) (hh : (s.mux.urlMux.get? e.p).isSome = true) : OnDispU e s ((ucode e.p).drop 1) l
  | at2 (l : Loc) (hf : e.okL l.found) (hg : e.good l.chain) : OnDispU e s ((ucode e.p).drop 2) l
  | at3 (l : Loc) (hf : e.okL l.found) (hg : e.good l.chain) : OnDispU e s ((ucode e.p).drop 3) l
  | at4 (l : Loc) (hf : e.okL l.found) (hg : e.good l.chain) (hi : s.mux.urlAnchors.get? e.p = some l.idx) : OnDispU e s ((ucode e.p).drop 4) l
  | at5 (l : Loc) (hf : e.okL l.found) (hg : e.good l.chain) (hi : s.mux.urlAnchors.get? e.p = some l.idx) : OnDispU e s ((ucode e.p).drop 5) l
  | scan (l : Loc) (K : List String) (R : List MAnchor) (g : List H) (hK : K <+: s.mux.anchors.map (·.key)) (hok : e.okK l.idx K)
      (hR : R.map (·.key) <+: K) (hA : ∀ a ∈ R, e.okA l.idx a) (hi : s.mux.urlAnchors.get? e.p = some l.idx) (hf : e.okL l.found) (hg : e.good g)
      (hc : l.chain = g ++ caught l.idx R) : OnDispU e s (.scan K.length R.length :: (ucode e.p).drop 6) l
  | at6 (l : Loc) (g as : List H) (hok : e.okAs as) (hf : e.okL l.found) (hg : e.good g) (hc : l.chain = g ++ as) : OnDispU e s ((ucode e.p).drop 6) l
  | over (l : Loc) (o : Outcome) (h : e.Res o) : OnDispU e s [.ret o] l
  | overR (l : Loc) (o : Outcome) (h : e.Res o) : OnDispU e s [.runlock, .ret o] l

theorem OnDispU.stays {e : EndsU} {s s' : Srv} (hs : s.mux.anchors.map (·.key) <+: s'.mux.anchors.map (·.key)) (hu : StaysU s s') {r : List Act} {l : Loc} (h : OnDispU e s r l) : OnDispU e s' r l := by
  cases h with
  | at0 => exact .at0 _
  | at1 _ hf hh => exact .at1 _ hf (hu.u _ hh)
  | at2 _ hf hg => exact .at2 _ hf hg
  | at3 _ hf hg => exact .at3 _ hf hg
  | at4 _ hf hg hi => exact .at4 _ hf hg (hu.a _ _ hi)
  | at5 _ hf hg hi => exact .at5 _ hf hg (hu.a _ _ hi)
  | scan _ K R g hK hok hR hA hi hf hg hc => exact .scan _ K R g (hK.trans hs) hok hR hA (hu.a _ _ hi) hf hg hc
  | at6 _ g as hok hf hg hc => exact .at6 _ g as hok hf hg hc
  | over _ o h => exact .over _ o h
  | overR _ o h => exact .overR _ o h

/-- One step of the dispatch that is not one of the mutex. -/
theorem OnDispU.exec {e : EndsU} {s : Srv} (hv : ViewU e s) {a : Act} {r : List Act} {l : Loc} (h : OnDispU e s (a :: r) l) (hp : a.plain = true) :
    OnDispU e s (a.exec s l r).2.2 (a.exec s l r).2.1 := by
  generalize hq : a :: r = q at h
  cases h with
  | at0 =>
    simp only [ucode, List.cons.injEq] at hq
    obtain ⟨rfl, rfl⟩ := hq
    simp only [Act.exec]
    cases hm : s.mux.urlMux.get? e.p with
    | none => exact .over _ _ (.inl ⟨hv.noneH hm, rfl⟩)
    | some f => exact .at1 _ (hv.hand f hm).1 (by rw [hm]; rfl)
  | at1 _ hf hh =>
    simp only [ucode, List.drop_succ_cons, List.drop_zero, List.cons.injEq] at hq
    obtain ⟨rfl, rfl⟩ := hq
    obtain ⟨f, hm⟩ := Option.isSome_iff_exists.1 hh
    exact .at2 _ hf (hv.hand f hm).2
  | at2 _ hf hg =>
    simp only [ucode, List.drop_succ_cons, List.drop_zero, List.cons.injEq] at hq
    obtain ⟨rfl, rfl⟩ := hq
    simp [Act.plain] at hp
  | at3 _ hf hg =>
    simp only [ucode, List.drop_succ_cons, List.drop_zero, List.cons.injEq] at hq
    obtain ⟨rfl, rfl⟩ := hq
    simp only [Act.exec]
    cases hm : s.mux.urlAnchors.get? e.p with
    | none => exact .overR _ _ (.inr (.inl ⟨hv.noneA hm, ⟨_, hf⟩, rfl⟩))
    | some i => exact .at4 _ hf hg hm
  | at4 _ hf hg hi =>
    simp only [ucode, List.drop_succ_cons, List.drop_zero, List.cons.injEq] at hq
    obtain ⟨rfl, rfl⟩ := hq
    simp [Act.plain] at hp
  | at5 _ hf hg hi =>
    simp only [ucode, List.drop_succ_cons, List.drop_zero, List.cons.injEq] at hq
    obtain ⟨rfl, rfl⟩ := hq
    simp only [Act.exec]
    have := OnDispU.scan (e := e) (s := s) l (s.mux.anchors.map (·.key)) [] l.chain (List.prefix_refl _) (hv.anch _ hi).1 List.nil_prefix
      (by intro a ha; cases ha) hi hf hg (by simp [caught])
    simpa [ucode] using this
  | scan _ K R g hK hok hR hA hi hf hg hc =>
    simp only [List.cons.injEq] at hq
    obtain ⟨rfl, rfl⟩ := hq
    simp only [Act.exec]
    by_cases hlt : R.length < K.length
    · rw [if_pos hlt]
      have hlen : R.length < s.mux.anchors.length := by
        have := hK.length_le
        simp only [List.length_map] at this
        omega
      rw [List.getElem?_eq_getElem hlen]
      obtain ⟨hok', b, hcon⟩ := (hv.anch _ hi).2 _ (List.getElem_mem hlen)
      have hpre : (R ++ [s.mux.anchors[R.length]]).map (·.key) <+: K := grow hK hR hlt hlen
      have hA' : ∀ a ∈ R ++ [s.mux.anchors[R.length]], e.okA l.idx a := by
        intro a ha
        rcases List.mem_append.1 ha with ha | ha
        · exact hA a ha
        · simp only [List.mem_singleton] at ha
          subst ha; exact hok'
      simp only [hcon]
      have := OnDispU.scan (e := e) (s := s) { l with chain := if b then l.chain ++ [s.mux.anchors[R.length].mw] else l.chain } K
        (R ++ [s.mux.anchors[R.length]]) g hK hok hpre hA' hi hf hg (by cases b <;> simp [caught_snoc, hcon, hc])
      simpa using this
    · rw [if_neg hlt]
      have hfull : R.map (·.key) = K := hR.eq_of_length (by have := hR.length_le; simp only [List.length_map] at this ⊢; omega)
      exact .at6 _ g _ ⟨l.idx, R, by rw [hfull]; exact hok, hA, rfl⟩ hf hg hc
  | at6 _ g as hok hf hg hc =>
    simp only [ucode, List.drop_succ_cons, List.drop_zero, List.cons.injEq] at hq
    obtain ⟨rfl, rfl⟩ := hq
    simp only [Act.exec, hc]
    exact .over _ _ (.inr (.inr ⟨g, as, _, hg, hok, hf, rfl⟩))
  | over _ o h =>
    simp only [List.cons.injEq] at hq
    obtain ⟨rfl, rfl⟩ := hq
    simp [Act.plain] at hp
  | overR _ o h =>
    simp only [List.cons.injEq] at hq
    obtain ⟨rfl, rfl⟩ := hq
    simp [Act.plain] at hp

/-- A step of the mutex. -/
theorem OnDispU.mutex {e : EndsU} {s : Srv} {a : Act} {r : List Act} {l : Loc} (h : OnDispU e s (a :: r) l) (hp : a.plain = false)
    (hr : ∀ o, a ≠ .ret o) : OnDispU e s r l := by
  generalize hq : a :: r = q at h
  cases h with
  | at2 _ hf hg =>
    simp only [ucode, List.drop_succ_cons, List.drop_zero, List.cons.injEq] at hq
    obtain ⟨rfl, rfl⟩ := hq
    exact .at3 _ hf hg
  | at4 _ hf hg hi =>
    simp only [ucode, List.drop_succ_cons, List.drop_zero, List.cons.injEq] at hq
    obtain ⟨rfl, rfl⟩ := hq
    exact .at5 _ hf hg hi
  | overR _ o h =>
    simp only [List.cons.injEq] at hq
    obtain ⟨rfl, rfl⟩ := hq
    exact .over _ _ h
  | over _ o h =>
    simp only [List.cons.injEq] at hq
    obtain ⟨rfl, rfl⟩ := hq
    exact absurd rfl (hr _)
  | _ =>
    simp only [ucode, List.drop_succ_cons, List.drop_zero, List.cons.injEq] at hq
    obtain ⟨rfl, rfl⟩ := hq
    simp [Act.plain] at hp

theorem OnDispU.ret {e : EndsU} {s : Srv} {o : Outcome} {r : List Act} {l : Loc} (h : OnDispU e s (.ret o :: r) l) : e.Res o := by
  generalize hq : Act.ret o :: r = q at h
  cases h with
  | over _ o' h =>
    simp only [List.cons.injEq, Act.ret.injEq] at hq
    rw [hq.1]; exact h
  | _ =>
    simp [ucode] at hq

/-- All dispatches of messages with this pattern. -/
def DispUInv (e : EndsU) (y : Sys) : Prop :=
  ∀ (i : Nat) (g : Gor), y.gors[i]? = some g → (∀ o, (.byUrl e.p, o) ∈ g.log → e.Res o) ∧
    ∀ r, g.cur = some (.byUrl e.p, r) → OnDispU e y.srv r g.loc

theorem dispU_step {e : EndsU} {y : Sys} (h : DispUInv e y) (hv : ViewU e y.srv) (j : Nat) (hs : y.srv.mux.anchors.map (·.key) <+: (y.step j).srv.mux.anchors.map (·.key)) : DispUInv e (y.step j) := by
  have hu := step_staysU y j
  have key : ∀ (g' : Gor) (s : Srv) (w : Option Nat) (rd : List Nat), y.srv.mux.anchors.map (·.key) <+: s.mux.anchors.map (·.key) → StaysU y.srv s → ((∀ o, (.byUrl e.p, o) ∈ g'.log → e.Res o) ∧
      ∀ r, g'.cur = some (.byUrl e.p, r) → OnDispU e s r g'.loc) → DispUInv e ⟨s, w, rd, y.gors.set j g'⟩ := by
    intro g' s w rd hst hsu hg' i gi hi
    rcases get_set _ _ _ _ _ hi with ⟨rfl, rfl, _⟩ | ⟨_, hi⟩
    · exact hg'
    · exact ⟨(h i gi hi).1, fun r q => ((h i gi hi).2 r q).stays hst hsu⟩
  have mtx : ∀ {a : Act} {c : Call} {r : List Act} (g : Gor) (w : Option Nat) (rd : List Nat), y.gors[j]? = some g → g.cur = some (c, a :: r) →
      a.plain = false → (∀ o, a ≠ .ret o) → DispUInv e ⟨y.srv, w, rd, y.gors.set j { g with cur := some (c, r) }⟩ := by
    intro a c r g w rd hg hcur hp hr
    refine key _ _ _ _ (List.prefix_refl _) (StaysU.rfl' _) ⟨(h j g hg).1, ?_⟩
    intro r' q
    simp only [Option.some.injEq, Prod.mk.injEq] at q
    obtain ⟨rfl, rfl⟩ := q
    exact ((h j g hg).2 _ hcur).mutex hp hr
  have hw := went y j
  generalize y.step j = z at hw hs hu
  cases hw with
  | stay => exact h
  | begin g c cs hg hcur ht =>
    refine key _ _ _ _ (List.prefix_refl _) (StaysU.rfl' _) ⟨(h j g hg).1, ?_⟩
    intro r' q
    simp only [Option.some.injEq, Prod.mk.injEq] at q
    obtain ⟨rfl, rfl⟩ := q
    exact .at0 _
  | lock g c r hg hcur _ _ => exact mtx g _ _ hg hcur rfl (by intro o q; cases q)
  | unlock g c r hg hcur _ => exact mtx g _ _ hg hcur rfl (by intro o q; cases q)
  | rlock g c r hg hcur _ => exact mtx g _ _ hg hcur rfl (by intro o q; cases q)
  | runlock g c r hg hcur _ => exact mtx g _ _ hg hcur rfl (by intro o q; cases q)
  | ret g c o r hg hcur =>
    refine key _ _ _ _ (List.prefix_refl _) (StaysU.rfl' _) ⟨?_, by intro r q; cases q⟩
    intro o' hm
    rcases List.mem_cons.1 hm with q | hm
    · simp only [Prod.mk.injEq] at q
      obtain ⟨rfl, rfl⟩ := q
      exact ((h j g hg).2 _ hcur).ret
    · exact (h j g hg).1 o' hm
  | plain g c a r hg hcur hp =>
    refine key _ _ _ _ hs hu ⟨(h j g hg).1, ?_⟩
    intro r' q
    simp only [Option.some.injEq, Prod.mk.injEq] at q
    obtain ⟨rfl, rfl⟩ := q
    exact (((h j g hg).2 _ hcur).exec hv hp).stays hs hu

theorem keys_step (y : Sys) (j : Nat) : y.srv.mux.anchors.map (·.key) <+: (y.step j).srv.mux.anchors.map (·.key) := by
  have hw := went y j
  generalize y.step j = z at hw
  cases hw with
  | plain g c a r hg hcur hp => exact exec_keys a _ _ _
  | _ => exact List.prefix_refl _

/-- If at all times dispatch may only find that, every dispatch ends accordingly. -/
theorem dispU_run {e : EndsU} {y : Sys} (h : DispUInv e y) (sched : List Nat)
    (hv : ∀ t, t <+: sched → ViewU e (y.run t).srv) : DispUInv e (y.run sched) := by
  induction sched generalizing y with
  | nil => exact h
  | cons j t ih =>
    exact ih (dispU_step h (hv [] List.nil_prefix) j (keys_step y j)) (fun t' ht => hv (j :: t') (by simpa using ht))

theorem dispU_start (e : EndsU) (s : Srv) (progs : List (List Call)) : DispUInv e (start s progs) := by
  intro i g hg
  have hmem := List.mem_of_getElem? hg
  simp only [start, List.mem_map] at hmem
  obtain ⟨p, _, rfl⟩ := hmem
  exact ⟨(by intro o q; cases q), by intro r q; cases q⟩

end Live
end Register
end Tcpx
