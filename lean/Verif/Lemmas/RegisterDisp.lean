import Verif.Lemmas.RegisterGlob
/-!
# Lemmas about goroutines that register and dispatch: a message dispatched while others register
-/
namespace Tcpx
namespace Register
open Spec

/-- What dispatch may find for the id while others register. -/
structure Ends where
  id : Int32
  f : H
  self : List H
  okAs : List H → Prop
  good : List H → Prop
  byp : Prop
  okN : Prop
  okP : Prop

/-- The message bypasses the middlewares. -/
def Bypass (s : Srv) (id : Int32) : Prop := (id = s.hbId ∧ s.hbThrough = false) ∨ (id = s.authId ∧ s.authThrough = false)

structure View (e : Ends) (s : Srv) : Prop where
  hand : ∀ f, s.mux.handlers.get? e.id = some f → f = e.f ∧ (s.mux.selfMw.get? e.id).getD [] = e.self ∧ e.good s.mux.globals
  noneH : s.mux.handlers.get? e.id = none → e.okN
  anch : ∀ i, s.mux.idAnchors.get? e.id = some i → ∃ as, anchorsAt s.mux.anchors i = some as ∧ e.okAs as
  noneA : s.mux.idAnchors.get? e.id = none → e.okP
  byp : Bypass s e.id ↔ e.byp

/-- How the dispatch may end. -/
def Ends.Res (e : Ends) (o : Outcome) : Prop :=
  (e.okN ∧ o = .disp .nothing) ∨ (e.okP ∧ ¬ e.byp ∧ o = .panicked) ∨ (e.byp ∧ o = .disp (.direct e.f)) ∨
  (¬ e.byp ∧ ∃ g as, e.good g ∧ e.okAs as ∧ o = .disp (.chain (g ++ as ++ e.self ++ [e.f])))

/-- The code of the dispatch. -/
def dcode (id : Int32) : List Act :=
  [.lookId id, .bypass id, .readGlobals, .rlock, .readIdx id, .runlock, .scanLen, .readSelf id, .next, .ret .returned]

/-- Where the dispatch of a message is. -/
inductive OnDisp (e : Ends) (s : Srv) : List Act → Loc → Prop
  | at0 (l : Loc) : OnDisp e s (dcode e.id) l
  | at1 (l : Loc) (hf : l.found = [e.f]) (hh : (s.mux.handlers.get? e.id).isSome = true) : OnDisp e s ((dcode e.id).drop 1) l
  | at2 (l : Loc) (hf : l.found = [e.f]) (hh : (s.mux.handlers.get? e.id).isSome = true) (hb : ¬ e.byp) : OnDisp e s ((dcode e.id).drop 2) l
  | at3 (l : Loc) (hf : l.found = [e.f]) (hh : (s.mux.handlers.get? e.id).isSome = true) (hb : ¬ e.byp) (hg : e.good l.chain) :
      OnDisp e s ((dcode e.id).drop 3) l
  | at4 (l : Loc) (hf : l.found = [e.f]) (hh : (s.mux.handlers.get? e.id).isSome = true) (hb : ¬ e.byp) (hg : e.good l.chain) :
      OnDisp e s ((dcode e.id).drop 4) l
  | at5 (l : Loc) (hf : l.found = [e.f]) (hh : (s.mux.handlers.get? e.id).isSome = true) (hb : ¬ e.byp) (hg : e.good l.chain)
      (hi : s.mux.idAnchors.get? e.id = some l.idx) : OnDisp e s ((dcode e.id).drop 5) l
  | at6 (l : Loc) (hf : l.found = [e.f]) (hh : (s.mux.handlers.get? e.id).isSome = true) (hb : ¬ e.byp) (hg : e.good l.chain)
      (hi : s.mux.idAnchors.get? e.id = some l.idx) : OnDisp e s ((dcode e.id).drop 6) l
  | scan (l : Loc) (A : List MAnchor) (as : List H) (j : Nat) (g x r : List H) (hA : ∃ ext, s.mux.anchors = A ++ ext) (hok : e.okAs as) (hf : l.found = [e.f]) (hh : (s.mux.handlers.get? e.id).isSome = true) (hb : ¬ e.byp) (hg : e.good g)
      (hc : l.chain = g ++ x) (hj : j ≤ A.length) (hi : anchorsAt (A.drop j) l.idx = some r) (hx : x ++ r = as) :
      OnDisp e s (.scan A.length j :: (dcode e.id).drop 7) l
  | at7 (l : Loc) (g as : List H) (hok : e.okAs as) (hf : l.found = [e.f]) (hh : (s.mux.handlers.get? e.id).isSome = true) (hb : ¬ e.byp) (hg : e.good g)
      (hc : l.chain = g ++ as) : OnDisp e s ((dcode e.id).drop 7) l
  | at8 (l : Loc) (g as : List H) (hok : e.okAs as) (hf : l.found = [e.f]) (hb : ¬ e.byp) (hg : e.good g)
      (hc : l.chain = g ++ as ++ e.self) : OnDisp e s ((dcode e.id).drop 8) l
  | over (l : Loc) (o : Outcome) (h : e.Res o) : OnDisp e s [.ret o] l
  | overR (l : Loc) (o : Outcome) (h : e.Res o) : OnDisp e s [.runlock, .ret o] l

theorem OnDisp.stays {e : Ends} {s s' : Srv} (hs : Stays s s') {r : List Act} {l : Loc} (h : OnDisp e s r l) : OnDisp e s' r l := by
  cases h with
  | at0 => exact .at0 _
  | at1 _ hf hh => exact .at1 _ hf (hs.handlers _ hh)
  | at2 _ hf hh hb => exact .at2 _ hf (hs.handlers _ hh) hb
  | at3 _ hf hh hb hg => exact .at3 _ hf (hs.handlers _ hh) hb hg
  | at4 _ hf hh hb hg => exact .at4 _ hf (hs.handlers _ hh) hb hg
  | at5 _ hf hh hb hg hi => exact .at5 _ hf (hs.handlers _ hh) hb hg (hs.anch _ _ hi)
  | at6 _ hf hh hb hg hi => exact .at6 _ hf (hs.handlers _ hh) hb hg (hs.anch _ _ hi)
  | scan _ A as j g x r hA hok hf hh hb hg hc hj hi hx =>
    refine .scan _ A as j g x r ?_ hok hf (hs.handlers _ hh) hb hg hc hj hi hx
    obtain ⟨a, ha⟩ := hA
    obtain ⟨b, hb⟩ := hs.anchors
    exact ⟨a ++ b, by rw [hb, ha, List.append_assoc]⟩
  | at7 _ g as hok hf hh hb hg hc => exact .at7 _ g as hok hf (hs.handlers _ hh) hb hg hc
  | at8 _ g as hok hf hb hg hc => exact .at8 _ g as hok hf hb hg hc
  | over _ o h => exact .over _ o h
  | overR _ o h => exact .overR _ o h

/-- One step of the dispatch that is not one of the mutex. -/
theorem OnDisp.exec {e : Ends} {s : Srv} (hv : View e s) {a : Act} {r : List Act} {l : Loc} (h : OnDisp e s (a :: r) l) (hp : a.plain = true) :
    OnDisp e s (a.exec s l r).2.2 (a.exec s l r).2.1 := by
  have some_of : (s.mux.handlers.get? e.id).isSome = true → ∃ f, s.mux.handlers.get? e.id = some f := fun q => Option.isSome_iff_exists.1 q
  generalize hq : a :: r = q at h
  cases h with
  | at0 =>
    simp only [dcode, List.cons.injEq] at hq
    obtain ⟨rfl, rfl⟩ := hq
    simp only [Act.exec]
    cases hm : s.mux.handlers.get? e.id with
    | none => exact .over _ _ (.inl ⟨hv.noneH hm, rfl⟩)
    | some f =>
      obtain ⟨rfl, _⟩ := hv.hand f hm
      exact .at1 _ rfl (by rw [hm]; rfl)
  | at1 _ hf hh =>
    simp only [dcode, List.drop_succ_cons, List.drop_zero, List.cons.injEq] at hq
    obtain ⟨rfl, rfl⟩ := hq
    simp only [Act.exec]
    split
    · next hb => rw [hf]; exact .over _ _ (.inr (.inr (.inl ⟨hv.byp.1 hb, rfl⟩)))
    · next hb => exact .at2 _ hf hh (fun q => hb (hv.byp.2 q))
  | at2 _ hf hh hb =>
    simp only [dcode, List.drop_succ_cons, List.drop_zero, List.cons.injEq] at hq
    obtain ⟨rfl, rfl⟩ := hq
    obtain ⟨f, hm⟩ := some_of hh
    exact .at3 _ hf hh hb (hv.hand f hm).2.2
  | at3 _ hf hh hb hg =>
    simp only [dcode, List.drop_succ_cons, List.drop_zero, List.cons.injEq] at hq
    obtain ⟨rfl, rfl⟩ := hq
    simp [Act.plain] at hp
  | at4 _ hf hh hb hg =>
    simp only [dcode, List.drop_succ_cons, List.drop_zero, List.cons.injEq] at hq
    obtain ⟨rfl, rfl⟩ := hq
    simp only [Act.exec]
    cases hm : s.mux.idAnchors.get? e.id with
    | none => exact .overR _ _ (.inr (.inl ⟨hv.noneA hm, hb, rfl⟩))
    | some i => exact .at5 _ hf hh hb hg hm
  | at5 _ hf hh hb hg hi =>
    simp only [dcode, List.drop_succ_cons, List.drop_zero, List.cons.injEq] at hq
    obtain ⟨rfl, rfl⟩ := hq
    simp [Act.plain] at hp
  | at6 _ hf hh hb hg hi =>
    simp only [dcode, List.drop_succ_cons, List.drop_zero, List.cons.injEq] at hq
    obtain ⟨rfl, rfl⟩ := hq
    simp only [Act.exec]
    obtain ⟨as, has, hok⟩ := hv.anch _ hi
    exact .scan _ s.mux.anchors as 0 l.chain [] as ⟨[], by simp⟩ hok hf hh hb hg (by simp) (by omega) has rfl
  | scan _ A as j g x r' hA hok hf hh hb hg hc hj hi hx =>
    simp only [List.cons.injEq] at hq
    obtain ⟨rfl, rfl⟩ := hq
    simp only [Act.exec]
    by_cases hlt : j < A.length
    · obtain ⟨ext, hext⟩ := hA
      rw [if_pos hlt, hext, List.getElem?_append_left hlt, List.getElem?_eq_getElem hlt]
      rw [List.drop_eq_getElem_cons hlt] at hi
      simp only [anchorsAt] at hi
      cases hcon : (A[j]).contains l.idx with
      | none => rw [hcon] at hi; cases hi
      | some b =>
        rw [hcon] at hi
        simp only [Option.map_eq_some_iff] at hi
        obtain ⟨r0, hi, rfl⟩ := hi
        cases b with
        | false =>
          simp only [hcon, Bool.false_eq_true, if_false]
          exact .scan _ A as (j + 1) g x r0 ⟨ext, hext⟩ hok hf hh hb hg hc (by omega) hi hx
        | true =>
          simp only [hcon, if_true]
          refine .scan _ A as (j + 1) g (x ++ [(A[j]).mw]) r0 ⟨ext, hext⟩ hok hf hh hb hg ?_ (by omega) hi ?_
          · simp [hc]
          · rw [← hx]; simp
    · rw [if_neg hlt]
      have hje : j = A.length := by omega
      subst hje
      simp only [List.drop_length, anchorsAt, Option.some.injEq] at hi
      subst hi
      refine .at7 _ g as hok hf hh hb hg ?_
      rw [hc, ← hx]; simp
  | at7 _ g as hok hf hh hb hg hc =>
    simp only [dcode, List.drop_succ_cons, List.drop_zero, List.cons.injEq] at hq
    obtain ⟨rfl, rfl⟩ := hq
    obtain ⟨f, hm⟩ := some_of hh
    refine .at8 _ g as hok hf hb hg ?_
    simp only [Act.exec, (hv.hand f hm).2.1, hc]
  | at8 _ g as hok hf hb hg hc =>
    simp only [dcode, List.drop_succ_cons, List.drop_zero, List.cons.injEq] at hq
    obtain ⟨rfl, rfl⟩ := hq
    simp only [Act.exec, hf, hc]
    exact .over _ _ (.inr (.inr (.inr ⟨hb, g, as, hg, hok, rfl⟩)))
  | over _ o h =>
    simp only [List.cons.injEq] at hq
    obtain ⟨rfl, rfl⟩ := hq
    simp [Act.plain] at hp
  | overR _ o h =>
    simp only [List.cons.injEq] at hq
    obtain ⟨rfl, rfl⟩ := hq
    simp [Act.plain] at hp

/-- A step of the mutex. -/
theorem OnDisp.mutex {e : Ends} {s : Srv} {a : Act} {r : List Act} {l : Loc} (h : OnDisp e s (a :: r) l) (hp : a.plain = false)
    (hr : ∀ o, a ≠ .ret o) : OnDisp e s r l := by
  generalize hq : a :: r = q at h
  cases h with
  | at3 _ hf hh hb hg =>
    simp only [dcode, List.drop_succ_cons, List.drop_zero, List.cons.injEq] at hq
    obtain ⟨rfl, rfl⟩ := hq
    exact .at4 _ hf hh hb hg
  | at5 _ hf hh hb hg hi =>
    simp only [dcode, List.drop_succ_cons, List.drop_zero, List.cons.injEq] at hq
    obtain ⟨rfl, rfl⟩ := hq
    exact .at6 _ hf hh hb hg hi
  | overR _ o h =>
    simp only [List.cons.injEq] at hq
    obtain ⟨rfl, rfl⟩ := hq
    exact .over _ _ h
  | over _ o h =>
    simp only [List.cons.injEq] at hq
    obtain ⟨rfl, rfl⟩ := hq
    exact absurd rfl (hr _)
  | _ =>
    simp only [dcode, List.drop_succ_cons, List.drop_zero, List.cons.injEq] at hq
    obtain ⟨rfl, rfl⟩ := hq
    simp [Act.plain] at hp

theorem OnDisp.ret {e : Ends} {s : Srv} {o : Outcome} {r : List Act} {l : Loc} (h : OnDisp e s (.ret o :: r) l) : e.Res o := by
  generalize hq : Act.ret o :: r = q at h
  cases h with
  | over _ o' h =>
    simp only [List.cons.injEq, Act.ret.injEq] at hq
    rw [hq.1]; exact h
  | _ =>
    simp [dcode] at hq

/-- All dispatches of messages with this id. -/
def DispInv (e : Ends) (y : Sys) : Prop :=
  ∀ (i : Nat) (g : Gor), y.gors[i]? = some g → (∀ o, (.byId e.id, o) ∈ g.log → e.Res o) ∧
    ∀ r, g.cur = some (.byId e.id, r) → OnDisp e y.srv r g.loc

theorem disp_step {e : Ends} {y : Sys} (h : DispInv e y) (hv : View e y.srv) (j : Nat) (hs : Stays y.srv (y.step j).srv) : DispInv e (y.step j) := by
  have key : ∀ (g' : Gor) (s : Srv) (w : Option Nat) (rd : List Nat), Stays y.srv s → ((∀ o, (.byId e.id, o) ∈ g'.log → e.Res o) ∧
      ∀ r, g'.cur = some (.byId e.id, r) → OnDisp e s r g'.loc) → DispInv e ⟨s, w, rd, y.gors.set j g'⟩ := by
    intro g' s w rd hst hg' i gi hi
    rcases get_set _ _ _ _ _ hi with ⟨rfl, rfl, _⟩ | ⟨_, hi⟩
    · exact hg'
    · exact ⟨(h i gi hi).1, fun r q => ((h i gi hi).2 r q).stays hst⟩
  have mtx : ∀ {a : Act} {c : Call} {r : List Act} (g : Gor) (w : Option Nat) (rd : List Nat), y.gors[j]? = some g → g.cur = some (c, a :: r) →
      a.plain = false → (∀ o, a ≠ .ret o) → DispInv e ⟨y.srv, w, rd, y.gors.set j { g with cur := some (c, r) }⟩ := by
    intro a c r g w rd hg hcur hp hr
    refine key _ _ _ _ (Stays.rfl' _) ⟨(h j g hg).1, ?_⟩
    intro r' q
    simp only [Option.some.injEq, Prod.mk.injEq] at q
    obtain ⟨rfl, rfl⟩ := q
    exact ((h j g hg).2 _ hcur).mutex hp hr
  have hw := went y j
  generalize y.step j = z at hw hs
  cases hw with
  | stay => exact h
  | begin g c cs hg hcur ht =>
    refine key _ _ _ _ (Stays.rfl' _) ⟨(h j g hg).1, ?_⟩
    intro r' q
    simp only [Option.some.injEq, Prod.mk.injEq] at q
    obtain ⟨rfl, rfl⟩ := q
    exact .at0 _
  | lock g c r hg hcur _ _ => exact mtx g _ _ hg hcur rfl (by intro o q; cases q)
  | unlock g c r hg hcur _ => exact mtx g _ _ hg hcur rfl (by intro o q; cases q)
  | rlock g c r hg hcur _ => exact mtx g _ _ hg hcur rfl (by intro o q; cases q)
  | runlock g c r hg hcur _ => exact mtx g _ _ hg hcur rfl (by intro o q; cases q)
  | ret g c o r hg hcur =>
    refine key _ _ _ _ (Stays.rfl' _) ⟨?_, by intro r q; cases q⟩
    intro o' hm
    rcases List.mem_cons.1 hm with q | hm
    · simp only [Prod.mk.injEq] at q
      obtain ⟨rfl, rfl⟩ := q
      exact ((h j g hg).2 _ hcur).ret
    · exact (h j g hg).1 o' hm
  | plain g c a r hg hcur hp =>
    refine key _ _ _ _ hs ⟨(h j g hg).1, ?_⟩
    intro r' q
    simp only [Option.some.injEq, Prod.mk.injEq] at q
    obtain ⟨rfl, rfl⟩ := q
    exact (((h j g hg).2 _ hcur).exec hv hp).stays hs

/-- If at all times dispatch may only find that, every dispatch ends accordingly. -/
theorem disp_run {e : Ends} {y : Sys} (h : DispInv e y) (hs : SimpleInv y) (sched : List Nat)
    (hv : ∀ t, t <+: sched → View e (y.run t).srv) : DispInv e (y.run sched) := by
  induction sched generalizing y with
  | nil => exact h
  | cons j t ih =>
    have h1 := simple_step hs j
    exact ih (disp_step h (hv [] List.nil_prefix) j h1.2) h1.1 (fun t' ht => hv (j :: t') (by simpa using ht))

theorem disp_start (e : Ends) (s : Srv) (progs : List (List Call)) : DispInv e (start s progs) := by
  intro i g hg
  have hmem := List.mem_of_getElem? hg
  simp only [start, List.mem_map] at hmem
  obtain ⟨p, _, rfl⟩ := hmem
  exact ⟨(by intro o q; cases q), by intro r q; cases q⟩

end Register
end Tcpx
