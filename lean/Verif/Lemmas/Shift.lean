import Verif.Lemmas.Routing
/-! # Refused `Use` / `UnUse` calls are invisible

A refused call at most consumes one index.  All later indices are then shifted by one, which no `Contains` can see. -/
namespace Tcpx
open Spec

namespace GoMap
variable {κ ν : Type} [DecidableEq κ]

/-- Apply a function to the values. -/
def mapV (f : ν → ν) (m : GoMap κ ν) : GoMap κ ν := m.map (fun e => (e.1, f e.2))

theorem get?_mapV (f : ν → ν) (m : GoMap κ ν) (k : κ) : (m.mapV f).get? k = (m.get? k).map f := by
  induction m with
  | nil => rfl
  | cons e m ih =>
    obtain ⟨a, v⟩ := e
    simp only [mapV, List.map_cons, get?] at ih ⊢
    split
    · rfl
    · exact ih

theorem delete_mapV (f : ν → ν) (m : GoMap κ ν) (k : κ) : (m.mapV f).delete k = (m.delete k).mapV f := by
  induction m with
  | nil => rfl
  | cons e m ih =>
    obtain ⟨a, v⟩ := e
    simp only [mapV, delete, List.map_cons, List.filter_cons] at ih ⊢
    split
    · rw [ih]; simp
    · rw [ih]

theorem set_mapV (f : ν → ν) (m : GoMap κ ν) (k : κ) (v : ν) : (m.mapV f).set k (f v) = (m.set k v).mapV f := by
  simp only [set, delete_mapV]; rfl

end GoMap

section
variable (n d : Nat)

/-- Indices issued after `n` are shifted by `d`. -/
def sh (x : Nat) : Nat := if x ≤ n then x else x + d

def shA (a : MAnchor) : MAnchor := { a with starts := a.starts.map (sh n d), ends := a.ends.map (sh n d) }

def shM (m : Mux) : Mux :=
  { m with seed := m.seed + d, anchors := m.anchors.map (shA n d), anchorMap := m.anchorMap.mapV (shA n d),
           idAnchors := m.idAnchors.mapV (sh n d), urlAnchors := m.urlAnchors.mapV (sh n d) }

def shS (s : Srv) : Srv := { s with mux := shM n d s.mux }

theorem sh_le (x y : Nat) : sh n d x ≤ sh n d y ↔ x ≤ y := by
  unfold sh; split <;> split <;> omega

theorem sh_new {m : Nat} (h : n ≤ m) : sh n d (m + 1) = m + d + 1 := by
  unfold sh; rw [if_neg (by omega)]; omega

theorem scan_sh (ss es : List Nat) (i : Nat) :
    MAnchor.scan (ss.map (sh n d)) (es.map (sh n d)) (sh n d i) = MAnchor.scan ss es i := by
  induction es generalizing ss with
  | nil => cases ss <;> rfl
  | cons e es ih =>
    cases ss with
    | nil => rfl
    | cons s ss =>
      simp only [List.map_cons, MAnchor.scan, ge_iff_le, sh_le, ih]

theorem contains_sh (a : MAnchor) (i : Nat) : (shA n d a).contains (sh n d i) = a.contains i := by
  simp only [MAnchor.contains, shA, List.length_map, List.getLast?_map, scan_sh]
  split
  · rfl
  · cases a.starts.getLast? with
    | none => rfl
    | some l => simp only [Option.map_some, ge_iff_le, sh_le]

theorem anchorsAt_sh (as : List MAnchor) (i : Nat) : anchorsAt (as.map (shA n d)) (sh n d i) = anchorsAt as i := by
  induction as with
  | nil => rfl
  | cons a as ih => simp only [List.map_cons, anchorsAt, contains_sh, ih]; rfl

theorem dispatchId_sh (s : Srv) (id : Int32) : (shS n d s).dispatchId id = s.dispatchId id := by
  simp only [Srv.dispatchId, shS, shM, GoMap.get?_mapV]
  cases s.mux.handlers.get? id with
  | none => rfl
  | some h =>
    simp only
    split
    · rfl
    · split
      · rfl
      · cases s.mux.idAnchors.get? id with
        | none => rfl
        | some i => simp only [Option.map_some, anchorsAt_sh]

theorem dispatchUrl_sh (s : Srv) (p : String) : (shS n d s).dispatchUrl p = s.dispatchUrl p := by
  simp only [Srv.dispatchUrl, shS, shM, GoMap.get?_mapV]
  cases s.mux.urlMux.get? p with
  | none => rfl
  | some l =>
    cases s.mux.urlAnchors.get? p with
    | none => rfl
    | some i => simp only [Option.map_some, anchorsAt_sh]

theorem handle_sh (s : Srv) (r : Srv.Routed) : (shS n d s).handle r = s.handle r := by
  simp only [Srv.handle, show (shS n d s).onMessage = s.onMessage from rfl]
  cases s.onMessage with
  | some f => simp [Srv.dispatchOnMessage, shS, shM, shA]
  | none =>
    cases r with
    | byId id => exact dispatchId_sh n d s id
    | byUrl p => exact dispatchUrl_sh n d s p
    | unreadable => rfl
    | unknownType => rfl

/-! Every event commutes with the shift. -/

theorem onMux_sh (s : Srv) (f g : Mux → Out Mux)
    (h : f (shM n d s.mux) = ⟨shM n d (g s.mux).st, (g s.mux).panicked⟩) :
    (shS n d s).onMux f = ⟨shS n d (s.onMux g).st, (s.onMux g).panicked⟩ := by
  simp only [Srv.onMux, shS, h]

theorem replaceFirst_sh (a : MAnchor) (as : List MAnchor) :
    Mux.replaceFirst (shA n d a) (as.map (shA n d)) = (Mux.replaceFirst a as).map (shA n d) := by
  induction as with
  | nil => rfl
  | cons v as ih =>
    simp only [List.map_cons, Mux.replaceFirst, show (shA n d v).key = v.key from rfl, show (shA n d a).key = a.key from rfl, ih]
    split <;> rfl

/-- The shift of an outcome. -/
def shO (o : Out Mux) : Out Mux := ⟨shM n d o.st, o.panicked⟩

theorem andThen_sh (o : Out Mux) (f g : Mux → Out Mux) (h : o.panicked = false → f (shM n d o.st) = shO n d (g o.st)) :
    (shO n d o).andThen f = shO n d (o.andThen g) := by
  simp only [Out.andThen, show (shO n d o).panicked = o.panicked from rfl, show (shO n d o).st = shM n d o.st from rfl]
  cases hp : o.panicked
  · exact h hp
  · rfl

theorem bump_sh (m : Mux) : (shM n d m).bump = shM n d m.bump := by
  simp only [Mux.bump, shM, Nat.add_right_comm]

theorem addHandleFunc_sh (m : Mux) (id : Int32) (h : H) :
    (shM n d m).addHandleFunc id h = shO n d (m.addHandleFunc id h) := by
  simp only [Mux.addHandleFunc, show (shM n d m).allowAdd = m.allowAdd from rfl, show (shM n d m).handlers = m.handlers from rfl]
  split
  · rfl
  · cases m.handlers.get? id <;> rfl

theorem addSelfMw_sh (m : Mux) (id : Int32) (hs : List H) :
    (shM n d m).addSelfMw id hs = shO n d (m.addSelfMw id hs) := by
  simp only [Mux.addSelfMw, show (shM n d m).selfMw = m.selfMw from rfl]
  cases m.selfMw.get? id with
  | some _ => rfl
  | none =>
    simp only [Out.ret, shO]
    split <;> rfl

theorem addMessageIDAnchor_sh (m : Mux) (id : Int32) (i : Nat) :
    (shM n d m).addMessageIDAnchor id (sh n d i) = shO n d (m.addMessageIDAnchor id i) := by
  simp only [Mux.addMessageIDAnchor, show (shM n d m).idAnchors = m.idAnchors.mapV (sh n d) from rfl, GoMap.get?_mapV]
  cases m.idAnchors.get? id with
  | some _ => rfl
  | none => simp only [Option.map_none, Out.ret, shO, GoMap.set_mapV]; rfl

theorem addURLAnchor_sh (m : Mux) (p : String) (i : Nat) :
    (shM n d m).addURLAnchor p (sh n d i) = shO n d (m.addURLAnchor p i) := by
  simp only [Mux.addURLAnchor, show (shM n d m).urlAnchors = m.urlAnchors.mapV (sh n d) from rfl, GoMap.get?_mapV]
  cases m.urlAnchors.get? p with
  | some _ => rfl
  | none => simp only [Option.map_none, Out.ret, shO, GoMap.set_mapV]; rfl

theorem addURLPatternHandler_sh (m : Mux) (p : String) (hs : List H) :
    (shM n d m).addURLPatternHandler p hs = shM n d (m.addURLPatternHandler p hs) := by
  simp only [Mux.addURLPatternHandler, show (shM n d m).urlMux = m.urlMux from rfl]
  cases m.urlMux.get? p <;> rfl

theorem muxAny_sh (m : Mux) (p : String) (hs : List H) : (shM n d m).any p hs = shM n d (m.any p hs) := by
  simp only [Mux.any, show (shM n d m).allowAdd = m.allowAdd from rfl, addURLPatternHandler_sh]
  split <;> rfl

theorem addMiddlewareAnchor_sh (m : Mux) (a : MAnchor) :
    (shM n d m).addMiddlewareAnchor (shA n d a) = shM n d (m.addMiddlewareAnchor a) := by
  simp only [Mux.addMiddlewareAnchor, show (shM n d m).anchorMap = m.anchorMap.mapV (shA n d) from rfl, GoMap.get?_mapV,
    show (shA n d a).key = a.key from rfl]
  cases m.anchorMap.get? a.key with
  | some _ => rfl
  | none =>
    simp only [Option.map_none, GoMap.set_mapV]
    simp only [shM, List.map_append, List.map_singleton]

theorem replaceMiddlewareAnchor_sh (m : Mux) (a : MAnchor) :
    (shM n d m).replaceMiddlewareAnchor (shA n d a) = shO n d (m.replaceMiddlewareAnchor a) := by
  simp only [Mux.replaceMiddlewareAnchor, show (shM n d m).anchorMap = m.anchorMap.mapV (shA n d) from rfl, GoMap.get?_mapV,
    show (shA n d a).key = a.key from rfl]
  cases m.anchorMap.get? a.key with
  | none => rfl
  | some _ =>
    simp only [Option.map_some, GoMap.set_mapV, Out.ret, shO, show (shM n d m).anchors = m.anchors.map (shA n d) from rfl,
      replaceFirst_sh]
    rfl

theorem callUse_sh (a : MAnchor) (i : Nat) : (shA n d a).callUse (sh n d i) = (a.callUse i).map (shA n d) := by
  simp only [MAnchor.callUse, shA, List.length_map]
  split <;> simp [shA]

theorem callUnUse_sh (a : MAnchor) (i : Nat) : (shA n d a).callUnUse (sh n d i) = (a.callUnUse i).map (shA n d) := by
  simp only [MAnchor.callUnUse, shA, List.length_map]
  split <;> simp [shA]

theorem seed_sh (m : Mux) (h : n ≤ m.seed) : (shM n d m).bump.seed = sh n d m.bump.seed := by
  simp only [Mux.bump, sh_new n d h]; rfl

theorem seed_sh' (m : Mux) (h : n ≤ m.seed) : (shM n d m.bump).seed = sh n d m.bump.seed := by
  rw [← bump_sh]; exact seed_sh n d m h

theorem addHandleFunc_seed (m : Mux) (id : Int32) (h : H) : (m.addHandleFunc id h).st.seed = m.seed := by
  simp only [Mux.addHandleFunc]; split
  · rfl
  · cases m.handlers.get? id <;> rfl

theorem addSelfMw_seed (m : Mux) (id : Int32) (hs : List H) : (m.addSelfMw id hs).st.seed = m.seed := by
  simp only [Mux.addSelfMw]
  cases m.selfMw.get? id with
  | some _ => rfl
  | none => simp only [Out.ret]; split <;> rfl

theorem muxAny_seed (m : Mux) (p : String) (hs : List H) : (m.any p hs).seed = m.seed := by
  simp only [Mux.any, Mux.addURLPatternHandler]
  split
  · cases m.urlMux.get? p <;> rfl
  · rfl

theorem addURLPatternHandler_seed (m : Mux) (p : String) (hs : List H) : (m.addURLPatternHandler p hs).seed = m.seed := by
  simp only [Mux.addURLPatternHandler]
  cases m.urlMux.get? p <;> rfl

theorem step_sh (s : Srv) (hn : n ≤ s.mux.seed) (e : RegEv) :
    e.step (shS n d s) = ⟨shS n d (e.step s).st, (e.step s).panicked⟩ := by
  cases e with
  | useGlobal ms => rfl
  | setAllowAdd b => rfl
  | setOnMessage o => rfl
  | setHeartBeat on th id => rfl
  | setHbId id => rfl
  | setAuth on th id => rfl
  | removeHandler id =>
    simp only [RegEv.step, Srv.removeHandler]
    apply onMux_sh
    simp only [Out.ret, show (shM n d s.mux).idAnchors = s.mux.idAnchors.mapV (sh n d) from rfl, GoMap.delete_mapV]
    rfl
  | use k f =>
    simp only [RegEv.step, Srv.useOne]
    apply onMux_sh
    simp only [show (shM n d s.mux).anchorMap = s.mux.anchorMap.mapV (shA n d) from rfl, GoMap.get?_mapV,
      bump_sh, seed_sh' n d s.mux hn]
    cases s.mux.anchorMap.get? k with
    | some a =>
      simp only [Option.map_some, callUse_sh]
      cases a.callUse s.mux.bump.seed with
      | none => rfl
      | some a' =>
        simp only [Option.map_some, Out.ret, show (shM n d s.mux.bump).anchorMap = s.mux.bump.anchorMap.mapV (shA n d) from rfl,
          GoMap.set_mapV, ← seed_sh' n d s.mux hn]
        rfl
    | none =>
      simp only [Option.map_none]
      have : (MAnchor.mk k f [] []) = shA n d (MAnchor.mk k f [] []) := rfl
      have h2 : (MAnchor.mk k f [] []).callUse (sh n d s.mux.bump.seed) = ((MAnchor.mk k f [] []).callUse s.mux.bump.seed).map (shA n d) := by
        conv => lhs; rw [this]
        exact callUse_sh n d _ _
      rw [h2]
      cases (MAnchor.mk k f [] []).callUse s.mux.bump.seed with
      | none => rfl
      | some a' => simp only [Option.map_some, addMiddlewareAnchor_sh]; rfl
  | unUse k =>
    simp only [RegEv.step, Srv.unUseOne]
    apply onMux_sh
    simp only [show (shM n d s.mux).anchorMap = s.mux.anchorMap.mapV (shA n d) from rfl, GoMap.get?_mapV,
      bump_sh, seed_sh' n d s.mux hn]
    cases s.mux.anchorMap.get? k with
    | none => rfl
    | some a =>
      simp only [Option.map_some, callUnUse_sh]
      cases a.callUnUse s.mux.bump.seed with
      | none => rfl
      | some a' => simp only [Option.map_some, replaceMiddlewareAnchor_sh]; rfl
  | addHandler id hs =>
    simp only [RegEv.step, Srv.addHandler]
    apply onMux_sh
    cases hs.getLast? with
    | none => rfl
    | some f =>
      simp only
      show _ = shO n d _
      have h1 : (if hs.length > 1 then (shM n d s.mux).addSelfMw id hs.dropLast else Out.ret (shM n d s.mux)) =
          shO n d (if hs.length > 1 then s.mux.addSelfMw id hs.dropLast else Out.ret s.mux) := by
        split
        · exact addSelfMw_sh ..
        · rfl
      have hs1 : (if hs.length > 1 then s.mux.addSelfMw id hs.dropLast else Out.ret s.mux).st.seed = s.mux.seed := by
        split
        · exact addSelfMw_seed ..
        · rfl
      rw [h1]
      generalize (if hs.length > 1 then s.mux.addSelfMw id hs.dropLast else Out.ret s.mux) = o at hs1 ⊢
      rw [andThen_sh n d _ _ (fun m => m.addHandleFunc id f) (fun _ => addHandleFunc_sh ..)]
      refine andThen_sh n d _ _ _ (fun _ => ?_)
      rw [seed_sh, bump_sh]
      · exact addMessageIDAnchor_sh ..
      · simp only [Out.andThen]
        split
        · rw [hs1]; exact hn
        · rw [addHandleFunc_seed, hs1]; exact hn
  | any p hs =>
    simp only [RegEv.step, Srv.any]
    apply onMux_sh
    show _ = shO n d _
    split
    · rfl
    · have h1 : (if hs.length > 1 then (shM n d s.mux).addURLPatternHandler p hs else shM n d s.mux) =
          shM n d (if hs.length > 1 then s.mux.addURLPatternHandler p hs else s.mux) := by
        split
        · exact addURLPatternHandler_sh ..
        · rfl
      rw [h1, muxAny_sh, seed_sh, bump_sh]
      · exact addURLAnchor_sh ..
      · rw [muxAny_seed]
        split
        · rw [addURLPatternHandler_seed]; exact hn
        · exact hn

end

theorem shift_zero (n : Nat) (s : Srv) : shS n 0 s = s := by
  have h1 : sh n 0 = id := by funext x; simp [sh]
  have h2 : shA n 0 = id := by funext a; simp [shA, h1]
  have h3 : ∀ {κ ν : Type} (m : GoMap κ ν), m.mapV id = m := by intros; simp [GoMap.mapV]
  simp [shS, shM, h1, h2, h3]

/-- Anything registered up to `n` is untouched by the shift. -/
theorem shift_bump (s : Srv) (h1 : ∀ a ∈ s.mux.anchors, (∀ x ∈ a.starts, x ≤ s.mux.seed) ∧ ∀ x ∈ a.ends, x ≤ s.mux.seed)
    (h2 : ∀ e ∈ s.mux.anchorMap, (∀ x ∈ e.2.starts, x ≤ s.mux.seed) ∧ ∀ x ∈ e.2.ends, x ≤ s.mux.seed)
    (h3 : ∀ e ∈ s.mux.idAnchors, e.2 ≤ s.mux.seed) (h4 : ∀ e ∈ s.mux.urlAnchors, e.2 ≤ s.mux.seed) :
    shS s.mux.seed 1 s = { s with mux := s.mux.bump } := by
  have hl : ∀ l : List Nat, (∀ x ∈ l, x ≤ s.mux.seed) → l.map (sh s.mux.seed 1) = l := by
    intro l hl
    conv => rhs; rw [← List.map_id l]
    apply List.map_congr_left
    intro x hx; simp [sh, hl x hx]
  have ha : ∀ a : MAnchor, ((∀ x ∈ a.starts, x ≤ s.mux.seed) ∧ ∀ x ∈ a.ends, x ≤ s.mux.seed) → shA s.mux.seed 1 a = a := by
    intro a hh; simp [shA, hl _ hh.1, hl _ hh.2]
  simp only [shS, shM, Mux.bump]
  congr 1
  simp only [Mux.mk.injEq, true_and]
  refine ⟨?_, ?_, ?_, ?_⟩
  · conv => rhs; rw [← List.map_id s.mux.anchors]
    exact List.map_congr_left (fun a h => ha a (h1 a h))
  · conv => rhs; rw [← List.map_id s.mux.anchorMap]
    exact List.map_congr_left (fun e h => by rw [ha e.2 (h2 e h)]; rfl)
  · conv => rhs; rw [← List.map_id s.mux.idAnchors]
    exact List.map_congr_left (fun e h => by simp [sh, h3 e h])
  · conv => rhs; rw [← List.map_id s.mux.urlAnchors]
    exact List.map_congr_left (fun e h => by simp [sh, h4 e h])

theorem shift_hist (n d : Nat) (h1 h2 : List RegEv) (h : runHist h1 = shS n d (runHist h2)) (hn : n ≤ seedOf h2)
    (post : List RegEv) : runHist (post ++ h1) = shS n d (runHist (post ++ h2)) := by
  induction post with
  | nil => exact h
  | cons e post ih =>
    simp only [List.cons_append, runHist, ih]
    rw [step_sh n d _ (Nat.le_trans hn (seedOf_append post h2)) e]

/-! All recorded indices have been issued. -/

theorem GoMap.mem_set {κ ν : Type} [DecidableEq κ] {m : GoMap κ ν} {k : κ} {v : ν} {e : κ × ν} (h : e ∈ m.set k v) :
    e = (k, v) ∨ e ∈ m := by
  rcases List.mem_cons.1 h with h | h
  · exact .inl h
  · exact .inr (List.mem_filter.1 h).1

theorem GoMap.mem_delete {κ ν : Type} [DecidableEq κ] {m : GoMap κ ν} {k : κ} {e : κ × ν} (h : e ∈ m.delete k) : e ∈ m :=
  (List.mem_filter.1 h).1

def MAnchor.Le (n : Nat) (a : MAnchor) : Prop := (∀ x ∈ a.starts, x ≤ n) ∧ ∀ x ∈ a.ends, x ≤ n

theorem MAnchor.Le.mono {n m : Nat} {a : MAnchor} (h : a.Le n) (hm : n ≤ m) : a.Le m :=
  ⟨fun x hx => Nat.le_trans (h.1 x hx) hm, fun x hx => Nat.le_trans (h.2 x hx) hm⟩

structure Mux.Issued (m : Mux) : Prop where
  a : ∀ e ∈ m.anchorMap, e.2.Le m.seed
  i : ∀ e ∈ m.idAnchors, e.2 ≤ m.seed
  u : ∀ e ∈ m.urlAnchors, e.2 ≤ m.seed

theorem Mux.Issued.bump {m : Mux} (h : m.Issued) : m.bump.Issued :=
  ⟨fun e he => (h.a e he).mono (Nat.le_succ _), fun e he => Nat.le_succ_of_le (h.i e he),
    fun e he => Nat.le_succ_of_le (h.u e he)⟩

theorem issued_callUse {m : Mux} {a a' : MAnchor} (h : a.Le m.seed) (hc : a.callUse m.bump.seed = some a') :
    a'.Le m.bump.seed := by
  simp only [MAnchor.callUse] at hc
  split at hc
  · simp at hc
  · rw [← Option.some.inj hc]
    refine ⟨fun x hx => ?_, fun x hx => Nat.le_succ_of_le (h.2 x hx)⟩
    rcases List.mem_append.1 hx with hx | hx
    · exact Nat.le_succ_of_le (h.1 x hx)
    · exact Nat.le_of_eq (List.mem_singleton.1 hx)

theorem issued_callUnUse {m : Mux} {a a' : MAnchor} (h : a.Le m.seed) (hc : a.callUnUse m.bump.seed = some a') :
    a'.Le m.bump.seed := by
  simp only [MAnchor.callUnUse] at hc
  split at hc
  · simp at hc
  · rw [← Option.some.inj hc]
    refine ⟨fun x hx => Nat.le_succ_of_le (h.1 x hx), fun x hx => ?_⟩
    rcases List.mem_append.1 hx with hx | hx
    · exact Nat.le_succ_of_le (h.2 x hx)
    · exact Nat.le_of_eq (List.mem_singleton.1 hx)

theorem issued_step (s : Srv) (h : s.mux.Issued) (e : RegEv) : (e.step s).st.mux.Issued := by
  cases e with
  | useGlobal ms => exact ⟨h.a, h.i, h.u⟩
  | setAllowAdd b => exact ⟨h.a, h.i, h.u⟩
  | setOnMessage o => exact h
  | setHeartBeat on th id => exact h
  | setHbId id => exact h
  | setAuth on th id => exact h
  | removeHandler id => exact ⟨h.a, fun e he => h.i e (GoMap.mem_delete he), h.u⟩
  | use k f =>
    have hb := h.bump
    simp only [RegEv.step, Srv.useOne, Srv.onMux]
    cases hg : s.mux.anchorMap.get? k with
    | some a =>
      have hle : a.Le s.mux.seed := h.a _ (GoMap.mem_of_get?_eq_some hg)
      simp only
      cases hc : a.callUse s.mux.bump.seed with
      | none => exact hb
      | some a' =>
        refine ⟨fun e he => ?_, hb.i, hb.u⟩
        rcases GoMap.mem_set he with rfl | he
        · exact issued_callUse hle hc
        · exact hb.a e he
    | none =>
      simp only
      cases hc : (MAnchor.mk k f [] []).callUse s.mux.bump.seed with
      | none => exact hb
      | some a' =>
        have hle : a'.Le s.mux.bump.seed := issued_callUse ⟨by simp, by simp⟩ hc
        simp only [Mux.addMiddlewareAnchor, Out.ret]
        cases s.mux.bump.anchorMap.get? a'.key with
        | some _ => exact hb
        | none =>
          refine ⟨fun e he => ?_, hb.i, hb.u⟩
          rcases GoMap.mem_set he with rfl | he
          · exact hle
          · exact hb.a e he
  | unUse k =>
    have hb := h.bump
    simp only [RegEv.step, Srv.unUseOne, Srv.onMux]
    cases hg : s.mux.anchorMap.get? k with
    | none => exact h
    | some a =>
      have hle : a.Le s.mux.seed := h.a _ (GoMap.mem_of_get?_eq_some hg)
      simp only
      cases hc : a.callUnUse s.mux.bump.seed with
      | none => exact hb
      | some a' =>
        simp only [Mux.replaceMiddlewareAnchor]
        cases s.mux.bump.anchorMap.get? a'.key with
        | none => exact hb
        | some _ =>
          refine ⟨fun e he => ?_, hb.i, hb.u⟩
          rcases GoMap.mem_set he with rfl | he
          · exact issued_callUnUse hle hc
          · exact hb.a e he
  | addHandler id hs =>
    have hfr := addHandler_frame s id hs
    refine ⟨fun e he => ?_, fun e he => ?_, fun e he => ?_⟩
    · rw [show ((RegEv.addHandler id hs).step s).st.mux.anchorMap = s.mux.anchorMap from hfr.2.1] at he
      exact (h.a e he).mono hfr.2.2.2.2.2.2
    · have key : ((s.addHandler id hs).st.mux.idAnchors = s.mux.idAnchors ∧ s.mux.seed ≤ (s.addHandler id hs).st.mux.seed) ∨
          ((s.addHandler id hs).st.mux.idAnchors = s.mux.idAnchors.set id (s.mux.seed + 1) ∧
            (s.addHandler id hs).st.mux.seed = s.mux.seed + 1) := by
        simp only [Srv.addHandler, Srv.onMux, Out.andThen, Mux.addSelfMw, Mux.addHandleFunc, Mux.addMessageIDAnchor, Mux.bump,
          Out.ret, Out.panic]
        repeat' split
        all_goals simp_all
        all_goals (repeat' split) <;> simp_all
      rcases key with ⟨k1, k2⟩ | ⟨k1, k2⟩
      · rw [show ((RegEv.addHandler id hs).step s).st.mux.idAnchors = s.mux.idAnchors from k1] at he
        exact Nat.le_trans (h.i e he) k2
      · rw [show ((RegEv.addHandler id hs).step s).st.mux.idAnchors = _ from k1] at he
        rw [show ((RegEv.addHandler id hs).step s).st.mux.seed = _ from k2]
        rcases GoMap.mem_set he with rfl | he
        · exact Nat.le_refl _
        · exact Nat.le_succ_of_le (h.i e he)
    · rw [show ((RegEv.addHandler id hs).step s).st.mux.urlAnchors = s.mux.urlAnchors from hfr.2.2.2.2.1] at he
      exact Nat.le_trans (h.u e he) hfr.2.2.2.2.2.2
  | any p hs =>
    have hfr := any_frame s p hs
    refine ⟨fun e he => ?_, fun e he => ?_, fun e he => ?_⟩
    · rw [show ((RegEv.any p hs).step s).st.mux.anchorMap = s.mux.anchorMap from hfr.2.1] at he
      exact (h.a e he).mono hfr.2.2.2.2.2.2.2
    · rw [show ((RegEv.any p hs).step s).st.mux.idAnchors = s.mux.idAnchors from hfr.2.2.2.2.1] at he
      exact Nat.le_trans (h.i e he) hfr.2.2.2.2.2.2.2
    · obtain ⟨_, c2, c3⟩ := any_cases s p hs
      by_cases hn : hs = []
      · rw [show ((RegEv.any p hs).step s).st.mux = s.mux from c2 hn] at he ⊢
        exact h.u e he
      · obtain ⟨d1, _, d3⟩ := c3 hn
        rw [show ((RegEv.any p hs).step s).st.mux.seed = s.mux.seed + 1 from d1]
        rw [show ((RegEv.any p hs).step s).st.mux.urlAnchors = _ from d3] at he
        split at he
        · exact Nat.le_succ_of_le (h.u e he)
        · rcases GoMap.mem_set he with rfl | he
          · exact Nat.le_refl _
          · exact Nat.le_succ_of_le (h.u e he)

theorem issued_hist (h : List RegEv) : (runHist h).mux.Issued := by
  induction h with
  | nil => exact ⟨by simp [runHist, Srv.new], by simp [runHist, Srv.new], by simp [runHist, Srv.new]⟩
  | cons e h ih => exact issued_step _ ih e

theorem bump_is_shift (h : List RegEv) :
    ({ runHist h with mux := (runHist h).mux.bump } : Srv) = shS (seedOf h) 1 (runHist h) := by
  have hi := issued_hist h
  refine (shift_bump (runHist h) ?_ (fun e he => hi.a e he) hi.i hi.u).symm
  intro a ha
  rw [(anchors_eq h).2] at ha
  obtain ⟨e, _, rfl⟩ := List.mem_map.1 ha
  obtain ⟨b1, b2⟩ := bounds e.1 h
  refine ⟨fun x hx => ?_, b2⟩
  simp only [sliceAnchor] at hx
  split at hx
  · exact b1 x (List.dropLast_subset _ hx)
  · exact b1 x hx

/-- `Use` panics exactly when the key is in use. -/
theorem panics_use (h : List RegEv) (k : String) (f : H) : panics h (.use k f) ↔ inUse k h = true := by
  have hl := lens k h
  simp only [panics, RegEv.step, Srv.useOne, Srv.onMux]
  rw [(anchors_eq h).1 k]
  cases hg : GoMap.get? (firstUses h) k with
  | none =>
    have hn := use_nil k h ((get?_none_iff _ _).1 hg)
    simp [MAnchor.callUse, Out.ret, hn.1]
  | some f0 =>
    simp only [Option.map_some, MAnchor.callUse, mapAnchor]
    rcases Bool.eq_false_or_eq_true (inUse k h) with hi | hi <;> rw [hi] at hl <;> simp at hl
    · simp [hl, hi, Out.panic]
    · simp [hl, hi, Out.ret]

/-- `UnUse` panics exactly when the key is not in use. -/
theorem panics_unUse (h : List RegEv) (k : String) : panics h (.unUse k) ↔ inUse k h = false := by
  have hl := lens k h
  simp only [panics, RegEv.step, Srv.unUseOne, Srv.onMux]
  rw [(anchors_eq h).1 k]
  cases hg : GoMap.get? (firstUses h) k with
  | none =>
    have hn := use_nil k h ((get?_none_iff _ _).1 hg)
    simp [Out.panic, hn.1]
  | some f0 =>
    simp only [Option.map_some, MAnchor.callUnUse, mapAnchor, Mux.replaceMiddlewareAnchor, Mux.bump]
    have hk := (anchors_eq h).1 k
    rw [hg] at hk
    rcases Bool.eq_false_or_eq_true (inUse k h) with hi | hi <;> rw [hi] at hl <;> simp at hl
    · have hlt : ¬ (endsOf k h).length + 1 ≤ (endsOf k h).length := by omega
      simp only [Option.map_some] at hk
      simp [hl, hi, hlt, hk, Out.ret]
    · simp [hl, hi, Out.panic]

/-- A refused `Use`/`UnUse` leaves the mux as it was, but for at most one consumed index. -/
theorem refused_state (h : List RegEv) (e : RegEv) (he : e.touchesAnchors = true) (hp : panics h e) :
    runHist (e :: h) = runHist h ∨ runHist (e :: h) = { runHist h with mux := (runHist h).mux.bump } := by
  cases e with
  | use k f =>
    simp only [panics, runHist, RegEv.step, Srv.useOne, Srv.onMux] at hp ⊢
    cases hg : (runHist h).mux.anchorMap.get? k with
    | some a =>
      rw [hg] at hp
      simp only at hp ⊢
      cases hc : a.callUse (runHist h).mux.bump.seed with
      | none => exact .inr rfl
      | some a' => rw [hc] at hp; exact Bool.noConfusion hp
    | none =>
      rw [hg] at hp
      simp only at hp ⊢
      cases hc : (MAnchor.mk k f [] []).callUse (runHist h).mux.bump.seed with
      | none => exact .inr rfl
      | some a' => rw [hc] at hp; exact Bool.noConfusion hp
  | unUse k =>
    simp only [panics, runHist, RegEv.step, Srv.unUseOne, Srv.onMux] at hp ⊢
    cases hg : (runHist h).mux.anchorMap.get? k with
    | none => exact .inl rfl
    | some a =>
      rw [hg] at hp
      simp only at hp ⊢
      cases hc : a.callUnUse (runHist h).mux.bump.seed with
      | none => exact .inr rfl
      | some a' =>
        rw [hc] at hp
        simp only [Mux.replaceMiddlewareAnchor] at hp ⊢
        cases hk : (runHist h).mux.bump.anchorMap.get? a'.key with
        | none => exact .inr rfl
        | some _ => rw [hk] at hp; exact Bool.noConfusion hp
  | _ => exact Bool.noConfusion he

end Tcpx
