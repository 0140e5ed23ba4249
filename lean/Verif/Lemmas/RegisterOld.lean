import Verif.Lemmas.RegisterLive
/-!
# Lemmas about goroutines that register and dispatch: the middlewares of what was registered before, when `UnUse` is among the calls
-/
namespace Tcpx
namespace Register
open Spec

/-- An anchor treats index `x` as at the beginning. -/
def Old (s0 : Srv) (x : Nat) (k : String) (a : MAnchor) : Prop :=
  a.key = k ∧ Wf a ∧ (∀ b, s0.mux.anchorMap.get? k = some b → a.contains x = b.contains x ∧ a.mw = b.mw) ∧
  (s0.mux.anchorMap.get? k = none → a.contains x = some false)

theorem old_clo (s0 : Srv) (x : Nat) (hx : x ≤ s0.mux.seed) :
    Clo (Old s0 x) (fun _ i => x < i) (fun _ _ => True) (fun k => (s0.mux.anchorMap.get? k).isSome = true) s0.mux.seed := by
  refine ⟨fun k a h => h.1, ?_, ?_, fun _ i h => Nat.lt_of_le_of_lt hx h, ?_⟩
  · rintro k a i a' ⟨h1, h2, h3, h4⟩ hi e
    have hc := contains_use h2 hi e
    have hm : a'.mw = a.mw ∧ a'.key = a.key := by obtain ⟨rfl, _⟩ := callUse_eq e; exact ⟨rfl, rfl⟩
    refine ⟨hm.2.trans h1, h2.use e, ?_, ?_⟩
    · rw [hc, hm.1]; exact h3
    · rw [hc]; exact h4
  · rintro k a i a' ⟨h1, h2, h3, h4⟩ hi e
    have hc := contains_un h2 hi e
    have hm : a'.mw = a.mw ∧ a'.key = a.key := by obtain ⟨rfl, _⟩ := callUnUse_eq e; exact ⟨rfl, rfl⟩
    refine ⟨hm.2.trans h1, h2.un e, ?_, ?_⟩
    · rw [hc, hm.1]; exact h3
    · rw [hc]; exact h4
  · intro k f _ hn
    refine ⟨rfl, ⟨Nat.le_refl _, Nat.le_succ _⟩, ?_, fun _ => rfl⟩
    intro b hb
    exact absurd (by rw [hb]; rfl) hn

/-- If no middleware is in use again after `UnUse`, the map and the list have the same anchors. -/
theorem list_map (h : List RegEv) (hno : ∀ k, inUse k h = true → everEnded k h = false) :
    (∀ a ∈ (runHist h).mux.anchors, (runHist h).mux.anchorMap.get? a.key = some a ∧ Wf a) ∧
    ∀ k a, (runHist h).mux.anchorMap.get? k = some a → a.key = k ∧ Wf a := by
  obtain ⟨e1, e2⟩ := anchors_eq h
  refine ⟨?_, ?_⟩
  · intro a ha
    rw [e2] at ha
    simp only [List.mem_map] at ha
    obtain ⟨⟨k, f⟩, hx, rfl⟩ := ha
    refine ⟨?_, slice_wf h _⟩
    have hr : reopened k h = false := by
      unfold reopened
      cases hi : inUse k h with
      | false => rfl
      | true => rw [hno k hi]; rfl
    have hg := get?_of_mem_nodup hx (firstUses_nodup h)
    show (runHist h).mux.anchorMap.get? k = _
    rw [e1, hg]
    simp [sliceAnchor, mapAnchor, hr]
  · intro k a ha
    rw [e1] at ha
    cases hg : GoMap.get? (firstUses h) k with
    | none => rw [hg] at ha; cases ha
    | some f =>
      rw [hg] at ha
      cases ha
      exact ⟨rfl, map_wf h _⟩

theorem exec_ext (a : Act) (s : Srv) (l : Loc) (r : List Act) :
    ∃ ext, (a.exec s l r).1.mux.anchors.map (·.key) = s.mux.anchors.map (·.key) ++ ext ∧ ∀ k ∈ ext, s.mux.anchorMap.get? k = none := by
  have same : ∀ {as : List MAnchor}, as.map (·.key) = s.mux.anchors.map (·.key) →
      ∃ ext, as.map (·.key) = s.mux.anchors.map (·.key) ++ ext ∧ ∀ k ∈ ext, s.mux.anchorMap.get? k = none := by
    intro as e
    exact ⟨[], by rw [e, List.append_nil], by intro k hk; cases hk⟩
  by_cases ha : a.anch = false
  · exact same (by rw [(exec_sameAnch a ha s l r).list])
  · cases a <;> try (exact absurd rfl ha)
    case addAnchor =>
      simp only [Act.exec]; split
      · exact same rfl
      · next a' _ =>
        dsimp only; unfold Mux.addMiddlewareAnchor
        split
        · exact same rfl
        · next hn => exact ⟨[a'.key], by simp, by intro k hk; simp only [List.mem_singleton] at hk; rw [hk]; exact hn⟩
    case replAnchor =>
      simp only [Act.exec]; split
      · exact same rfl
      · dsimp only; unfold Mux.replaceMiddlewareAnchor
        split
        · exact same rfl
        · exact same (by simp only [Out.ret, replaceFirst_keys])
    all_goals simp only [Act.exec]
    all_goals (repeat' split)
    all_goals exact same rfl

/-- All anchors treat index `x` as at the beginning, and the new ones have new keys. -/
theorem old_run (h : List RegEv) (hno : ∀ k, inUse k h = true → everEnded k h = false) (progs : List (List Call)) (x : Nat)
    (hx : x ≤ (runHist h).mux.seed) (sched : List Nat) :
    (∀ a ∈ ((start (runHist h) progs).run sched).srv.mux.anchors, Old (runHist h) x a.key a) ∧
    ∃ ext, ((start (runHist h) progs).run sched).srv.mux.anchors.map (·.key) = (runHist h).mux.anchors.map (·.key) ++ ext ∧
      ∀ k ∈ ext, (runHist h).mux.anchorMap.get? k = none := by
  have hclo := old_clo (runHist h) x hx
  obtain ⟨l1, l2⟩ := list_map h hno
  have old0 : ∀ {k a}, a.key = k → Wf a → (runHist h).mux.anchorMap.get? k = some a → Old (runHist h) x k a := by
    intro k a hk hw hg
    refine ⟨hk, hw, ?_, ?_⟩
    · intro b hb; rw [hg] at hb; cases hb; exact ⟨rfl, rfl⟩
    · intro hn; rw [hg] at hn; cases hn
  have h0 : AI (Old (runHist h) x) (fun _ i => x < i) (fun _ _ => True) (fun k => ((runHist h).mux.anchorMap.get? k).isSome = true)
      (runHist h).mux.seed (start (runHist h) progs) := by
    refine ai_start ⟨?_, ?_, fun k hk => hk, Nat.le_refl _⟩ progs fun _ _ _ _ _ => trivial
    · intro k a ha; exact old0 (l2 k a ha).1 (l2 k a ha).2 ha
    · intro a ha; exact old0 rfl (l1 a ha).2 (l1 a ha).1
  suffices hs : ∀ y : Sys, AI (Old (runHist h) x) (fun _ i => x < i) (fun _ _ => True) (fun k => ((runHist h).mux.anchorMap.get? k).isSome = true)
      (runHist h).mux.seed y → (∃ ext, y.srv.mux.anchors.map (·.key) = (runHist h).mux.anchors.map (·.key) ++ ext ∧
      ∀ k ∈ ext, (runHist h).mux.anchorMap.get? k = none) →
      (∀ a ∈ (y.run sched).srv.mux.anchors, Old (runHist h) x a.key a) ∧
      ∃ ext, (y.run sched).srv.mux.anchors.map (·.key) = (runHist h).mux.anchors.map (·.key) ++ ext ∧
        ∀ k ∈ ext, (runHist h).mux.anchorMap.get? k = none from
    hs _ h0 ⟨[], by simp [start], by intro k hk; cases hk⟩
  clear h0
  induction sched with
  | nil => intro y h1 h2; exact ⟨h1.srv.list, h2⟩
  | cons j t ih =>
    intro y h1 h2
    refine ih (y.step j) (ai_step hclo h1 j) ?_
    obtain ⟨ext, e, hext⟩ := h2
    have hw := went y j
    generalize y.step j = z at hw
    cases hw with
    | plain g c a r hg hcur hp =>
      obtain ⟨ext', e', hext'⟩ := exec_ext a y.srv g.loc r
      refine ⟨ext ++ ext', by rw [← List.append_assoc, ← e]; exact e', ?_⟩
      intro k hk
      rcases List.mem_append.1 hk with hk | hk
      · exact hext k hk
      · cases hm : (runHist h).mux.anchorMap.get? k with
        | none => rfl
        | some b =>
          have := h1.srv.known k (by rw [hm]; rfl)
          rw [hext' k hk] at this; cases this
    | _ => exact ⟨ext, e, hext⟩

theorem anchorsAt_caught {l : List MAnchor} {i : Nat} {as : List H} (h : anchorsAt l i = some as) : as = Live.caught i l := by
  induction l generalizing as with
  | nil => simp only [anchorsAt, Option.some.injEq] at h; subst h; rfl
  | cons a l ih =>
    simp only [anchorsAt] at h
    cases hc : a.contains i with
    | none => rw [hc] at h; cases h
    | some b =>
      rw [hc] at h
      simp only [Option.map_eq_some_iff] at h
      obtain ⟨r, hr, rfl⟩ := h
      rw [ih hr]
      cases b <;> simp [Live.caught, hc]

/-- Whatever a dispatch reads, it finds the middlewares that were there at the beginning. -/
theorem caught_old {h : List RegEv} (hno : ∀ k, inUse k h = true → everEnded k h = false) {x : Nat} {R : List MAnchor}
    (hR : ∀ a ∈ R, Old (runHist h) x a.key a) {ext : List String} (hk : R.map (·.key) = (runHist h).mux.anchors.map (·.key) ++ ext)
    (hext : ∀ k ∈ ext, (runHist h).mux.anchorMap.get? k = none) : Live.caught x R = Live.caught x (runHist h).mux.anchors := by
  have l1 := (list_map h hno).1
  generalize (runHist h).mux.anchors = L at hk l1
  induction L generalizing R with
  | nil =>
    have : R.filter (fun a => a.contains x = some true) = [] := by
      apply List.filter_eq_nil_iff.2
      intro a ha
      have hm : a.key ∈ ext := by
        have : a.key ∈ R.map (·.key) := List.mem_map.2 ⟨a, ha, rfl⟩
        rw [hk] at this; simpa using this
      rw [(hR a ha).2.2.2 (hext _ hm)]
      simp
    simp [Live.caught, this]
  | cons b L ih =>
    cases R with
    | nil => simp at hk
    | cons a R =>
      simp only [List.map_cons, List.cons_append, List.cons.injEq] at hk
      have := ih (R := R) (fun c hc => hR c (List.mem_cons_of_mem _ hc)) hk.2 fun c hc => l1 c (List.mem_cons_of_mem _ hc)
      obtain ⟨q1, q2⟩ := (hR a List.mem_cons_self).2.2.1 b (by rw [hk.1]; exact (l1 b List.mem_cons_self).1)
      unfold Live.caught at this ⊢
      by_cases hc : b.contains x = some true
      · simp [q1, hc, q2, this]
      · simp [q1, hc, this]

end Register
end Tcpx
