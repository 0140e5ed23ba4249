import Verif.Lemmas.ChainTrace
/-!
# Lemmas: every handler on the stack below the running one has called `Next`
-/
namespace Tcpx.Chain

/-- The handlers on a stack that are waiting for a call of `Next` to return. -/
def waiting : List Frame → List Nat
  | .hnd _ _ :: K => hnds K
  | K => hnds K

theorem waiting_step {es : List CEv} {a b : State} (h : Step a b) (iv : ∀ i ∈ waiting a.stack, CEv.next i ∈ es) :
    ∀ i ∈ waiting b.stack, CEv.next i ∈ es ++ evOf a b := by
  have sub : ∀ K : List Frame, ∀ i ∈ waiting K, i ∈ hnds K := by
    intro K i hi
    match K with
    | [] => exact hi
    | .hnd _ _ :: K => exact List.mem_cons_of_mem _ hi
    | .loop :: K => exact hi
    | .post :: K => exact hi
  intro i hi
  cases h with
  | start K n hs _ _ =>
    rw [hs] at iv
    exact List.mem_append_left _ (iv i hi)
  | abortReturn K hs _ _ =>
    rw [hs] at iv
    exact List.mem_append_left _ (iv i (sub K i hi))
  | loopEnd K hs _ =>
    rw [hs] at iv
    exact List.mem_append_left _ (iv i (sub K i hi))
  | postInc K hs =>
    rw [hs] at iv
    exact List.mem_append_left _ (iv i hi)
  | next K j n hs =>
    rw [hs] at iv
    rcases List.mem_cons.1 (show i ∈ j :: hnds K from hi) with rfl | hi
    · refine List.mem_append_right _ ?_
      simp [evOf, hs]
    · exact List.mem_append_left _ (iv i hi)
  | abort K j n hs =>
    rw [hs] at iv
    exact List.mem_append_left _ (iv i hi)
  | work K j n hs =>
    rw [hs] at iv
    exact List.mem_append_left _ (iv i hi)
  | ret K j n hs =>
    rw [hs] at iv
    exact List.mem_append_left _ (iv i (sub K i hi))
  | panic K j n hs => cases hi

theorem waiting_runs {s : Nat} {es : List CEv} {st : State} (h : Runs (init s) es st) : ∀ i ∈ waiting st.stack, CEv.next i ∈ es := by
  induction h with
  | refl => intro i hi; cases hi
  | tail _ hs ih => exact waiting_step hs ih

/-- What has happened when a handler is called. -/
theorem start_after {s : Nat} {es : List CEv} {st : State} (h : Runs (init s) es st) :
    ∀ l1 j l3, es = l1 ++ .start j :: l3 → (∀ k, CEv.abort k ∉ l1) ∧ ∀ i < j, CEv.next i ∈ l1 ∨ CEv.finish i ∈ l1 := by
  induction h with
  | refl => intro l1 j l3 h; simp at h
  | @tail b c es hr hs ih =>
    intro l1 j l3 heq
    rcases split_app (evOf_length _ _) heq with ⟨l3', h⟩ | ⟨h, he⟩
    · exact ih l1 j l3' h
    · subst h
      have iv := (tinv_runs hr).1
      have hw := waiting_runs hr
      cases hs with
      | start K n hst h1 h2 =>
        have hev : CEv.start j = CEv.start b.offset.toNat := by simpa [evOf, hst] using he
        injection hev with hev
        have hp := unpanicked iv hst
        have hab : b.aborted = false := by
          cases ha : b.aborted with
          | false => rfl
          | true => exact absurd (iv.inv.high ha) h2
        refine ⟨fun k hk => ?_, fun i hi => ?_⟩
        · rw [iv.ab.2 ⟨k, hk⟩] at hab; cases hab
        · have ho := iv.inv.offs
          have hin : i ∈ b.started := by
            apply iv.inv.full hab hp i
            · unfold bound ABORT at *; omega
            · rw [hst]; show (i : Int) < b.offset; omega
          rcases iv.fin hp i hin with h | h
          · exact .inr h
          · rw [hst] at h hw; exact .inl (hw i h)
      | abortReturn K hst h1 h2 =>
        exfalso
        have hsh := iv.inv.shape
        rw [hst] at hsh
        match K, hsh with
        | [], _ => simp [evOf, hst, backOf] at he
        | .hnd i n :: .post :: K, _ => simp [evOf, hst, backOf] at he
      | loopEnd K hst h1 =>
        exfalso
        have hsh := iv.inv.shape
        rw [hst] at hsh
        match K, hsh with
        | [], _ => simp [evOf, hst, backOf] at he
        | .hnd i n :: .post :: K, _ => simp [evOf, hst, backOf] at he
      | postInc K hst => simp [evOf, hst] at he
      | next K i n hst => simp [evOf, hst] at he
      | abort K i n hst => exfalso; simp only [evOf, hst] at he; split at he <;> simp at he
      | work K i n hst => exfalso; simp only [evOf, hst] at he; split at he <;> simp at he
      | ret K i n hst =>
        exfalso
        have hsh := iv.inv.shape
        rw [hst] at hsh
        obtain ⟨K', rfl⟩ : ∃ K', K = .post :: K' := by
          match K, hsh with
          | .post :: K', _ => exact ⟨K', rfl⟩
        simp only [evOf, hst] at he
        split at he <;> simp at he
      | panic K i n hst => simp [evOf, hst] at he

theorem filter_split {p : CEv → Bool} {l1 l3 l : List CEv} {e : CEv} (he : p e = true) (h : (l1 ++ e :: l3).filter p <+: l) :
    (l1.filter p) ++ [e] <+: l := by
  obtain ⟨t, h⟩ := h
  refine ⟨l3.filter p ++ t, ?_⟩
  simp only [List.filter_append, List.filter_cons_of_pos he] at h
  simpa using h

end Tcpx.Chain
