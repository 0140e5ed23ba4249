import Verif.Model.Control
/-! # Helper lemmas about concurrent control calls -/
namespace Tcpx

/-! ## Records -/

theorem replaceListener_some {n p : String} {l : Nat} {recs recs' : List LRec} (h : replaceListener n p l recs = some recs') :
    ⟨n, p, l⟩ ∈ recs' ∧ (∀ r ∈ recs', r ∈ recs ∨ r = ⟨n, p, l⟩) ∧ (∀ r ∈ recs, ¬ (r.network = n ∧ r.port = p) → r ∈ recs') := by
  induction recs generalizing recs' with
  | nil => simp [replaceListener] at h
  | cons r rs ih =>
    rw [replaceListener] at h
    split at h
    · rename_i he
      obtain ⟨rfl, rfl⟩ := he
      cases h
      refine ⟨List.mem_cons_self, ?_, ?_⟩
      · intro x hx
        rcases List.mem_cons.1 hx with rfl | hx
        · exact .inr rfl
        · exact .inl (List.mem_cons_of_mem _ hx)
      · intro x hx hn
        rcases List.mem_cons.1 hx with rfl | hx
        · exact absurd ⟨rfl, rfl⟩ hn
        · exact List.mem_cons_of_mem _ hx
    · cases hr : replaceListener n p l rs with
      | none => rw [hr] at h; cases h
      | some rs' =>
        rw [hr] at h
        cases h
        obtain ⟨h1, h2, h3⟩ := ih hr
        refine ⟨List.mem_cons_of_mem _ h1, ?_, ?_⟩
        · intro x hx
          rcases List.mem_cons.1 hx with rfl | hx
          · exact .inl List.mem_cons_self
          · rcases h2 x hx with h | h
            · exact .inl (List.mem_cons_of_mem _ h)
            · exact .inr h
        · intro x hx hn
          rcases List.mem_cons.1 hx with rfl | hx
          · exact List.mem_cons_self
          · exact List.mem_cons_of_mem _ (h3 x hx hn)

theorem fillProperty_mem (n p : String) (l : Nat) (recs : List LRec) :
    ⟨n, p, l⟩ ∈ fillProperty n p l recs ∧ (∀ r ∈ fillProperty n p l recs, r ∈ recs ∨ r = ⟨n, p, l⟩) ∧
    (∀ r ∈ recs, ¬ (r.network = n ∧ r.port = p) → r ∈ fillProperty n p l recs) := by
  unfold fillProperty
  cases h : replaceListener n p l recs with
  | some recs' => exact replaceListener_some h
  | none =>
    refine ⟨by simp, ?_, ?_⟩
    · intro r hr
      rcases List.mem_append.1 hr with h | h
      · exact .inl h
      · exact .inr (by simpa using h)
    · intro r hr _
      exact List.mem_append_left _ hr

/-! ## The shape of a step -/

/-- The listener a listening call works with. -/
def CPc.lis : CPc → Option Nat
  | .fill _ _ l => some l
  | .setState _ _ l => some l
  | .loop _ _ l => some l
  | .accept _ _ l => some l
  | .close l => some l
  | _ => none

/-- The listener together with network and address, while it is in use. -/
def CPc.ep : CPc → Option (Nat × String × String)
  | .fill n p l => some (l, n, p)
  | .setState n p l => some (l, n, p)
  | .loop n p l => some (l, n, p)
  | .accept n p l => some (l, n, p)
  | _ => none

/-- Has its listener been entered into the records? -/
def CPc.entered : CPc → Bool
  | .setState _ _ _ => true
  | .loop _ _ _ => true
  | .accept _ _ _ => true
  | _ => false


theorem CPc.lis_of_ep {pc : CPc} {l : Nat} {n p : String} (h : pc.ep = some (l, n, p)) : pc.lis = some l := by
  cases pc <;> simp_all [CPc.ep, CPc.lis]

theorem set_get {α : Type} {xs : List α} {k i : Nat} {a b : α} (h : (xs.set k a)[i]? = some b) :
    (i = k ∧ b = a) ∨ (i ≠ k ∧ xs[i]? = some b) := by
  rw [List.getElem?_set] at h
  split at h
  · rename_i hk
    split at h
    · cases h; exact .inl ⟨hk.symm, rfl⟩
    · cases h
  · rename_i hk; exact .inr ⟨fun hh => hk hh.symm, h⟩

theorem append_get {α : Type} {xs : List α} {i : Nat} {a b : α} (h : (xs ++ [a])[i]? = some b) :
    (i = xs.length ∧ b = a) ∨ xs[i]? = some b := by
  rcases Nat.lt_trichotomy i xs.length with hi | hi | hi
  · rw [List.getElem?_append_left hi] at h; exact .inr h
  · subst hi; simp at h; exact .inl ⟨rfl, h.symm⟩
  · rw [List.getElem?_append_right (by omega)] at h
    have : ([a] : List α)[i - xs.length]? = none := by
      rw [List.getElem?_eq_none_iff]; simp; omega
    rw [this] at h; cases h

/-- What holds of listeners and records at any time. -/
structure CInv (recs : List LRec) (closed : List Nat) (threads : List CPc) (bound : List (Nat × String × String)) (next : Nat) : Prop where
  ltThread : ∀ (i : Nat) (pc : CPc) l, threads[i]? = some pc → pc.lis = some l → l < next
  ltRec : ∀ r ∈ recs, r.listener < next
  ltClosed : ∀ l ∈ closed, l < next
  ltBound : ∀ x ∈ bound, x.1 < next
  uniq : ∀ (i j : Nat) (pc pc' : CPc) l, threads[i]? = some pc → threads[j]? = some pc' → pc.lis = some l → pc'.lis = some l → i = j
  inBound : ∀ (i : Nat) (pc : CPc) x, threads[i]? = some pc → pc.ep = some x → x ∈ bound
  filling : ∀ (i : Nat) n p l, threads[i]? = some (.fill n p l) → (∀ r ∈ recs, r.listener ≠ l) ∧ l ∉ closed
  one : ∀ x ∈ bound, ∀ y ∈ bound, x.2 = y.2 → x.1 ∉ closed → y.1 ∉ closed → x = y
  entered : ∀ (i : Nat) (pc : CPc) l n p, threads[i]? = some pc → pc.entered = true → pc.ep = some (l, n, p) → l ∉ closed → ⟨n, p, l⟩ ∈ recs

namespace CInv

variable {recs : List LRec} {closed : List Nat} {threads : List CPc} {bound : List (Nat × String × String)} {next : Nat}

/-- A step of a thread that keeps or drops its listener. -/
theorem move (h : CInv recs closed threads bound next) {k : Nat} {pc pc' : CPc} (hk : threads[k]? = some pc)
    (hl : ∀ l, pc'.lis = some l → pc.lis = some l) (he : ∀ x, pc'.ep = some x → pc.ep = some x)
    (hf : ∀ n p l, pc' ≠ .fill n p l) (hn : pc'.entered = true → pc.entered = true) :
    CInv recs closed (threads.set k pc') bound next := by
  refine ⟨?_, h.ltRec, h.ltClosed, h.ltBound, ?_, ?_, ?_, h.one, ?_⟩
  · intro i q l hi hq
    replace hi := set_get hi; rcases hi with ⟨rfl, rfl⟩ | ⟨_, hi⟩
    · exact h.ltThread _ _ _ hk (hl _ hq)
    · exact h.ltThread _ _ _ hi hq
  · intro i j q q' l hi hj hq hq'
    replace hi := set_get hi; replace hj := set_get hj; rcases hi with ⟨rfl, rfl⟩ | ⟨_, hi⟩ <;> rcases hj with ⟨rfl, rfl⟩ | ⟨_, hj⟩
    · rfl
    · exact h.uniq _ _ _ _ _ hk hj (hl _ hq) hq'
    · exact h.uniq _ _ _ _ _ hi hk hq (hl _ hq')
    · exact h.uniq _ _ _ _ _ hi hj hq hq'
  · intro i q x hi hq
    replace hi := set_get hi; rcases hi with ⟨rfl, rfl⟩ | ⟨_, hi⟩
    · exact h.inBound _ _ _ hk (he _ hq)
    · exact h.inBound _ _ _ hi hq
  · intro i n p l hi
    replace hi := set_get hi; rcases hi with ⟨_, hq⟩ | ⟨_, hi⟩
    · exact absurd hq.symm (hf n p l)
    · exact h.filling _ _ _ _ hi
  · intro i q l n p hi hq hx hc
    replace hi := set_get hi; rcases hi with ⟨rfl, rfl⟩ | ⟨_, hi⟩
    · exact h.entered _ _ _ _ _ hk (hn hq) (he _ hx) hc
    · exact h.entered _ _ _ _ _ hi hq hx hc

/-- A new call. -/
theorem append (h : CInv recs closed threads bound next) {pc : CPc} (hl : pc.lis = none) : CInv recs closed (threads ++ [pc]) bound next := by
  have hep : pc.ep = none := by cases pc <;> simp_all [CPc.lis, CPc.ep]
  refine ⟨?_, h.ltRec, h.ltClosed, h.ltBound, ?_, ?_, ?_, h.one, ?_⟩
  · intro i q l hi hq
    rcases append_get hi with ⟨_, rfl⟩ | hi
    · rw [hl] at hq; cases hq
    · exact h.ltThread _ _ _ hi hq
  · intro i j q q' l hi hj hq hq'
    rcases append_get hi with ⟨_, rfl⟩ | hi
    · rw [hl] at hq; cases hq
    · rcases append_get hj with ⟨_, rfl⟩ | hj
      · rw [hl] at hq'; cases hq'
      · exact h.uniq _ _ _ _ _ hi hj hq hq'
  · intro i q x hi hq
    rcases append_get hi with ⟨_, rfl⟩ | hi
    · rw [hep] at hq; cases hq
    · exact h.inBound _ _ _ hi hq
  · intro i n p l hi
    rcases append_get hi with ⟨_, rfl⟩ | hi
    · cases hl
    · exact h.filling _ _ _ _ hi
  · intro i q l n p hi hq hx hc
    rcases append_get hi with ⟨_, rfl⟩ | hi
    · rw [hep] at hx; cases hx
    · exact h.entered _ _ _ _ _ hi hq hx hc

/-- More listeners are closed, none of them one that is just being entered. -/
theorem closeMore (h : CInv recs closed threads bound next) {ls : List Nat} (hlt : ∀ l ∈ ls, l < next)
    (hf : ∀ (i : Nat) n p l, threads[i]? = some (.fill n p l) → l ∉ ls) : CInv recs (closed ++ ls) threads bound next := by
  refine ⟨h.ltThread, h.ltRec, ?_, h.ltBound, h.uniq, h.inBound, ?_, ?_, ?_⟩
  · intro l hl
    rcases List.mem_append.1 hl with hl | hl
    · exact h.ltClosed _ hl
    · exact hlt _ hl
  · intro i n p l hi
    refine ⟨(h.filling _ _ _ _ hi).1, fun hl => ?_⟩
    rcases List.mem_append.1 hl with hl | hl
    · exact (h.filling _ _ _ _ hi).2 hl
    · exact hf _ _ _ _ hi hl
  · intro x hx y hy hxy h1 h2
    exact h.one x hx y hy hxy (fun hh => h1 (List.mem_append_left _ hh)) (fun hh => h2 (List.mem_append_left _ hh))
  · intro i q l n p hi hq hx hc
    exact h.entered _ _ _ _ _ hi hq hx (fun hh => hc (List.mem_append_left _ hh))

/-- `net.Listen` succeeds. -/
theorem opened (h : CInv recs closed threads bound next) {k : Nat} {n p : String} (hk : threads[k]? = some (.open n p))
    (hfree : ∀ x ∈ bound, x.2 = (n, p) → x.1 ∈ closed) :
    CInv recs closed (threads.set k (.fill n p next)) ((next, n, p) :: bound) (next + 1) := by
  refine ⟨?_, ?_, ?_, ?_, ?_, ?_, ?_, ?_, ?_⟩
  · intro i q l hi hq
    replace hi := set_get hi; rcases hi with ⟨_, rfl⟩ | ⟨_, hi⟩
    · cases hq; omega
    · have := h.ltThread _ _ _ hi hq; omega
  · intro r hr; have := h.ltRec r hr; omega
  · intro l hl; have := h.ltClosed l hl; omega
  · intro x hx
    rcases List.mem_cons.1 hx with rfl | hx
    · simp
    · have := h.ltBound x hx; omega
  · intro i j q q' l hi hj hq hq'
    replace hi := set_get hi; replace hj := set_get hj; rcases hi with ⟨rfl, rfl⟩ | ⟨_, hi⟩ <;> rcases hj with ⟨rfl, rfl⟩ | ⟨_, hj⟩
    · rfl
    · cases hq; have := h.ltThread _ _ _ hj hq'; omega
    · cases hq'; have := h.ltThread _ _ _ hi hq; omega
    · exact h.uniq _ _ _ _ _ hi hj hq hq'
  · intro i q x hi hq
    replace hi := set_get hi; rcases hi with ⟨_, rfl⟩ | ⟨_, hi⟩
    · cases hq; exact List.mem_cons_self
    · exact List.mem_cons_of_mem _ (h.inBound _ _ _ hi hq)
  · intro i n' p' l hi
    replace hi := set_get hi; rcases hi with ⟨_, hq⟩ | ⟨_, hi⟩
    · cases hq
      exact ⟨fun r hr => by have := h.ltRec r hr; omega, fun hl => by have := h.ltClosed _ hl; omega⟩
    · exact h.filling _ _ _ _ hi
  · intro x hx y hy hxy h1 h2
    rcases List.mem_cons.1 hx with rfl | hx <;> rcases List.mem_cons.1 hy with rfl | hy
    · rfl
    · exact absurd (hfree y hy hxy.symm) h2
    · exact absurd (hfree x hx hxy) h1
    · exact h.one x hx y hy hxy h1 h2
  · intro i q l n' p' hi hq hx hc
    replace hi := set_get hi; rcases hi with ⟨_, rfl⟩ | ⟨_, hi⟩
    · cases hq
    · exact h.entered _ _ _ _ _ hi hq hx hc

/-- The record of a listener is made. -/
theorem filled (h : CInv recs closed threads bound next) {k : Nat} {n p : String} {l : Nat} (hk : threads[k]? = some (.fill n p l)) :
    CInv (fillProperty n p l recs) closed (threads.set k (.setState n p l)) bound next := by
  obtain ⟨m1, m2, m3⟩ := fillProperty_mem n p l recs
  obtain ⟨f1, f2⟩ := h.filling _ _ _ _ hk
  refine ⟨?_, ?_, h.ltClosed, h.ltBound, ?_, ?_, ?_, h.one, ?_⟩
  · intro i q l' hi hq
    replace hi := set_get hi; rcases hi with ⟨_, rfl⟩ | ⟨_, hi⟩
    · exact h.ltThread _ _ _ hk hq
    · exact h.ltThread _ _ _ hi hq
  · intro r hr
    rcases m2 r hr with hr | rfl
    · exact h.ltRec r hr
    · exact h.ltThread k _ l hk rfl
  · intro i j q q' l' hi hj hq hq'
    replace hi := set_get hi; replace hj := set_get hj; rcases hi with ⟨rfl, rfl⟩ | ⟨_, hi⟩ <;> rcases hj with ⟨rfl, rfl⟩ | ⟨_, hj⟩
    · rfl
    · exact h.uniq _ _ _ _ _ hk hj hq hq'
    · exact h.uniq _ _ _ _ _ hi hk hq hq'
    · exact h.uniq _ _ _ _ _ hi hj hq hq'
  · intro i q x hi hq
    replace hi := set_get hi; rcases hi with ⟨_, rfl⟩ | ⟨_, hi⟩
    · exact h.inBound _ _ _ hk hq
    · exact h.inBound _ _ _ hi hq
  · intro i n' p' l' hi
    replace hi := set_get hi; rcases hi with ⟨_, hq⟩ | ⟨hne, hi⟩
    · cases hq
    · refine ⟨fun r hr => ?_, (h.filling _ _ _ _ hi).2⟩
      rcases m2 r hr with hr | rfl
      · exact (h.filling _ _ _ _ hi).1 r hr
      · intro hl
        simp only at hl
        exact hne (h.uniq i k _ _ l' hi hk rfl (by rw [CPc.lis, hl]))
  · intro i q l' n' p' hi hq hx hc
    replace hi := set_get hi; rcases hi with ⟨_, rfl⟩ | ⟨hne, hi⟩
    · cases hx; exact m1
    · refine m3 _ (h.entered _ _ _ _ _ hi hq hx hc) (fun hnp => ?_)
      simp only at hnp
      obtain ⟨rfl, rfl⟩ := hnp
      have e := h.one (l', n', p') (h.inBound _ _ _ hi hx) (l, n', p') (h.inBound _ _ _ hk rfl) rfl hc f2
      cases e
      exact hne (h.uniq _ _ _ _ _ hi hk (CPc.lis_of_ep hx) rfl)

end CInv

/-- The invariant of a state. -/
def CState.Inv (s : CState) : Prop := CInv s.life.recs s.life.closed s.threads s.bound s.next

theorem closeAll_recs (life : Life) : life.closeAllConnection.2.recs = life.recs ∧ life.closeAllConnection.2.closed = life.closed ∧
    life.closeAllConnection.2.state = life.state ∧ life.closeAllConnection.2.withSignals = life.withSignals := by
  unfold Life.closeAllConnection
  split
  · split <;> simp
  · split <;> simp

theorem CState.inUse_false {s : CState} {n p : String} (h : s.inUse n p = false) : ∀ x ∈ s.bound, x.2 = (n, p) → x.1 ∈ s.life.closed := by
  intro x hx he
  unfold CState.inUse at h
  rw [List.any_eq_false] at h
  have := h x hx
  simpa [he] using this

theorem CState.Inv.step {s : CState} (h : s.Inv) (lb : CLabel) : (s.step lb).Inv := by
  cases lb with
  | begin c => exact CInv.append h (by cases c <;> rfl)
  | step i ok =>
    unfold CState.step
    simp only
    cases hs : s.stepThread i ok with
    | none => exact h
    | some s' =>
      simp only [Option.getD]
      unfold CState.stepThread at hs
      cases hi : s.threads[i]? with
      | none => rw [hi] at hs; cases hs
      | some pc =>
        rw [hi] at hs
        cases pc with
        | stopCheck b =>
          simp only at hs
          split at hs <;> cases hs <;> exact CInv.move h hi (by simp [CPc.lis]) (by simp [CPc.ep]) (by simp) (by simp [CPc.entered])
        | stopSet b => cases hs; exact CInv.move h hi (by simp [CPc.lis]) (by simp [CPc.ep]) (by simp) (by simp [CPc.entered])
        | stopClose b =>
          have h2 : CInv s.life.recs (s.life.closed ++ (s.life.recs.filter Life.stopsListener).map LRec.listener) s.threads s.bound s.next := by
            refine CInv.closeMore h ?_ ?_
            · intro l hl
              obtain ⟨r, hr, rfl⟩ := List.mem_map.1 hl
              exact h.ltRec r (List.mem_filter.1 hr).1
            · intro j n p l hj hl
              obtain ⟨r, hr, he⟩ := List.mem_map.1 hl
              exact (h.filling j n p l hj).1 r (List.mem_filter.1 hr).1 he
          simp only at hs
          split at hs <;> cases hs <;> exact CInv.move h2 hi (by simp [CPc.lis]) (by simp [CPc.ep]) (by simp) (by simp [CPc.entered])
        | stopAll =>
          cases hs
          have h2 : CInv s.life.closeAllConnection.2.recs s.life.closeAllConnection.2.closed s.threads s.bound s.next := by
            rw [(closeAll_recs s.life).1, (closeAll_recs s.life).2.1]; exact h
          exact CInv.move h2 hi (by simp [CPc.lis]) (by simp [CPc.ep]) (by simp) (by simp [CPc.entered])
        | startCheck =>
          cases hs
          refine CInv.move h hi ?_ ?_ ?_ ?_ <;> (split <;> simp [CPc.lis, CPc.ep, CPc.entered])
        | startLoop rest =>
          cases rest with
          | nil => cases hs; exact CInv.move h hi (by simp [CPc.lis]) (by simp [CPc.ep]) (by simp) (by simp [CPc.entered])
          | cons r rest =>
            cases hs
            exact CInv.append (CInv.move h hi (by simp [CPc.lis]) (by simp [CPc.ep]) (by simp) (by simp [CPc.entered])) rfl
        | «open» n p =>
          simp only at hs
          split at hs
          · rename_i hc
            cases hs
            have hu : s.inUse n p = false := by
              cases hh : s.inUse n p <;> simp_all
            exact CInv.opened h hi (CState.inUse_false hu)
          · cases hs; exact CInv.move h hi (by simp [CPc.lis]) (by simp [CPc.ep]) (by simp) (by simp [CPc.entered])
        | fill n p l => cases hs; exact CInv.filled h hi
        | setState n p l => cases hs; exact CInv.move h hi (by simp [CPc.lis]) (by simp [CPc.ep]) (by simp) (by simp [CPc.entered])
        | loop n p l =>
          cases hs
          refine CInv.move h hi ?_ ?_ ?_ ?_ <;> (split <;> simp [CPc.lis, CPc.ep, CPc.entered])
        | accept n p l =>
          simp only at hs
          split at hs <;> cases hs <;> exact CInv.move h hi (by simp [CPc.lis]) (by simp [CPc.ep]) (by simp) (by simp [CPc.entered])
        | close l =>
          cases hs
          have hl : l < s.next := h.ltThread i _ l hi rfl
          have h2 : CInv s.life.recs (s.life.closed ++ [l]) (s.threads.set i (.done (.ok ()))) s.bound s.next := by
            refine CInv.closeMore (CInv.move h hi (by simp [CPc.lis]) (by simp [CPc.ep]) (by simp) (by simp [CPc.entered])) ?_ ?_
            · simpa using hl
            · intro j n p l' hj hl'
              replace hj := set_get hj; rcases hj with ⟨_, hq⟩ | ⟨hne, hj⟩
              · cases hq
              · simp at hl'
                subst hl'
                exact hne (h.uniq _ _ _ _ _ hj hi rfl rfl)
          exact h2
        | done r => cases hs

theorem CState.run_append (s : CState) (a b : List CLabel) : s.run (a ++ b) = (s.run a).run b := by
  simp [CState.run, List.foldl_append]

theorem CState.run_cons (s : CState) (l : CLabel) (ls : List CLabel) : s.run (l :: ls) = (s.step l).run ls := rfl

theorem CState.Inv.run {s : CState} (h : s.Inv) (ls : List CLabel) : (s.run ls).Inv := by
  induction ls generalizing s with
  | nil => exact h
  | cons l ls ih => exact ih (h.step l)

theorem CState.Inv.start {life : Life} (hr : life.recs = []) (hc : life.closed = []) : (CState.start life).Inv := by
  unfold CState.Inv CState.start
  simp only [hr, hc]
  constructor <;> simp

end Tcpx
