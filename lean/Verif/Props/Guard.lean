import Verif.Lemmas.Guard
import Verif.Props.Chain
import Verif.Props.ChainTrace
import Verif.Model.Login
import Verif.Spec.Programs
/-!
# Properties C111, C112: middlewares as guards
-/
namespace Tcpx
open Chain

/-! ## C111 -/

/-- C111: when a handler is called, there has been no `Abort`, and every handler before it in the chain has called `Next` or has
returned. -/
theorem C111_let_through (s : Nat) (es : List CEv) (st : State) (h : Runs (init s) es st) (l1 l3 : List CEv) (j : Nat)
    (he : es = l1 ++ .start j :: l3) : (∀ k, .abort k ∉ l1) ∧ ∀ i < j, .next i ∈ l1 ∨ .finish i ∈ l1 :=
  start_after h l1 j l3 he

/-- C111: a handler that never calls `Next` nor returns before an `Abort` has been called keeps all later handlers from being called,
whatever the others do. -/
theorem C111_guard (s : Nat) (es : List CEv) (st : State) (h : Runs (init s) es st) (i : Nat)
    (hg : ∀ l1 e l3, es = l1 ++ e :: l3 → e = .next i ∨ e = .finish i → ∃ k, .abort k ∈ l1) (j : Nat) (hj : i < j) :
    .start j ∉ es := by
  intro hm
  obtain ⟨l1, l3, rfl⟩ := List.append_of_mem hm
  obtain ⟨h1, h2⟩ := C111_let_through s _ st h l1 l3 j rfl
  have key : ∀ e, e = .next i ∨ e = .finish i → e ∈ l1 → False := by
    intro e he hin
    obtain ⟨m1, m2, rfl⟩ := List.append_of_mem hin
    obtain ⟨k, hk⟩ := hg m1 e (m2 ++ .start j :: l3) (by simp) he
    exact h1 k (List.mem_append_left _ hk)
  rcases h2 i hj with h | h
  · exact key _ (.inl rfl) h
  · exact key _ (.inr rfl) h

/-- A guard that refuses: it replies, calls `Abort` and returns; the handler behind it does not run. -/
def Demo.refused : List CEv := [.start 0, .act 0, .abort 0, .finish 0, .done]

theorem Demo.refused_runs : ∃ st, Runs (init 2) Demo.refused st ∧ st.stack = [] := by
  have h := Runs.refl (init 2)
  have h := h.tail (.start _ [] 2 rfl (by decide) (by decide))
  have h := h.tail (.work _ [.post] 0 1 rfl)
  have h := h.tail (.abort _ [.post] 0 0 rfl)
  have h := h.tail (.ret _ [.post] 0 0 rfl)
  have h := h.tail (.postInc _ [] rfl)
  have h := h.tail (.loopEnd _ [] rfl (by decide))
  exact ⟨_, h, rfl⟩

example : .start 1 ∉ Demo.refused := by
  obtain ⟨st, h, _⟩ := Demo.refused_runs
  refine C111_guard 2 _ st h 0 ?_ 1 (by decide)
  intro l1 e l3 he hm
  match l1, he with
  | [], he => simp [Demo.refused] at he; grind
  | [_], he => simp [Demo.refused] at he; grind
  | [_, _], he => simp [Demo.refused] at he; grind
  | _ :: _ :: b :: l, he => simp [Demo.refused] at he; exact ⟨0, by simp [← he.2.2.1]⟩

/-- A guard that lets through: the handler behind it runs within its call of `Next`. -/
def Demo.passed : List CEv := [.start 0, .next 0, .start 1, .finish 1, .back 0, .act 0, .finish 0, .done]

theorem Demo.passed_runs : ∃ st, Runs (init 2) Demo.passed st ∧ st.stack = [] := by
  have h := Runs.refl (init 2)
  have h := h.tail (.start _ [] 2 rfl (by decide) (by decide))
  have h := h.tail (.next _ [.post] 0 1 rfl)
  have h := h.tail (.start _ [.hnd 0 1, .post] 0 rfl (by decide) (by decide))
  have h := h.tail (.ret _ [.post, .hnd 0 1, .post] 1 0 rfl)
  have h := h.tail (.postInc _ [.hnd 0 1, .post] rfl)
  have h := h.tail (.loopEnd _ [.hnd 0 1, .post] rfl (by decide))
  have h := h.tail (.work _ [.post] 0 0 rfl)
  have h := h.tail (.ret _ [.post] 0 0 rfl)
  have h := h.tail (.postInc _ [] rfl)
  have h := h.tail (.loopEnd _ [] rfl (by decide))
  exact ⟨_, h, rfl⟩

example := Demo.passed_runs.elim fun st h => C111_let_through 2 _ st h.1 [.start 0, .next 0] _ 1 rfl

/-! ## C112 -/

open Login

/-- The key asked for, as a header of the message. -/
def Spec.HasKey (r : Res Header) : Prop := ∃ h, r = .ok h ∧ h.get? "Authorization" = some (.str "a client secret key")

/-- C112: on both servers, whatever way a message is routed, it gets the chain guard, login or nothing at all; and for message id 1 it
is the chain.  The registration does not panic. -/
theorem C112_chain (ops : List RegOp) (ho : ops = anchored ∨ ops = routed) (r : Srv.Routed) :
    Spec.Registers .new ops = true ∧ beforeLogin ≠ login ∧
    ((runOps .new ops).handle r = .chain [beforeLogin, login] ∨ (runOps .new ops).handle r = .nothing) ∧
    ((runOps .new ops).handle r = .chain [beforeLogin, login] ↔ r = .byId 1) := by
  have hu : ∀ s : Srv, s.mux.urlMux = [] → ∀ p, s.dispatchUrl p = .nothing := by
    intro s hs p
    simp [Srv.dispatchUrl, hs]
  have hi : ∀ s : Srv, s.mux.handlers = [(1, login)] → ∀ id, id ≠ 1 → s.dispatchId id = .nothing := by
    intro s hs id hid
    have : GoMap.get? [((1 : Int32), login)] id = none := by
      simpa [GoMap.get?] using fun h : (1 : Int32) = id => hid h.symm
    simp [Srv.dispatchId, hs, this]
  have key : ∀ s : Srv, s.onMessage = none → s.mux.urlMux = [] → s.mux.handlers = [(1, login)] →
      s.dispatchId 1 = .chain [beforeLogin, login] →
      (s.handle r = .chain [beforeLogin, login] ∨ s.handle r = .nothing) ∧ (s.handle r = .chain [beforeLogin, login] ↔ r = .byId 1) := by
    intro s h1 h2 h3 h4
    cases r with
    | byId id =>
      simp only [Srv.handle, h1]
      by_cases hid : id = 1
      · subst hid; rw [h4]; simp
      · rw [hi s h3 id hid]; simp [hid]
    | byUrl p => simp only [Srv.handle, h1]; rw [hu s h2 p]; simp
    | unreadable => simp [Srv.handle, h1]
    | unknownType => simp [Srv.handle, h1]
  rcases ho with rfl | rfl
  · exact ⟨by decide, by decide, key _ (by decide) (by decide) (by decide) (by decide)⟩
  · exact ⟨by decide, by decide, key _ (by decide) (by decide) (by decide) (by decide)⟩

/-- C112: on both servers, whatever way a message is routed, `login` is called only if the header of the message, as `HeaderOf` reads
it, holds the key, whatever `login` itself does. -/
theorem C112_needs_key (ops : List RegOp) (ho : ops = anchored ∨ ops = routed) (rt : Srv.Routed) (hs : List H)
    (hd : (runOps .new ops).handle rt = .chain hs) (r : Res Header) (es : List CEv) (st : State) (h : Runs (init hs.length) es st)
    (hg : ∀ i, hs[i]? = some beforeLogin → Does i (guardEvents i r) es) (k : Nat) (hk : hs[k]? = some login) (hl : .start k ∈ es) :
    Spec.HasKey r := by
  have hc : hs = [beforeLogin, login] := by
    rcases (C112_chain ops ho rt).2.2.1 with h | h <;> rw [hd] at h <;> injection h
  subst hc
  have hk1 : k = 1 := by
    match k, hk with
    | 0, hk => exact absurd hk (by decide)
    | 1, _ => rfl
    | k + 2, hk => simp at hk
  subst hk1
  replace hg := hg 0 rfl
  by_cases hk : Spec.HasKey r
  · exact hk
  exfalso
  refine C111_guard _ es st h 0 ?_ 1 (by decide) hl
  intro l1 e l3 he hne
  have hof : decide (ofEv e = some 0) = true := by rcases hne with rfl | rfl <;> simp [ofEv]
  unfold Does at hg
  rw [he] at hg
  have hp := filter_split (p := fun e => decide (ofEv e = some 0)) hof hg
  have refusal : guardEvents 0 r = [.start 0, .act 0, .abort 0, .finish 0] → ∃ k, .abort k ∈ l1 := by
    intro hr
    rw [hr] at hp
    have hmem : CEv.abort 0 ∈ l1.filter (fun e => decide (ofEv e = some 0)) := by
      generalize l1.filter (fun e => decide (ofEv e = some 0)) = m at hp
      obtain ⟨t, hp⟩ := hp
      match m, hp with
      | [], hp => simp at hp; rcases hne with rfl | rfl <;> simp at hp
      | [_], hp => simp at hp; rcases hne with rfl | rfl <;> simp at hp
      | [_, _], hp => simp at hp; rcases hne with rfl | rfl <;> simp at hp
      | _ :: _ :: c :: m, hp => simp at hp; simp [hp.2.2.1]
    exact ⟨0, (List.mem_filter.1 hmem).1⟩
  have short : ∀ x, guardEvents 0 r = [.start 0, x] → x ≠ .next 0 → x ≠ .finish 0 → ∃ k, .abort k ∈ l1 := by
    intro x hr h1 h2
    exfalso
    rw [hr] at hp
    generalize l1.filter (fun e => decide (ofEv e = some 0)) = m at hp
    obtain ⟨t, hp⟩ := hp
    match m, hp with
    | [], hp => simp at hp; rcases hne with rfl | rfl <;> simp at hp
    | [_], hp =>
      simp at hp
      rcases hne with rfl | rfl
      · exact h1 hp.2.1.symm
      · exact h2 hp.2.1.symm
    | _ :: _ :: m, hp => simp at hp
  cases r with
  | ok hd =>
    apply refusal
    unfold guardEvents
    cases ha : hd.get? "Authorization" with
    | none => simp only [ha]
    | some auth =>
      simp only [ha]
      rw [if_pos]
      intro hx
      exact hk ⟨hd, rfl, by rw [ha, hx]⟩
  | err _ => exact refusal rfl
  | panic => exact short _ rfl (by simp) (by simp)
  | block =>
    exfalso
    obtain ⟨t, hp⟩ := hp
    match l1.filter (fun e => decide (ofEv e = some 0)), hp with
    | [], hp => simp [guardEvents] at hp; rcases hne with rfl | rfl <;> simp at hp
    | _ :: m, hp => simp [guardEvents] at hp

/-- C112: with the key, and if `login` neither calls `Abort` nor panics, `login` has been called exactly once when the chain is
done. -/
theorem C112_with_key (r : Res Header) (hk : Spec.HasKey r) (es : List CEv) (st : State) (h : Runs (init [beforeLogin, login].length) es st)
    (hg : Does 0 (guardEvents 0 r) es) (hl : .abort 1 ∉ es) (hp : st.panicked = false) (hend : st.stack = []) :
    st.started = [0, 1] := by
  have iv := (tinv_runs h).1
  have hss : st.s = 2 := steps_s (runs_steps h)
  obtain ⟨hd, rfl, hk⟩ := hk
  have hab : st.aborted = false := by
    cases ha : st.aborted with
    | false => rfl
    | true =>
      exfalso
      obtain ⟨i, hi⟩ := iv.ab.1 ha
      obtain ⟨l1, l3, rfl⟩ := List.append_of_mem hi
      have hs := (iv.starts i).1 (List.mem_append_left _ (C102_active _ _ st h l1 l3 _ i rfl (by simp [Spec.By]) (by simp)).1)
      have hb := (iv.inv.below i hs).2
      rw [hss] at hb
      have : i = 0 ∨ i = 1 := by unfold bound at hb; omega
      rcases this with rfl | rfl
      · have hm : CEv.abort 0 ∈ guardEvents 0 (.ok hd) := by
          refine hg.subset (List.mem_filter.2 ⟨hi, by simp [ofEv]⟩)
        simp [guardEvents, hk] at hm
      · exact hl hi
  exact C39_all_run_partial 2 (by decide) st (runs_steps h) hend hab hp

-- a message with the key, and one without
example : guardEvents 0 (.ok (some [("Authorization", .str "a client secret key")])) = [.start 0, .next 0, .back 0, .act 0, .finish 0] := by
  decide
example : Does 0 (guardEvents 0 (.ok (some [("Authorization", .str "a client secret key")]))) Demo.passed := by unfold Does; decide
example : Does 0 (guardEvents 0 (.ok (some [("Authorization", .str "another")]))) Demo.refused := by unfold Does; decide
example : (runOps .new anchored).handle (.byId 1) = .chain [beforeLogin, login] ∧ (runOps .new anchored).handle (.byId 2) = .nothing := by
  decide

end Tcpx
