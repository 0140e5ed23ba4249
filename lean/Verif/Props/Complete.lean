import Verif.Lemmas.Complete
import Verif.Props.ConnRun
/-!
# C108, C38: every message of a connection is handled once, to the end

`CRSteps len (crInit (connGoroutine …)) s` ranges over all executions of a connection and the goroutines started for its messages.
-/
namespace Tcpx
open Chain Spec

/-- C38: at every moment of every execution the handlers called so far are the first ones of the chain. -/
theorem C38_first_ones (s : Nat) (st : State) (h : Steps (init s) st) : ∃ j, j ≤ s ∧ st.started = List.range j := by
  refine ⟨_, ?_, started_prefix h⟩
  obtain ⟨h1, h2⟩ := C38_in_order_at_most_once s st h
  exact sorted_length_le h1 h2

/-! ## C108 -/

/-- C108: a connection whose stream has ended or is silent comes to an end, if every handler makes finitely many actions: there is no infinite
execution of its goroutines. -/
theorem C108_ends (len : Bytes → Option Nat) (g : ConnRun) (f : Nat → CRState) (h0 : f 0 = crInit g) : ¬ ∀ n, CRStep len (f n) (f (n+1)) := by
  intro hs
  have hr : ∀ n, CRSteps len (crInit g) (f n) := by
    intro n
    induction n with
    | zero => rw [h0]; exact .refl _
    | succ n ih => exact .tail ih (hs n)
  have alive : ∀ n, (f n).dead = false := by
    intro n
    have := hs n
    generalize f (n + 1) = b at this
    cases this <;> assumption
  have key : ∀ a b c n, (f n).todo.length = a → totalRemaining (f n) = b → totalWeight (f n) = c → False := by
    intro a
    induction a using Nat.strongRecOn with
    | _ a iha =>
      intro b
      induction b using Nat.strongRecOn with
      | _ b ihb =>
        intro c
        induction c using Nat.strongRecOn with
        | _ c ihc =>
          intro n ha hb hc
          rcases crStep_measure (crInv2_steps (hr n)) (hs n) with h | h | ⟨h1, h | ⟨h2, h3⟩⟩
          · rw [alive] at h; cases h
          · exact iha _ (by omega) _ _ (n+1) rfl rfl rfl
          · exact ihb _ (by omega) _ (n+1) (by rw [h1]; exact ha) rfl rfl
          · exact ihc _ (by omega) (n+1) (by rw [h1]; exact ha) (by rw [h2]; exact hb) rfl
  exact key _ _ _ 0 rfl rfl rfl

/-- C108: when everything has come to an end and the process still runs, the connection goroutine has done all it had to do, and every message
of every goroutine has been handled once, to the end. -/
theorem C108_handled (len : Bytes → Option Nat) (g : ConnRun) (s : CRState) (h : CRSteps len (crInit g) s) (he : Ended len s) (hd : s.dead = false) :
    connPart s.log = g.trace ∧
    ∀ k t, (started g.trace)[k]? = some t → ∀ m c, t.contexts[m]? = some c →
      ∃ b n, c = some b ∧ len b = some n ∧ HandledOnce n (ofMessage k m s.log) := by
  have iv := crInv_steps h
  have iv2 := crInv2_steps h
  have htodo : s.todo = [] := by
    cases ht : s.todo with
    | nil => rfl
    | cons e rest =>
      cases e with
      | go t => exact absurd (CRStep.go s t rest ht hd) (he _)
      | onClose => exact absurd (CRStep.conn s .onClose rest ht (Or.inl rfl) hd) (he _)
      | closeConn => exact absurd (CRStep.conn s .closeConn rest ht (Or.inr rfl) hd) (he _)
  have hconn : connPart s.log = g.trace := by
    have := iv.conn
    rw [htodo, List.append_nil] at this
    exact this
  refine ⟨hconn, ?_⟩
  intro k t hk m c hm
  have hlt : k < s.tasks.length := by
    rw [iv.count, hconn]; exact (List.getElem?_eq_some_iff.1 hk).1
  obtain ⟨tk, h1, h2, h3⟩ := iv2.tasks k _ (List.getElem?_eq_getElem hlt)
  rw [hconn, hk] at h1
  cases h1
  have hst : s.tasks[k].p.cur.stack = [] := C38_no_stuck _ (fun c hc => he _ (CRStep.task s k _ c (List.getElem?_eq_getElem hlt) hc hd))
  have hpan := iv2.alive hd _ (List.getElem_mem hlt)
  have hto : s.tasks[k].p.todo = [] := by
    cases ht : s.tasks[k].p.todo with
    | nil => rfl
    | cons n ns =>
      exact absurd (CRStep.advance s k _ _ (List.getElem?_eq_getElem hlt) (.advance s.tasks[k].p n ns hst hpan ht) rfl hd) (he _)
  have hbad : s.tasks[k].bad = false := by
    cases hb : s.tasks[k].bad with
    | false => rfl
    | true => exact absurd (CRStep.nilCtx s k _ (List.getElem?_eq_getElem hlt) hb hto hst hd) (he _)
  rw [h3] at hbad
  have hbad' : (chainLens len t.contexts).2 = false := by
    unfold startTask at hbad
    simp only at hbad
    split at hbad <;> exact hbad
  obtain ⟨hl, hg⟩ := chainLens_good len t.contexts hbad'
  obtain ⟨b, n, hc, hlen, hn⟩ := hg m c hm
  refine ⟨b, n, hc, hlen, ?_⟩
  have hstart : ∃ n0 ns, (chainLens len t.contexts).1 = n0 :: ns ∧ (startTask len t).p = pinit n0 ns := by
    cases hcl : (chainLens len t.contexts).1 with
    | nil => rw [hcl] at hn; simp at hn
    | cons n0 ns => exact ⟨n0, ns, rfl, by simp [startTask, hcl]⟩
  obtain ⟨n0, ns, hcl, hp⟩ := hstart
  rw [hp] at h2
  rw [hcl] at hn
  obtain ⟨st, r1, r2, r3⟩ := parts_end h2 hto hst hpan m n hn
  rw [ofMessage_eq]
  exact handledOnce_of r1 r2 r3

/-- The calls of message `m` of a group with chains of the given lengths. -/
theorem parts_calls {ls : List Nat} {es : List (Nat × CEv)} {p : PState} (pt : Parts ls es p) (m : Nat) :
    calls (partOf m es) = [] ∨ ∃ n, ls[m]? = some n ∧ ∃ j, j ≤ n ∧ calls (partOf m es) = List.range j := by
  have run : ∀ n st, Runs (init n) (partOf m es) st → ∃ j, j ≤ n ∧ calls (partOf m es) = List.range j := by
    intro n st hr
    obtain ⟨j, h1, h2⟩ := C38_first_ones n st (runs_steps hr)
    exact ⟨j, h1, (runs_starts hr).trans h2⟩
  by_cases h1 : m < p.idx
  · have hlt := Nat.lt_trans h1 pt.idx
    obtain ⟨st, hr, -⟩ := pt.before m _ h1 (List.getElem?_eq_getElem hlt)
    exact .inr ⟨_, List.getElem?_eq_getElem hlt, run _ _ hr⟩
  · by_cases h2 : p.idx < m
    · left; rw [pt.later m h2]; rfl
    · have e : p.idx = m := by omega
      obtain ⟨n, hn⟩ : ∃ n, ls[p.idx]? = some n := ⟨_, List.getElem?_eq_getElem pt.idx⟩
      have hr := pt.now n hn
      rw [e] at hn hr
      exact .inr ⟨n, hn, run n _ hr⟩

/-- C108: nothing else is handled: at any moment of any execution, the handlers called for a message of a goroutine are the first ones of the
chain found for it, in order and each once; for what is no message, or where no chain is found, none are called. -/
theorem C108_only (len : Bytes → Option Nat) (g : ConnRun) (s : CRState) (h : CRSteps len (crInit g) s) (k m : Nat)
    (hc : calls (ofMessage k m s.log) ≠ []) :
    ∃ t b n, (started (connPart s.log))[k]? = some t ∧ t.contexts[m]? = some (some b) ∧ len b = some n ∧
      ∃ j, j ≤ n ∧ calls (ofMessage k m s.log) = List.range j := by
  have iv := crInv_steps h
  have iv2 := crInv2_steps h
  rw [ofMessage_eq] at hc ⊢
  by_cases hlt : k < s.tasks.length
  · obtain ⟨t, h1, h2, -⟩ := iv2.tasks k _ (List.getElem?_eq_getElem hlt)
    have hp : (chainLens len t.contexts).1 = [] ∧ (startTask len t).p = pinit 0 [] ∨
        ∃ n ns, (chainLens len t.contexts).1 = n :: ns ∧ (startTask len t).p = pinit n ns := by
      unfold startTask
      simp only
      split
      · next e => exact .inl ⟨e, rfl⟩
      · next e => exact .inr ⟨_, _, e, rfl⟩
    rcases hp with ⟨-, hp⟩ | ⟨n0, ns, hl, hp⟩
    · rw [hp] at h2
      rcases parts_calls (pruns_parts h2) m with h' | ⟨n, h3, j, h4, h5⟩
      · exact absurd h' hc
      · have : n = 0 := by
          rcases m with - | m
          · simpa using h3.symm
          · simp at h3
        subst this
        have : j = 0 := by omega
        subst this
        exact absurd h5 hc
    · rw [hp] at h2
      rcases parts_calls (pruns_parts h2) m with h' | ⟨n, h3, h4⟩
      · exact absurd h' hc
      · rw [← hl] at h3
        obtain ⟨b, hb1, hb2⟩ := chainLens_some len _ m n h3
        exact ⟨t, b, n, h1, hb1, hb2, h4⟩
  · rw [iv.none k (by omega)] at hc
    exact absurd rfl hc

-- one message whose chain has two handlers, the first of which has been called; and a message for which no chain is found
example : ∃ s, CRSteps (fun b => if b = plainFrame 1 7 then some 2 else none) (crInit twoMessages) s ∧
    calls (ofMessage 0 0 s.log) = [0] ∧ calls (ofMessage 1 0 s.log) = [] := by
  have h := conn_first (fun b => if b = plainFrame 1 7 then some 2 else none) twoMessages.trace (crInit twoMessages) rfl [] (by simp [crInit])
  rw [twoMessages_trace] at h
  exact ⟨_, h.tail (.task _ 0 _ _ rfl (.start _ [] 0 rfl (by decide) (by decide)) rfl), by decide, by decide⟩

/-- C108: for every stream and fragmentation: the messages the goroutines handle are the complete frames received, in order, each in one place,
up to the first one refused; and when everything has come to an end and the process still runs, each has been handled once, to the
end.  (A group that the end of the stream has cut off is the subject of C56.) -/
theorem C108_stream (len : Bytes → Option Nat) (json : JSONCodec) (max : Int32) (hasOnClose onClosePanics : Bool) (r : Reader) (fs : List Bytes)
    (tail : Bytes) (e : Ending) (kind : Bytes → Kind) (hr : stream r = (fs.flatten ++ tail, e)) (ha : ∀ f ∈ fs, Acceptable max.toInt f)
    (hk : ∀ f ∈ fs, KindOf json f (kind f)) (hpl : e.plain)
    (ht : Incomplete max.toInt tail ∨ Oversized max.toInt tail ∨ NegativeLength tail)
    (hpos : (expected kind .between fs).2 = .between ∨ (expected kind .between fs).2 = .refused)
    (s : CRState) (h : CRSteps len (crInit (connGoroutine json max hasOnClose onClosePanics r)) s) (he : Ended len s) (hd : s.dead = false) :
    let ts := (expected kind .between fs).1
    (∃ n, ts.flatMap Task.contexts = (fs.take n).map some ∧ ((expected kind .between fs).2 = .between → n = fs.length)) ∧
    ∀ k t, ts[k]? = some t → ∀ m b, t.contexts[m]? = some (some b) → ∃ n, len b = some n ∧ HandledOnce n (ofMessage k m s.log) := by
  intro ts
  have hstarted : started (connGoroutine json max hasOnClose onClosePanics r).trace = ts := by
    have key := C56_dispatch_partial json max r fs tail e kind hr ha hk hpl ht
    have hl : ∃ last, connLoop json max r = (ts, last) := by
      rcases hpos with hp | hp <;> rw [hp] at key <;> obtain ⟨last, hl, _⟩ := key <;> exact ⟨last, hl⟩
    obtain ⟨last, hl⟩ := hl
    have hgo : ∀ l : List Task, started (l.map ConnEv.go) = l := by
      intro l
      induction l with
      | nil => rfl
      | cons a l ih => simp only [started, List.map_cons, List.filterMap_cons] at ih ⊢; rw [ih]
    cases last <;> cases hasOnClose <;> cases onClosePanics <;>
      simp [connGoroutine, hl, runDeferred, deferOrder, started_append, hgo] <;> rfl
  constructor
  · obtain ⟨n, _, h1, h2, _⟩ := C56_expected_order kind fs
    refine ⟨n, ?_, ?_⟩
    · rcases hpos with hp | hp <;> rw [hp] at h1 <;> simpa [pending] using h1
    · intro hp; exact h2 (by rw [hp]; simp)
  · intro k t hkt m b hm
    obtain ⟨b', n, hb, hn, hh⟩ := (C108_handled len _ s h he hd).2 k t (by rw [hstarted]; exact hkt) m _ hm
    cases hb
    exact ⟨n, hn, hh⟩

-- two messages with a handler each, the second handled before the first and after OnClose, to the end
example : ∃ s, CRSteps (fun _ => some 1) (crInit twoMessages) s ∧ Ended (fun _ => some 1) s ∧ s.dead = false ∧
    ofMessage 0 0 s.log = [.start 0, .finish 0, .done] ∧ ofMessage 1 0 s.log = [.start 0, .finish 0, .done] := by
  have h := conn_first (fun _ => some 1) twoMessages.trace (crInit twoMessages) rfl [] (by simp [crInit])
  rw [twoMessages_trace] at h
  have h := ((((h.tail (.task _ 1 _ _ rfl (.start _ [] 0 rfl (by decide) (by decide)) rfl)).tail (.task _ 1 _ _ rfl (.ret _ _ 0 0 rfl) rfl)).tail
    (.task _ 1 _ _ rfl (.postInc _ _ rfl) rfl)).tail (.task _ 1 _ _ rfl (.loopEnd _ _ rfl (by decide)) rfl))
  have h := ((((h.tail (.task _ 0 _ _ rfl (.start _ [] 0 rfl (by decide) (by decide)) rfl)).tail (.task _ 0 _ _ rfl (.ret _ _ 0 0 rfl) rfl)).tail
    (.task _ 0 _ _ rfl (.postInc _ _ rfl) rfl)).tail (.task _ 0 _ _ rfl (.loopEnd _ _ rfl (by decide)) rfl))
  exact ⟨_, h, ended_of _ _ rfl (by decide), rfl, by decide, by decide⟩

end Tcpx
