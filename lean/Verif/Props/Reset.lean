import Verif.Spec.Reset
/-!
# C93: `Reset` gives a request a store of its own

The requests run arbitrary code (`Prog`), so this covers handlers that call `Reset` at any time, any number of times.
-/
namespace Tcpx
open Spec

/-- The number of calls of `Reset` by request `i`. -/
def resetsOf (i : Nat) (tr : List Event) : Nat := tr.countP fun e => e.tid == i && e.action == .reset

theorem hasReset_iff (i : Nat) (tr : List Event) : hasReset i tr = true ↔ 0 < resetsOf i tr := by
  unfold hasReset resetsOf
  rw [List.countP_pos_iff, List.any_eq_true]

/-- The pointers of request `i` after it has called `Reset` `n` times. -/
def ptrsAfter (tcp : Nat → Option Nat) (i n : Nat) : Ptrs :=
  { udp := (tcp i).isNone
    conn := (tcp i).map .conn
    req := if n = 0 then (match tcp i with | some c => .conn c | none => .own i) else .reset i (n - 1)
    resets := n }

structure ResetInv (tcp : Nat → Option Nat) (y : Sys) : Prop where
  ptrs : ∀ i, (y.threads i).ptrs = ptrsAfter tcp i (resetsOf i y.trace)
  unused : ∀ i n k, resetsOf i y.trace ≤ n → y.mem (.reset i n) k = none
  own : ∀ i k, 0 < resetsOf i y.trace → y.mem (.reset i (resetsOf i y.trace - 1)) k = sinceReset (tcp i).isNone i k y.trace
  conn : ∀ c k, y.mem (.conn c) k = connValue tcp c k y.trace

/-- What reads return. -/
def ResetReads (tcp : Nat → Option Nat) (e : Event) (older : List Event) : Prop :=
  (∀ k, e.action = .getReq k → hasReset e.tid older = true → e.result = sinceReset (tcp e.tid).isNone e.tid k older) ∧
  (∀ k, e.action = .getConn k → tcp e.tid = none → hasReset e.tid older = true → e.result = sinceReset true e.tid k older) ∧
  (∀ k c, e.action = .getConn k → tcp e.tid = some c → e.result = connValue tcp c k older) ∧
  (∀ k c, e.action = .getReq k → tcp e.tid = some c → hasReset e.tid older = false → e.result = connValue tcp c k older)

def AllReads (P : Event → List Event → Prop) : List Event → Prop
  | [] => True
  | e :: es => P e es ∧ AllReads P es

theorem AllReads.at {P : Event → List Event → Prop} {tr : List Event} (h : AllReads P tr) (e : Event) (newer older : List Event)
    (ht : tr = newer ++ e :: older) : P e older := by
  subst ht
  induction newer with
  | nil => exact h.1
  | cons x xs ih => exact ih h.2

theorem resetsOf_cons (j : Nat) (e : Event) (tr : List Event) :
    resetsOf j (e :: tr) = resetsOf j tr + if e.tid = j ∧ e.action = .reset then 1 else 0 := by
  simp [resetsOf, List.countP_cons]

theorem resetInv_step (tcp : Nat → Option Nat) (y : Sys) (i : Nat) (h : ResetInv tcp y) (hr : AllReads (ResetReads tcp) y.trace) :
    ResetInv tcp (y.step i) ∧ AllReads (ResetReads tcp) (y.step i).trace := by
  unfold Sys.step
  cases hp : (y.threads i).prog with
  | ret a => exact ⟨h, hr⟩
  | panic => exact ⟨h, hr⟩
  | act a k =>
    have hpi := h.ptrs i
    have hhr : hasReset i y.trace = decide (0 < resetsOf i y.trace) := by
      rw [Bool.eq_iff_iff, hasReset_iff]; simp
    cases a with
    | note n =>
      simp only [Action.effect]
      refine ⟨⟨?_, ?_, ?_, ?_⟩, ⟨?_, ?_, ?_, ?_⟩, hr⟩
      · intro j
        rw [resetsOf_cons]
        by_cases hj : j = i <;> simp [hj, h.ptrs]
      · intro j n k; rw [resetsOf_cons]; simpa using h.unused j n k
      · intro j k; rw [resetsOf_cons]; simpa [sinceReset] using h.own j k
      · intro c k; simpa [connValue] using h.conn c k
      all_goals intros; simp_all
    | reset =>
      simp only [Action.effect]
      refine ⟨⟨?_, ?_, ?_, ?_⟩, ⟨?_, ?_, ?_, ?_⟩, hr⟩
      · intro j
        rw [resetsOf_cons]
        by_cases hj : j = i
        · subst hj; simp [hpi, ptrsAfter]
        · simp [hj, h.ptrs, Ne.symm hj]
      · intro j n k; rw [resetsOf_cons]; intro hn; exact h.unused j n k (by omega)
      · intro j k; rw [resetsOf_cons]
        by_cases hj : i = j
        · subst hj; simp [sinceReset]; exact h.unused i _ k (Nat.le_refl _)
        · simpa [sinceReset, hj] using h.own j k
      · intro c k; simpa [connValue] using h.conn c k
      all_goals intros; simp_all
    | getReq q =>
      simp only [Action.effect]
      refine ⟨⟨?_, ?_, ?_, ?_⟩, ⟨?_, ?_, ?_, ?_⟩, hr⟩
      · intro j
        rw [resetsOf_cons]
        by_cases hj : j = i <;> simp [hj, h.ptrs]
      · intro j n k; rw [resetsOf_cons]; simpa using h.unused j n k
      · intro j k; rw [resetsOf_cons]; simpa [sinceReset] using h.own j k
      · intro c k; simpa [connValue] using h.conn c k
      · intro k hk h0
        cases hk
        simp only [hhr, decide_eq_true_eq] at h0
        have := h.own i q h0
        simp only [hpi, ptrsAfter, if_neg (by omega : ¬ resetsOf i y.trace = 0)]
        exact this
      · intro k hk; cases hk
      · intro k c hk; cases hk
      · intro k c hk hc h0
        cases hk
        simp only [hhr, decide_eq_false_iff_not, Nat.not_lt, Nat.le_zero] at h0
        simp only at hc
        simp only [hpi, ptrsAfter, h0, if_true, hc]
        exact h.conn c q
    | getConn q =>
      cases hc : tcp i with
      | none =>
        have he : connStore (y.threads i).ptrs = some (y.threads i).ptrs.req := by simp [connStore, hpi, ptrsAfter, hc]
        simp only [Action.effect, he, Option.map_some]
        refine ⟨⟨?_, ?_, ?_, ?_⟩, ⟨?_, ?_, ?_, ?_⟩, hr⟩
        · intro j
          rw [resetsOf_cons]
          by_cases hj : j = i <;> simp [hj, h.ptrs]
        · intro j n k; rw [resetsOf_cons]; simpa using h.unused j n k
        · intro j k; rw [resetsOf_cons]; simpa [sinceReset] using h.own j k
        · intro c k; simpa [connValue] using h.conn c k
        · intro k hk; cases hk
        · intro k hk _ h0
          cases hk
          simp only [hhr, decide_eq_true_eq] at h0
          have := h.own i q h0
          simp only [hpi, ptrsAfter, if_neg (by omega : ¬ resetsOf i y.trace = 0)]
          rw [this, hc]; rfl
        · intro k c hk hc'; simp only [hc] at hc'; cases hc'
        · intro k c hk; cases hk
      | some c =>
        have he : connStore (y.threads i).ptrs = some (.conn c) := by simp [connStore, hpi, ptrsAfter, hc]
        simp only [Action.effect, he, Option.map_some]
        refine ⟨⟨?_, ?_, ?_, ?_⟩, ⟨?_, ?_, ?_, ?_⟩, hr⟩
        · intro j
          rw [resetsOf_cons]
          by_cases hj : j = i <;> simp [hj, h.ptrs]
        · intro j n k; rw [resetsOf_cons]; simpa using h.unused j n k
        · intro j k; rw [resetsOf_cons]; simpa [sinceReset] using h.own j k
        · intro c k; simpa [connValue] using h.conn c k
        · intro k hk; cases hk
        · intro k hk hc'; simp only [hc] at hc'; cases hc'
        · intro k c' hk hc'; cases hk; simp only [hc] at hc'; cases hc'; exact h.conn c q
        · intro k c hk; cases hk
    | setReq q v =>
      simp only [Action.effect]
      refine ⟨⟨?_, ?_, ?_, ?_⟩, ⟨?_, ?_, ?_, ?_⟩, hr⟩
      · intro j
        rw [resetsOf_cons]
        by_cases hj : j = i <;> simp [hj, h.ptrs]
      · intro j n k hn
        rw [resetsOf_cons] at hn
        have := h.unused j n k (by simpa using hn)
        simp only [Mem.put, hpi, ptrsAfter]
        rw [if_neg, this]
        rintro ⟨h1, -⟩
        by_cases h0 : resetsOf i y.trace = 0
        · rw [if_pos h0] at h1; cases hc : tcp i <;> simp [hc] at h1
        · rw [if_neg h0] at h1; injection h1 with h2 h3; subst h2; simp at hn; omega
      · intro j k h0
        rw [resetsOf_cons] at h0 ⊢
        simp only [reduceCtorEq, and_false, if_false, Nat.add_zero] at h0 ⊢
        have := h.own j k h0
        simp only [Mem.put, hpi, ptrsAfter, sinceReset]
        by_cases hj : i = j
        · subst hj
          rw [if_neg (by omega : ¬ resetsOf i y.trace = 0), if_pos rfl, this]
          simp [eq_comm]
        · rw [if_neg, if_neg hj, this]
          rintro ⟨h1, -⟩
          split at h1
          · cases hc : tcp i <;> simp [hc] at h1
          · injection h1 with h2 h3; exact hj h2.symm
      · intro c k
        have := h.conn c k
        simp only [Mem.put, hpi, ptrsAfter, connValue, hhr]
        by_cases h0 : resetsOf i y.trace = 0
        · cases hc : tcp i with
          | none => simp [h0, this]
          | some c' =>
            by_cases hcc : c = c'
            · subst hcc; simp [h0, this, eq_comm]
            · simp [h0, this, hcc, Ne.symm hcc]
        · simp [h0, this, Nat.pos_of_ne_zero h0]
      all_goals intros; simp_all
    | setConn w q v =>
      cases hc : tcp i with
      | none =>
        have he : connStore (y.threads i).ptrs = some (y.threads i).ptrs.req := by simp [connStore, hpi, ptrsAfter, hc]
        simp only [Action.effect, he, Option.map_some]
        refine ⟨⟨?_, ?_, ?_, ?_⟩, ⟨?_, ?_, ?_, ?_⟩, hr⟩
        · intro j
          rw [resetsOf_cons]
          by_cases hj : j = i <;> simp [hj, h.ptrs]
        · intro j n k hn
          rw [resetsOf_cons] at hn
          have := h.unused j n k (by simpa using hn)
          simp only [Mem.put, hpi, ptrsAfter]
          rw [if_neg, this]
          rintro ⟨h1, -⟩
          by_cases h0 : resetsOf i y.trace = 0
          · rw [if_pos h0] at h1; simp [hc] at h1
          · rw [if_neg h0] at h1; injection h1 with h2 h3; subst h2; simp at hn; omega
        · intro j k h0
          rw [resetsOf_cons] at h0 ⊢
          simp only [reduceCtorEq, and_false, if_false, Nat.add_zero] at h0 ⊢
          have := h.own j k h0
          simp only [Mem.put, hpi, ptrsAfter, sinceReset]
          by_cases hj : i = j
          · subst hj
            rw [if_neg (by omega : ¬ resetsOf i y.trace = 0), if_pos rfl, this]
            simp [eq_comm, hc]
          · rw [if_neg, if_neg hj, this]
            rintro ⟨h1, -⟩
            split at h1
            · simp [hc] at h1
            · injection h1 with h2 h3; exact hj h2.symm
        · intro c k
          have := h.conn c k
          simp only [Mem.put, hpi, ptrsAfter, connValue, hc, reduceCtorEq, if_false]
          rw [if_neg, this]
          rintro ⟨h1, -⟩
          split at h1 <;> cases h1
        all_goals intros; simp_all
      | some c =>
        have he : connStore (y.threads i).ptrs = some (.conn c) := by simp [connStore, hpi, ptrsAfter, hc]
        simp only [Action.effect, he, Option.map_some]
        refine ⟨⟨?_, ?_, ?_, ?_⟩, ⟨?_, ?_, ?_, ?_⟩, hr⟩
        · intro j
          rw [resetsOf_cons]
          by_cases hj : j = i <;> simp [hj, h.ptrs]
        · intro j n k; rw [resetsOf_cons]; simpa [Mem.put] using h.unused j n k
        · intro j k; rw [resetsOf_cons]
          by_cases hj : i = j
          · subst hj; simpa [sinceReset, Mem.put, hc] using h.own i k
          · simpa [sinceReset, Mem.put, hj] using h.own j k
        · intro c' k
          have := h.conn c' k
          simp only [Mem.put, connValue, hc, Option.some.injEq, StoreId.conn.injEq]
          by_cases hcc : c = c'
          · subst hcc; simp [this, eq_comm]
          · simp [this, hcc, Ne.symm hcc]
        all_goals intros; simp_all

theorem resetInv (tcp : Nat → Option Nat) (prog : Nat → Prog Unit) (sched : List Nat) :
    ResetInv tcp ((Sys.ofProgs tcp prog).run sched) ∧ AllReads (ResetReads tcp) ((Sys.ofProgs tcp prog).run sched).trace := by
  suffices ∀ y : Sys, ResetInv tcp y → AllReads (ResetReads tcp) y.trace →
      ResetInv tcp (y.run sched) ∧ AllReads (ResetReads tcp) (y.run sched).trace by
    apply this
    · constructor
      · intro i
        simp only [Sys.ofProgs, ptrsAfter, resetsOf, List.countP_nil, if_true]
        cases tcp i <;> rfl
      · intros; rfl
      · intro i k h; cases h
      · intros; rfl
    · trivial
  induction sched with
  | nil => exact fun y h1 h2 => ⟨h1, h2⟩
  | cons i sched ih => exact fun y h1 h2 => ih _ (resetInv_step tcp y i h1 h2).1 (resetInv_step tcp y i h1 h2).2

/-- C93: after a request has called `Reset`, it reads with `GetCtxPerRequest` exactly what it has itself stored since: nothing that was
stored before, nothing stored by another request. -/
theorem C93_fresh (tcp : Nat → Option Nat) (prog : Nat → Prog Unit) (sched : List Nat) (newer older : List Event) (e : Event) (k : Key)
    (ht : ((Sys.ofProgs tcp prog).run sched).trace = newer ++ e :: older) (he : e.action = .getReq k)
    (hr : hasReset e.tid older = true) : e.result = sinceReset (tcp e.tid).isNone e.tid k older :=
  ((resetInv tcp prog sched).2.at e newer older ht).1 k he hr

/-- C93: the values of a TCP connection survive `Reset`, and are those stored for the connection: by `SetCtxPerConn`, or by
`SetCtxPerRequest` in a request that had not called `Reset` (see C36).  What a request stores with `SetCtxPerRequest` after `Reset` is
not among them. -/
theorem C93_connection_kept (tcp : Nat → Option Nat) (prog : Nat → Prog Unit) (sched : List Nat) (newer older : List Event) (e : Event)
    (k : Key) (c : Nat) (ht : ((Sys.ofProgs tcp prog).run sched).trace = newer ++ e :: older) (hc : tcp e.tid = some c)
    (he : e.action = .getConn k ∨ (e.action = .getReq k ∧ hasReset e.tid older = false)) :
    e.result = connValue tcp c k older := by
  have h := (resetInv tcp prog sched).2.at e newer older ht
  rcases he with he | ⟨he, h0⟩
  · exact h.2.2.1 k c he hc
  · exact h.2.2.2 k c he hc h0

/-- C93: a datagram has no other store, so `Reset` also forgets what was stored with `SetCtxPerConn` (and with `SetUsername`). -/
theorem C93_datagram (tcp : Nat → Option Nat) (prog : Nat → Prog Unit) (sched : List Nat) (newer older : List Event) (e : Event)
    (k : Key) (ht : ((Sys.ofProgs tcp prog).run sched).trace = newer ++ e :: older) (hc : tcp e.tid = none)
    (he : e.action = .getConn k) (hr : hasReset e.tid older = true) : e.result = sinceReset true e.tid k older :=
  ((resetInv tcp prog sched).2.at e newer older ht).2.1 k he hc hr

namespace Demo

/-- Stores under both kinds, resets, stores again, reads. -/
def resetting : Prog Unit := do
  let _ ← perform (.setReq (.other 1) (.str "a"))
  let _ ← perform (.setConn .user (.other 2) (.str "b"))
  let _ ← perform .reset
  let _ ← perform (.setReq (.other 3) (.str "c"))
  let _ ← perform (.getReq (.other 1))
  let _ ← perform (.getReq (.other 3))
  let _ ← perform (.getConn (.other 2))
  let _ ← perform (.getConn (.other 3))

end Demo

-- on TCP: the old value is gone, the new one is there, that of the connection is kept and the new one is not among those
example : (((Sys.ofProgs (fun _ => some 7) (fun _ => Demo.resetting)).run (List.replicate 8 0)).trace.map (·.result)).take 4 =
    [none, some (.str "b"), some (.str "c"), none] := by decide
-- on UDP: that of `SetCtxPerConn` is gone too
example : (((Sys.ofProgs (fun _ => none) (fun _ => Demo.resetting)).run (List.replicate 8 0)).trace.map (·.result)).take 4 =
    [some (.str "c"), none, some (.str "c"), none] := by decide

end Tcpx
