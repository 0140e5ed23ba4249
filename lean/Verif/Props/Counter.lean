import Verif.Model.Counter
import Verif.Spec.Programs
/-!
# Properties of the request counter (examples/modules/middleware/global-middleware)

C126.
-/
namespace Tcpx
namespace Counter

/-- The different requests among those of `sched` that the example counts: those routed to its handler. -/
def Spec.Counted (arr : Nat → Srv.Routed) (sched l : List Nat) : Prop :=
  l.Nodup ∧ ∀ j, j ∈ l ↔ j ∈ sched ∧ arr j = .byId 3

end Counter

open Counter in
/-- C126: only messages with id 3 are handled; they run the middleware and then the handler. -/
theorem C126_routes (r : Srv.Routed) :
    (runOps .new ops).handle r = (if r = .byId 3 then .chain [countRequestTime, getRequestTime] else .nothing) ∧
      Spec.Registers .new ops = true ∧ countRequestTime ≠ getRequestTime := by
  refine ⟨?_, by decide, by decide⟩
  have h1 : (runOps .new ops).onMessage = none := by decide
  have h2 : (runOps .new ops).mux.urlMux = [] := by decide
  have h3 : (runOps .new ops).mux.handlers = [(3, getRequestTime)] := by decide
  cases r with
  | byId id =>
    by_cases h : id = 3
    · subst h; decide
    · have : (runOps .new ops).mux.handlers.get? id = none := by
        rw [h3]; simp [GoMap.get?]; grind
      simp [Srv.handle, h1, Srv.dispatchId, this, h]
  | byUrl p => simp [Srv.handle, h1, Srv.dispatchUrl, h2]
  | unreadable => simp [Srv.handle, h1]
  | unknownType => simp [Srv.handle, h1]

namespace Counter

/-- Where a request is after it was scheduled `n` times. -/
def rest (r : Srv.Routed) (n : Nat) : List H :=
  if r = .byId 3 then [countRequestTime, getRequestTime].drop n else []

theorem todo_run (arr : Nat → Srv.Routed) (sched : List Nat) (i : Nat) :
    ((start arr).run sched).todo i = rest (arr i) (sched.count i) := by
  suffices h : ∀ rev : List Nat, ((start arr).run rev.reverse).todo i = rest (arr i) (rev.count i) by
    have := h sched.reverse; simpa using this
  intro rev
  induction rev with
  | nil =>
    simp only [List.reverse_nil, State.run, List.foldl_nil, start, (C126_routes (arr i)).1, rest]
    split <;> simp [chainOf]
  | cons j rev ih =>
    simp only [List.reverse_cons, State.run, List.foldl_append, List.foldl_cons, List.foldl_nil] at ih ⊢
    generalize List.foldl State.step (start arr) rev.reverse = s at *
    have key : (s.step j).todo i = if i = j then (s.todo i).drop 1 else s.todo i := by
      unfold State.step
      split
      · next h => split
                  · next e => subst e; rw [h]; rfl
                  · rfl
      · next h hs e =>
        have : ∀ t : State, t.todo = (fun k => if k = j then hs else s.todo k) →
            t.todo i = if i = j then (s.todo i).drop 1 else s.todo i := by
          intro t ht; rw [ht]; simp only
          split
          · next e' => subst e'; rw [e]; rfl
          · rfl
        split
        · exact this _ rfl
        split
        · exact this _ rfl
        · exact this _ rfl
    rw [key, ih, List.count_cons]
    by_cases e : i = j
    · subst e
      simp only [if_pos, beq_self_eq_true, rest]
      split <;> simp
    · simp [e, Ne.symm e]

/-- C126: along every schedule the counter is the number of different requests counted so far, modulo 2^32. -/
theorem counter_run (arr : Nat → Srv.Routed) (sched : List Nat) :
    ∃ l, Spec.Counted arr sched l ∧ ((start arr).run sched).requestTimes = Int32.ofNat l.length := by
  suffices h : ∀ rev : List Nat, ∃ l, Spec.Counted arr rev.reverse l ∧
      ((start arr).run rev.reverse).requestTimes = Int32.ofNat l.length by
    have := h sched.reverse; simpa using this
  intro rev
  induction rev with
  | nil => exact ⟨[], ⟨.nil, by simp⟩, rfl⟩
  | cons j rev ih =>
    obtain ⟨l, ⟨hn, hm⟩, hc⟩ := ih
    have ht := todo_run arr rev.reverse j
    simp only [List.reverse_cons, State.run, List.foldl_append, List.foldl_cons, List.foldl_nil] at hc ht ⊢
    generalize List.foldl State.step (start arr) rev.reverse = s at *
    rw [List.count_reverse] at ht
    by_cases hr : arr j = .byId 3
    · by_cases hj : j ∈ rev
      · refine ⟨l, ⟨hn, fun k => ?_⟩, ?_⟩
        · rw [hm]; simp only [List.mem_reverse, List.mem_append, List.mem_singleton]
          constructor
          · rintro ⟨a, b⟩; exact ⟨.inl a, b⟩
          · rintro ⟨a | rfl, b⟩
            · exact ⟨a, b⟩
            · exact ⟨hj, b⟩
        · rw [← hc]
          have : 0 < rev.count j := List.count_pos_iff.2 hj
          obtain ⟨n, hn⟩ : ∃ n, rev.count j = n + 1 := ⟨rev.count j - 1, by omega⟩
          rw [hn] at ht
          unfold State.step
          cases n with
          | zero =>
            rw [show s.todo j = [getRequestTime] by rw [ht]; simp [rest, hr]]
            rfl
          | succ n =>
            rw [show s.todo j = [] by rw [ht]; simp [rest, hr]]
      · refine ⟨j :: l, ⟨List.nodup_cons.2 ⟨by rw [hm]; simp [hj], hn⟩, fun k => ?_⟩, ?_⟩
        · simp only [List.mem_cons, hm, List.mem_reverse, List.mem_append, List.not_mem_nil, or_false]
          constructor
          · rintro (rfl | ⟨a, b⟩)
            · exact ⟨.inr rfl, hr⟩
            · exact ⟨.inl a, b⟩
          · rintro ⟨a | rfl, b⟩
            · exact .inr ⟨a, b⟩
            · exact .inl rfl
        · unfold State.step
          rw [show s.todo j = [countRequestTime, getRequestTime] by
            rw [ht, List.count_eq_zero.2 hj]; simp [rest, hr]]
          simp only [if_pos, hc, List.length_cons]
          rw [Int32.ofNat_add]; rfl
    · refine ⟨l, ⟨hn, fun k => ?_⟩, ?_⟩
      · rw [hm]; simp only [List.mem_reverse, List.mem_append, List.mem_singleton]
        constructor
        · rintro ⟨a, b⟩; exact ⟨.inl a, b⟩
        · rintro ⟨a | rfl, b⟩
          · exact ⟨a, b⟩
          · exact absurd b hr
      · rw [← hc]
        unfold State.step
        rw [show s.todo j = [] by rw [ht]; simp [rest, hr]]

end Counter

open Counter in
/-- C126: a request reports when it is scheduled for the second time, if it has id 3, and then reports how many different requests have
been counted before, itself included, modulo 2^32; along every schedule of any number of requests. -/
theorem C126_reports (arr : Nat → Srv.Routed) (before : List Nat) (i : Nat) :
    ∃ l, Spec.Counted arr before l ∧
      ((start arr).run (before ++ [i])).reported =
        if arr i = .byId 3 ∧ before.count i = 1 then (i, Int32.ofNat l.length) :: ((start arr).run before).reported
        else ((start arr).run before).reported := by
  obtain ⟨l, hl, hc⟩ := counter_run arr before
  have ht := todo_run arr before i
  refine ⟨l, hl, ?_⟩
  simp only [State.run, List.foldl_append, List.foldl_cons, List.foldl_nil] at hc ht ⊢
  generalize List.foldl State.step (start arr) before = s at *
  by_cases hr : arr i = .byId 3
  · rcases hn : before.count i with _ | _ | n
    · rw [hn] at ht
      simp only [hr]
      unfold State.step
      rw [show s.todo i = [countRequestTime, getRequestTime] by rw [ht]; simp [rest, hr]]
      simp
    · rw [hn] at ht
      simp only [hr]
      unfold State.step
      rw [show s.todo i = [getRequestTime] by rw [ht]; simp [rest, hr]]
      simp [hc, countRequestTime, getRequestTime]
    · rw [hn] at ht
      simp only [hr]
      unfold State.step
      rw [show s.todo i = [] by rw [ht]; simp [rest, hr]]
      simp
  · simp only [hr]
    unfold State.step
    rw [show s.todo i = [] by rw [ht]; simp [rest, hr]]
    simp

namespace Counter

example : ((start (fun i => if i = 1 then .byId 4 else .byId 3)).run [0, 1, 2, 2, 1, 0, 0, 3]).reported = [(0, 2), (2, 2)] := by decide

theorem counted_length {arr : Nat → Srv.Routed} {sched l l' : List Nat} (h : Spec.Counted arr sched l)
    (h' : Spec.Counted arr sched l') : l.length = l'.length := by
  apply Nat.le_antisymm
  · exact h.1.length_le_of_subset (fun j hj => (h'.2 j).2 ((h.2 j).1 hj))
  · exact h'.1.length_le_of_subset (fun j hj => (h.2 j).2 ((h'.2 j).1 hj))

theorem counted_mono {arr : Nat → Srv.Routed} {sched more l l' : List Nat} (h : Spec.Counted arr sched l)
    (h' : Spec.Counted arr (sched ++ more) l') : l.length ≤ l'.length :=
  h.1.length_le_of_subset (fun j hj => (h'.2 j).2 ⟨List.mem_append_left _ ((h.2 j).1 hj).1, ((h.2 j).1 hj).2⟩)

theorem ofNat_toInt (n : Nat) (h : n < 2^31) : (Int32.ofNat n).toInt = n := by
  rw [Int32.toInt_ofNat_of_lt (by omega)]

/-- Every report ever made was made at some point of the schedule. -/
theorem reported_at (arr : Nat → Srv.Routed) (sched : List Nat) (newer older : List (Nat × Int32)) (i : Nat) (v : Int32)
    (h : ((start arr).run sched).reported = newer ++ (i, v) :: older) :
    ∃ before after l, sched = before ++ i :: after ∧ arr i = .byId 3 ∧ before.count i = 1 ∧ Spec.Counted arr before l ∧
      v = Int32.ofNat l.length ∧ ((start arr).run before).reported = older := by
  suffices hs : ∀ (rev : List Nat) (newer : List (Nat × Int32)), ((start arr).run rev.reverse).reported = newer ++ (i, v) :: older →
      ∃ before after l, rev.reverse = before ++ i :: after ∧ arr i = .byId 3 ∧ before.count i = 1 ∧ Spec.Counted arr before l ∧
        v = Int32.ofNat l.length ∧ ((start arr).run before).reported = older by
    have := hs sched.reverse newer (by simpa using h)
    simpa using this
  intro rev
  induction rev with
  | nil => intro newer h; simp [State.run, start] at h
  | cons j rev ih =>
    intro newer h
    rw [List.reverse_cons] at h ⊢
    obtain ⟨l, hl, hr⟩ := C126_reports arr rev.reverse j
    rw [hr] at h
    have lift : (∃ newer', ((start arr).run rev.reverse).reported = newer' ++ (i, v) :: older) →
        ∃ before after l, rev.reverse ++ [j] = before ++ i :: after ∧ arr i = .byId 3 ∧ before.count i = 1 ∧
          Spec.Counted arr before l ∧ v = Int32.ofNat l.length ∧ ((start arr).run before).reported = older := by
      rintro ⟨n', hn⟩
      obtain ⟨b, a, l, h1, h2⟩ := ih n' hn
      exact ⟨b, a ++ [j], l, by rw [h1]; simp, h2⟩
    split at h
    · next hc =>
      cases newer with
      | nil =>
        simp only [List.nil_append, List.cons.injEq, Prod.mk.injEq] at h
        obtain ⟨⟨rfl, rfl⟩, hh⟩ := h
        exact ⟨_, [], l, rfl, hc.1, hc.2, hl, rfl, hh⟩
      | cons x newer =>
        simp only [List.cons_append, List.cons.injEq] at h
        exact lift ⟨_, h.2⟩
    · exact lift ⟨_, h⟩

theorem reporters (arr : Nat → Srv.Routed) (sched : List Nat) :
    (((start arr).run sched).reported.map Prod.fst).Nodup ∧
      ∀ x ∈ ((start arr).run sched).reported, arr x.1 = .byId 3 ∧ 2 ≤ sched.count x.1 := by
  suffices hs : ∀ rev : List Nat, (((start arr).run rev.reverse).reported.map Prod.fst).Nodup ∧
      ∀ x ∈ ((start arr).run rev.reverse).reported, arr x.1 = .byId 3 ∧ 2 ≤ rev.reverse.count x.1 by
    have := hs sched.reverse; simpa using this
  intro rev
  induction rev with
  | nil => exact ⟨.nil, by simp [State.run, start]⟩
  | cons j rev ih =>
    rw [List.reverse_cons]
    obtain ⟨l, hl, hr⟩ := C126_reports arr rev.reverse j
    rw [hr]
    have more : ∀ k, rev.reverse.count k ≤ (rev.reverse ++ [j]).count k := fun k => by simp [List.count_append]
    split
    · next hc =>
      refine ⟨?_, ?_⟩
      · rw [List.map_cons, List.nodup_cons]
        refine ⟨?_, ih.1⟩
        rw [List.mem_map]
        rintro ⟨x, hx, rfl⟩
        have := (ih.2 x hx).2
        omega
      · intro x hx
        rcases List.mem_cons.1 hx with rfl | hx
        · refine ⟨hc.1, ?_⟩
          simp only [List.count_append, hc.2]; simp
        · exact ⟨(ih.2 x hx).1, Nat.le_trans (ih.2 x hx).2 (more _)⟩
    · exact ⟨ih.1, fun x hx => ⟨(ih.2 x hx).1, Nat.le_trans (ih.2 x hx).2 (more _)⟩⟩

end Counter

open Counter in
/-- C126 (partial): as long as fewer than 2^31 requests are counted, every report is at least the number of reports made so far, itself
included (so at least 1), at most the number of requests counted, and at least every earlier report; and no request reports twice.
Missing: more requests, `C126_wraps_violated`. -/
theorem C126_bounds_partial (arr : Nat → Srv.Routed) (sched l : List Nat) (hl : Spec.Counted arr sched l) (hlt : l.length < 2^31)
    (newer older : List (Nat × Int32)) (i : Nat) (v : Int32)
    (h : ((start arr).run sched).reported = newer ++ (i, v) :: older) :
    (older.length + 1 : Int) ≤ v.toInt ∧ v.toInt ≤ l.length ∧ ∀ x ∈ older, x.2.toInt ≤ v.toInt ∧ x.1 ≠ i := by
  obtain ⟨before, after, k, rfl, ha, hc, hk, rfl, hold⟩ := reported_at arr sched newer older i v h
  have hkl : k.length ≤ l.length := counted_mono hk hl
  rw [ofNat_toInt _ (by omega)]
  have hrep := reporters arr before
  rw [hold] at hrep
  refine ⟨?_, by omega, ?_⟩
  · have hsub : (i :: older.map Prod.fst).length ≤ k.length := by
      refine List.Nodup.length_le_of_subset (List.nodup_cons.2 ⟨?_, hrep.1⟩) ?_
      · rw [List.mem_map]
        rintro ⟨x, hx, rfl⟩
        have := (hrep.2 x hx).2
        omega
      · intro j hj
        rw [hk.2]
        rcases List.mem_cons.1 hj with rfl | hj
        · exact ⟨List.count_pos_iff.1 (by omega), ha⟩
        · obtain ⟨x, hx, rfl⟩ := List.mem_map.1 hj
          have := hrep.2 x hx
          exact ⟨List.count_pos_iff.1 (by omega), this.1⟩
    simp only [List.length_cons, List.length_map] at hsub
    omega
  · intro x hx
    obtain ⟨p, q, hpq⟩ := List.append_of_mem hx
    obtain ⟨b', a', k', hb, _, _, hk', hv', _⟩ := reported_at arr before p q x.1 x.2 (by rw [hold, hpq])
    have : k'.length ≤ k.length := counted_mono hk' (by rw [← hb]; exact hk)
    refine ⟨by rw [hv', ofNat_toInt _ (by omega)]; omega, ?_⟩
    intro hxi
    have := (hrep.2 x hx).2
    rw [hxi] at this
    omega

namespace Counter

example : Spec.Counted (fun i => if i = 1 then .byId 4 else .byId 3) [0, 1, 2, 2, 1, 0, 0, 3] [0, 2, 3] ∧
    ((start (fun i => if i = 1 then .byId 4 else .byId 3)).run [0, 1, 2, 2, 1, 0, 0, 3]).reported = [] ++ (0, 2) :: [(2, 2)] := by
  refine ⟨⟨by decide, fun j => ?_⟩, by decide⟩
  by_cases h : j = 1
  · subst h; simp
  · simp [h]; omega

end Counter

open Counter in
/-- C126 is false: the counter is an int32.  If 2^31 requests have been counted when a request reads it, the number reported is negative. -/
theorem C126_wraps_violated :
    ∃ (arr : Nat → Srv.Routed) (sched : List Nat) (i : Nat) (v : Int32),
      (i, v) ∈ ((start arr).run sched).reported ∧ v.toInt = -2147483648 := by
  refine ⟨fun _ => .byId 3, List.range 2147483648 ++ [0], 0, Int32.ofNat 2147483648, ?_, by decide⟩
  obtain ⟨l, hl, hr⟩ := C126_reports (fun _ => .byId 3) (List.range 2147483648) 0
  have hc : Spec.Counted (fun _ => .byId 3) (List.range 2147483648) (List.range 2147483648) := ⟨List.nodup_range, by simp⟩
  have hlen := counted_length hl hc
  rw [List.length_range] at hlen
  have h1 : (List.range 2147483648).count 0 = 1 := by
    rw [List.nodup_range.count]; rw [if_pos (List.mem_range.2 (by omega))]
  rw [hr, if_pos ⟨rfl, h1⟩, hlen]
  exact List.mem_cons_self

end Tcpx
