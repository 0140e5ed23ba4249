import Verif.Model.CounterClient
import Verif.Props.Counter
import Verif.Props.ExampleClients
/-!
# C126: the client of the request counter
-/
namespace Tcpx
open Spec

namespace CounterClient

theorem recv_frame {M : Type} {obj : Bytes → Option M} (id : Int32) (hb bb rest : Bytes)
    (e : Ending) (r : Reader) (hs : payload hb bb < 2^31 - 4) (hr : stream r = (Spec.frame id.toInt hb bb ++ rest, e))
    {l : List (Shown M)} (hl : display obj id bb = some l) :
    ∃ r', stream r' = (rest, e) ∧ recv obj r = (l ++ (recv obj r').1, (recv obj r').2) := by
  obtain ⟨r', h1, h2⟩ := step_frame _ _ _ _ _ _ hs hr
  refine ⟨r', h2, ?_⟩
  obtain ⟨-, k1, -, -, -, t, k2, k3⟩ := C02_accessors { live := Spec.frame id.toInt hb bb } id hb bb [] (by simp) hs
  conv => lhs; unfold recv
  split
  · rename_i h'; rw [h1] at h'; cases h'
  · rename_i h'; rw [h1] at h'; cases h'
  · rename_i h'; rw [h1] at h'; cases h'
  · rename_i h'; rw [h1] at h'; cases h'
    rw [k1, k2]
    simp only [k3, hl]

theorem recv_end {M : Type} {obj : Bytes → Option M} {r : Reader} (hi : Incomplete 0 (stream r).1) (he : (stream r).2.plain) :
    recv obj r = ([], if (stream r).2 = .stillOpen then .waits else .exits) := by
  have h : shortOut (firstBlockOf (some r)) (stream r).2 := incomplete_step r 0 hi
  conv => lhs; unfold recv
  cases hs : (stream r).2 <;> rw [hs] at h he
  · have h : firstBlockOf (some r) = .block := h
    split <;> (rename_i h'; rw [h] at h'; cases h') <;> rfl
  · obtain ⟨_, h⟩ := h
    split <;> (rename_i h'; rw [h] at h'; cases h') <;> rfl
  · exact he.elim
  · obtain ⟨_, h⟩ := h
    split <;> (rename_i h'; rw [h] at h'; cases h') <;> rfl

end CounterClient

namespace Counter

/-- A request reports once, when it has been scheduled twice. -/
theorem reports_count (arr : Nat → Srv.Routed) (sched : List Nat) (i : Nat) :
    (((start arr).run sched).reported.map (·.1)).count i = if arr i = .byId 3 ∧ 2 ≤ sched.count i then 1 else 0 := by
  suffices hs : ∀ rev : List Nat, (((start arr).run rev.reverse).reported.map (·.1)).count i =
      if arr i = .byId 3 ∧ 2 ≤ rev.reverse.count i then 1 else 0 by
    have := hs sched.reverse; simpa using this
  intro rev
  induction rev with
  | nil => simp [State.run, start]
  | cons j rev ih =>
    rw [List.reverse_cons]
    obtain ⟨l, hl, hr⟩ := C126_reports arr rev.reverse j
    rw [hr]
    generalize rev.reverse = before at *
    by_cases hji : j = i
    · subst hji
      simp only [List.count_append, List.count_singleton_self]
      by_cases hc : arr j = .byId 3 ∧ before.count j = 1
      · rw [if_pos hc, List.map_cons, List.count_cons_self, ih, if_neg (by omega), if_pos ⟨hc.1, by omega⟩]
      · rw [if_neg hc, ih]
        by_cases ha : arr j = .byId 3
        · have : before.count j ≠ 1 := fun q => hc ⟨ha, q⟩
          simp only [ha, true_and]
          by_cases h2 : 2 ≤ before.count j
          · rw [if_pos h2, if_pos (by omega)]
          · rw [if_neg h2, if_neg (by omega)]
        · simp [ha]
    · have hcount : (before ++ [j]).count i = before.count i := by
        rw [List.count_append, List.count_singleton]; simp [hji]
      rw [hcount, ← ih]
      split
      · rw [List.map_cons, List.count_cons]; simp [hji]
      · rfl

theorem count_filter (mine : Nat → Bool) (l : List (Nat × Int32)) (i : Nat) :
    ((l.filter fun x => mine x.1).map (·.1)).count i = if mine i = true then (l.map (·.1)).count i else 0 := by
  induction l with
  | nil => simp
  | cons x l ih =>
    simp only [List.filter_cons, List.map_cons, List.count_cons]
    by_cases hx : mine x.1 = true
    · rw [if_pos hx, List.map_cons, List.count_cons, ih]
      by_cases hi : mine i = true
      · rw [if_pos hi, if_pos hi]
      · rw [if_neg hi, if_neg hi]
        have : ¬ x.1 = i := by rintro rfl; exact hi hx
        simp [this]
    · rw [if_neg hx, ih]
      by_cases hi : mine i = true
      · rw [if_pos hi, if_pos hi]
        have : ¬ x.1 = i := by rintro rfl; exact hx hi
        simp [this]
      · rw [if_neg hi, if_neg hi]

end Counter

/-- The bytes the server sends for the reports, in this order; `enc n` is the body that tells the count `n`. -/
def Spec.reportBytes (enc : Int32 → Bytes) (hb : Bytes) (order : List (Nat × Int32)) : Bytes :=
  (order.map fun x => Spec.frame 4 hb (enc x.2)).flatten

open Counter in
/-- C126: a session of the request counter.  Whatever requests there are besides those of one client (`mine`), however all are scheduled,
in whatever order the answers to the client's requests are written and in whatever pieces they arrive: the client prints the
text of the count reported to each of its requests with id 3 that has been handled, once; then it waits, or ends if the connection has ended. -/
theorem C126_client {M : Type} (obj : Bytes → Option M) (enc : Int32 → Bytes) (hb : Bytes) (hsize : ∀ n, payload hb (enc n) < 2^31 - 4)
    (arr : Nat → Srv.Routed) (sched : List Nat) (mine : Nat → Bool) (order : List (Nat × Int32))
    (horder : order.Perm (((start arr).run sched).reported.filter fun x => mine x.1))
    (tail : Bytes) (e : Ending) (ht : Incomplete 0 tail) (he : e.plain) (r : Reader) (hr : stream r = (reportBytes enc hb order ++ tail, e)) :
    CounterClient.recv obj r = (order.map fun x => .text (enc x.2), if e = .stillOpen then .waits else .exits) ∧
    ∀ i, (order.map (·.1)).count i = if mine i = true ∧ arr i = .byId 3 ∧ 2 ≤ sched.count i then 1 else 0 := by
  refine ⟨?_, ?_⟩
  · clear horder
    unfold reportBytes at hr
    induction order generalizing r with
    | nil =>
      have hr : stream r = (tail, e) := by simpa using hr
      rw [CounterClient.recv_end (by rw [hr]; exact ht) (by rw [hr]; exact he), hr]; rfl
    | cons x order ih =>
      simp only [List.map_cons, List.flatten_cons, List.append_assoc] at hr
      obtain ⟨r', h1, h2⟩ := CounterClient.recv_frame (obj := obj) 4 hb (enc x.2) _ e r (hsize _) hr (l := [.text (enc x.2)])
        (by rw [CounterClient.display, if_neg (by decide), if_pos rfl])
      rw [h2, ih r' h1]; rfl
  · intro i
    rw [(horder.map (·.1)).count_eq i, count_filter, reports_count]
    by_cases hm : mine i = true <;> simp [hm]

-- two clients: the requests of the first are 0 and 2; the answer to request 2 is written first, and cut up on the way
example :
    let arr : Nat → Srv.Routed := fun i => if i = 3 then .byId 7 else .byId 3
    let sched := [0, 1, 2, 2, 1, 3, 0, 0]
    let order : List (Nat × Int32) := [(2, 3), (0, 3)]
    let enc : Int32 → Bytes := fun n => [7, n.toUInt32.toUInt8]
    let bs := reportBytes enc [] order
    order.Perm (((Counter.start arr).run sched).reported.filter fun x => x.1 % 2 == 0) ∧
    (∀ n, payload [] (enc n) < 2^31 - 4) ∧ stream [.chunk (bs.take 3), .chunk (bs.drop 3), .eof] = (bs ++ [], .closed) ∧
    Incomplete 0 ([] : Bytes) := by
  refine ⟨by decide, ?_, by decide, .inl (by decide)⟩
  intro n; simp [payload]

end Tcpx
