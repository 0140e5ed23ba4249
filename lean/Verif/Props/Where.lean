import Verif.Lemmas.Where
/-!
# Properties C113, C114: messages about refused registrations, and `URLMux` on its own
-/
namespace Tcpx
open Where Spec

/-! ## C113 -/

/-- C113: when a `Use` of a key is refused, after any calls, the text of the panic ends in the places of all `Use` and `UnUse` of that
key that have returned, in order. -/
theorem C113_use (cs : List (String × RegEv)) (l1 l2 : List Done) (place k : String) (f : H) (t : String)
    (h : (runAll {} cs).2 = l1 ++ ⟨place, .use k f, .panicked t⟩ :: l2) : Shows t (usePlaces k l1) (unUsePlaces k l1) := by
  obtain ⟨w, iv, _, ho⟩ := runAll_split inv_new cs l1 l2 _ h
  simp only [step, useOne] at ho
  have hi := iv.info k
  rw [List.nil_append] at hi
  split at ho
  · split at ho
    · simp only [Outcome.panicked.injEq, hi] at ho
      rw [ho]
      refine ⟨"can't Use(" ++ k ++ ", handler) more than twice when the first anchor middleware has not called UnUse(" ++ k ++
        ") yet, they're at:", "------------------- Use -----------------------", "------------------- UnUse ---------------------", ?_⟩
      rw [Info.formatPath, show (") yet, they're at:\n" : String) = ") yet, they're at:" ++ "\n" from rfl]
      simp only [String.append_assoc, List.append_assoc, List.cons_append, List.nil_append]
    · cases ho
  · cases ho

/-- C113: when an `UnUse` of a key is refused, after any calls, either no `Use` of that key has returned, or the text of the panic ends in
the places of all `Use` and `UnUse` of that key that have returned, in order. -/
theorem C113_unUse (cs : List (String × RegEv)) (l1 l2 : List Done) (place k : String) (t : String)
    (h : (runAll {} cs).2 = l1 ++ ⟨place, .unUse k, .panicked t⟩ :: l2) :
    usePlaces k l1 = [] ∨ Shows t (usePlaces k l1) (unUsePlaces k l1) := by
  obtain ⟨w, iv, _, ho⟩ := runAll_split inv_new cs l1 l2 _ h
  simp only [step, unUseOne] at ho
  have hi := iv.info k
  rw [List.nil_append] at hi
  split at ho
  · next hn =>
    left
    have hs := iv.some k
    rw [hn] at hs
    have : w.info.get? k = none := by simpa using hs.symm
    rw [this] at hi
    simp only [Option.getD_none, Info.mk.injEq] at hi
    exact hi.1.symm
  · split at ho
    · right
      simp only [Outcome.panicked.injEq, hi] at ho
      rw [ho]
      refine ⟨"can't UnUse(" ++ k ++ ") when call UnUse times is bigger than call Use, they're at :",
        "------------------- Use -----------------------", "------------------- UnUse ---------------------", ?_⟩
      rw [Info.formatPath, show (") when call UnUse times is bigger than call Use, they're at :\n" : String) =
        ") when call UnUse times is bigger than call Use, they're at :" ++ "\n" from rfl]
      simp only [String.append_assoc, List.append_assoc, List.cons_append, List.nil_append]
    · cases ho

/-- C113: writing down places changes nothing else: after any calls, the next one panics exactly if it panics in the model without
places (C25–C33). -/
theorem C113_same (cs : List (String × RegEv)) (l1 l2 : List Done) (d : Done) (h : (runAll {} cs).2 = l1 ++ d :: l2) :
    (∃ t, d.outcome = .panicked t) ↔ panics (l1.map (·.call)).reverse d.call := by
  obtain ⟨w, iv, hw, ho⟩ := runAll_split inv_new cs l1 l2 _ h
  rw [ho]
  have := step_panics iv.hist d.place d.call
  rw [this, hw]
  simp [panics]

/-- A middleware is used twice. -/
def Demo.twice : List (String × RegEv) :=
  [("a.go:1", .use "m" 7), ("a.go:2", .unUse "m"), ("b.go:3", .use "m" 7), ("b.go:4", .addHandler 1 [8]), ("b.go:5", .use "m" 9)]

example : ∃ t, (runAll {} Demo.twice).2.getLast? = some ⟨"b.go:5", .use "m" 9, .panicked t⟩ ∧
    usePlaces "m" (runAll {} Demo.twice).2 = ["a.go:1", "b.go:3"] ∧ unUsePlaces "m" (runAll {} Demo.twice).2 = ["a.go:2"] :=
  ⟨_, rfl, by decide, by decide⟩

/-! ## C114 -/

/-- C114: after any calls, `AddURLPatternHandler` returns an error exactly if `LockWrite` has been called; otherwise it panics exactly if
`PanicOnExistRouter` has been called with success and the pattern has been added before; and then the text shows the place of the call and
all places where the pattern has been added, in order. -/
theorem C114_add (cs : List (String × UrlCall)) (l1 l2 : List UrlDone) (place p : String) (hs : List H) (o : UrlOutcome)
    (h : (runUrl {} cs).2 = l1 ++ ⟨place, .add p hs, o⟩ :: l2) :
    (o = .refused ↔ ∃ d ∈ l1, d.call = .lockWrite) ∧
    ((∃ t, o = .panicked t) ↔ (∀ d ∈ l1, d.call ≠ .lockWrite) ∧
      (∃ d ∈ l1, d.call = .panicOnExistRouter ∧ d.outcome = .returned) ∧ addPlaces p l1 ≠ []) ∧
    (∀ t, o = .panicked t → ∃ a b, t = a ++ place ++ b ++ "\n" ++ "\n".intercalate (addPlaces p l1)) := by
  obtain ⟨m, iv, ho⟩ := runUrl_split uinv_new cs l1 l2 _ h
  rw [List.nil_append] at iv
  have hl : (∀ d ∈ l1, d.call ≠ .lockWrite) ↔ m.readOnly = false := by
    rw [Bool.eq_false_iff, ne_eq, iv.locked]; simp
  rw [hl, ← iv.locked, ← iv.strict]
  simp only [UrlCall.run, URLMux.add] at ho
  cases hr : m.readOnly with
  | true => simp only [hr, if_true] at ho; subst ho; simp
  | false =>
    simp only [hr, Bool.false_eq_true, if_false] at ho
    by_cases hp : addPlaces p l1 = []
    · have h1 := iv.hs p
      have h2 := iv.info p
      rw [if_pos hp] at h1 h2
      simp only [h1, h2] at ho
      subst ho
      simp [hp]
    · have h1 := iv.hs p
      have h2 := iv.info p
      rw [if_neg hp] at h1 h2
      simp only [h1, h2] at ho
      cases hs' : m.panicOnExistRouting with
      | true =>
        simp only [hs', if_true] at ho
        subst ho
        refine ⟨by simp, by simp [hp], ?_⟩
        intro t ht
        simp only [UrlOutcome.panicked.injEq] at ht
        refine ⟨"handler conflicts on the same url-pattern: \n", "\nThe existed route-info is at:", ?_⟩
        rw [← ht]
        simp only [Option.getD_some, Route.location, String.append_assoc]
        rfl
      | false =>
        simp only [hs', Bool.false_eq_true, if_false] at ho
        subst ho
        simp

/-- C114: the handlers of a pattern are those given by the calls that returned, in order; there are none for any other pattern. -/
theorem C114_handlers (cs : List (String × UrlCall)) (p : String) :
    (runUrl {} cs).1.urlPatternMux.get? p =
      if addPlaces p (runUrl {} cs).2 = [] then none else some (addedHandlers p (runUrl {} cs).2) := by
  have := (runUrl_inv uinv_new cs).hs p
  simpa using this

/-- Two additions, then a conflict, then an addition too late. -/
def Demo.url : List (String × UrlCall) :=
  [("a.go:1", .add "/u" [1]), ("a.go:2", .add "/u" [2]), ("a.go:3", .panicOnExistRouter), ("a.go:4", .add "/u" [3]),
    ("a.go:5", .add "/v" [4]), ("a.go:6", .lockWrite), ("a.go:7", .add "/w" [5])]

example : (runUrl {} Demo.url).2.map (·.outcome) = [.returned, .returned, .returned,
    .panicked "handler conflicts on the same url-pattern: \na.go:4\nThe existed route-info is at:\na.go:1\na.go:2",
    .returned, .returned, .refused] ∧ (runUrl {} Demo.url).1.urlPatternMux.get? "/u" = some [1, 2] := by decide

end Tcpx
