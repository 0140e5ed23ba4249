import Verif.Model.Log
/-!
# C120: the logger
-/
namespace Tcpx
open Log

/-- The mode set last, if any. -/
def Spec.lastMode : List Setting → Option Int
  | [] => none
  | .mode m :: l => some ((lastMode l).getD m)
  | .flags _ :: l => lastMode l

/-- The texts with a blank between them. -/
def Spec.spaced : List (List Char) → List Char
  | [] => []
  | [t] => t
  | t :: u :: l => t ++ ' ' :: spaced (u :: l)

theorem intersperse_spaced (l : List (List Char)) : (l.intersperse [' ']).flatten = Spec.spaced l := by
  induction l with
  | nil => rfl
  | cons a l ih =>
    cases l with
    | nil => simp [Spec.spaced]
    | cons b l =>
      rw [List.intersperse_cons_cons, List.flatten_cons, List.flatten_cons, ih]
      rfl

theorem set_mode (l : Logger) (ss : List Setting) : (ss.foldl Logger.set l).mode = (Spec.lastMode ss).getD l.mode := by
  induction ss generalizing l with
  | nil => rfl
  | cons s ss ih =>
    rw [List.foldl_cons, ih]
    cases s with
    | mode m => simp [Spec.lastMode, Logger.set]
    | flags f => simp [Spec.lastMode, Logger.set]

/-- C120 (partial): whatever settings have been made, a call prints its arguments, each as `%v` prints it, with a blank between them,
if the mode set last is `DEBUG` (or none has been set), and prints nothing otherwise.
Missing: the flags (`C120_flags_violated`). -/
theorem C120_prints_partial (ss : List Setting) (texts : List (List Char)) :
    ((Spec.lastMode ss = none ∨ Spec.lastMode ss = some 1) → (ss.foldl Logger.set initial).println texts = some (Spec.spaced texts)) ∧
    (∀ m, Spec.lastMode ss = some m → m ≠ 1 → (ss.foldl Logger.set initial).println texts = none) := by
  have ht : trimSuffix (trimPrefix (sprintv texts)) = Spec.spaced texts := by
    rw [sprintv, trimPrefix, if_pos rfl, trimSuffix, if_pos (by simp), List.dropLast_concat, intersperse_spaced]
  constructor
  · intro h
    have : (ss.foldl Logger.set initial).mode = DEBUG := by
      rw [set_mode]
      rcases h with h | h <;> rw [h] <;> rfl
    simp only [Logger.println, this, if_true, ht]
  · intro m h hm
    have : (ss.foldl Logger.set initial).mode ≠ DEBUG := by
      rw [set_mode, h]; exact hm
    simp only [Logger.println, if_neg this]

/-- C120 is violated for the flags: leaving out every call of `SetLogFlags`, wherever it was made, never changes what is printed. -/
theorem C120_flags_violated (ss : List Setting) (texts : List (List Char)) :
    (ss.foldl Logger.set initial).println texts =
      ((ss.filter fun s => match s with | .mode _ => true | .flags _ => false).foldl Logger.set initial).println texts := by
  have h : Spec.lastMode (ss.filter fun s => match s with | .mode _ => true | .flags _ => false) = Spec.lastMode ss := by
    induction ss with
    | nil => rfl
    | cons s ss ih => cases s <;> simp [Spec.lastMode, ih]
  simp only [Logger.println, set_mode, h]

example : ([Setting.flags 3, .mode 2, .mode 1].foldl Logger.set initial).println ["[a".toList, "b]".toList] = some "[a b]".toList := by
  decide
example : Spec.lastMode [.mode 1, .flags 3, .mode 2, .flags 7] = some 2 := rfl

end Tcpx
