import Verif.Lemmas.Alias
/-!
# C97: what is registered does not depend on what the caller does with its slices

The caller may do anything with its slices between and after registration calls: assign, re-slice, append, set elements, hand the
same slice over again. Memory is allocated with any spare capacity.
-/
namespace Tcpx
open Spec

/-- The global middlewares are those handed to `UseGlobal`, as they were at the time of each call. -/
theorem C97_global (ops : List AOp) : (AState.init.run ops).globals = givenGlobal AState.init ops := by
  have := run_global ops _ (AInv.init noURL)
  rw [show AState.init.val .global = [] from rfl, List.nil_append] at this
  exact this

/-- A message id keeps the handler and the middlewares it was registered with, whatever happens afterwards. -/
theorem C97_ids (ops more : List AOp) (id : Int) (v extra : Nat) (mws : List Fn) (f : Fn)
    (hv : held (AState.init.run ops) v = mws ++ [f])
    (hs : mws = [] ∨ (AState.init.run ops).self id = none) (hh : (AState.init.run ops).handler id = none) :
    (((AState.init.run ops).step (.addHandler id v extra)).run more).handler id = some f ∧
    (mws ≠ [] → (((AState.init.run ops).step (.addHandler id v extra)).run more).selfOf id = mws) := by
  have hi := reach_inv ops
  have st := step_steps hi (.addHandler id v extra) (noURL_ok _)
  cases hx : (AState.init.run ops).vars v with
  | none => simp [held, hx] at hv
  | some x =>
    simp only [held, hx] at hv
    have he : (AState.init.run ops).step (.addHandler id v extra) = (AState.init.run ops).addHandler id (mws ++ [f]) extra := by
      simp only [AState.step, hx, hv]
    have fr := addHandler_fresh hi id mws f extra hs hh
    have hin := st.inv
    rw [he] at hin ⊢
    refine ⟨?_, fun hm => ?_⟩
    · rw [run_handler more _ hin id (by rw [fr.1]; simp), fr.1]
    · have := run_self more _ hin id (fr.2 hm).2
      rw [(fr.2 hm).1] at this
      exact this

/-- `UseGlobal` and `AddHandler` leave the slices of the caller as they are.
Missing: `Any`, which may overwrite them (`C97_caller_violated`). -/
theorem C97_caller_partial (ops : List AOp) (op : AOp) (v : Nat)
    (ho : (∃ v e, op = .useGlobal v e) ∨ ∃ id v e, op = .addHandler id v e) :
    held ((AState.init.run ops).step op) v = held (AState.init.run ops) v := step_vars (reach_inv ops) op ho v

/-- A pattern for which `Any` is never handed an existing slice (`hs...`) runs the handlers given to `Any`, in the order of the
calls; other patterns may get slices of the caller.
Missing: patterns given an existing slice (`C97_url_violated`, `C97_set_violated`). -/
theorem C97_url_partial (ops : List AOp) (p : String) (hp : ∀ op ∈ ops, passesSlice p op = false) :
    (AState.init.run ops).urlOf p = givenURL p AState.init ops := by
  have := run_url p ops _ (AInv.init _) hp
  rw [show AState.init.val (.url p) = [] from rfl, List.nil_append] at this
  exact this

/-- `base := append(make(.., 0, 10), mw)`, `Any("/a", append(base, h1)...)`, `Any("/b", append(base, h2)...)`: a message for `/a`
runs `h2`. -/
theorem C97_url_violated : ∃ ops p, (AState.init.run ops).urlOf p ≠ givenURL p AState.init ops ∧
    1 ∈ givenURL p AState.init ops ∧ 1 ∉ (AState.init.run ops).urlOf p ∧ 2 ∈ (AState.init.run ops).urlOf p :=
  ⟨[.new 0 [7] 9, .append 1 0 [1] 0, .any "/a" 1 0, .append 1 0 [2] 0, .any "/b" 1 0], "/a", by decide⟩

/-- Setting an element of the slice after the call changes the route. -/
theorem C97_set_violated : ∃ ops p f, (AState.init.run ops).urlOf p = givenURL p AState.init ops ∧
    (AState.init.run (ops ++ [.set 0 0 f])).urlOf p ≠ (AState.init.run ops).urlOf p :=
  ⟨[.new 0 [1] 0, .any "/a" 0 0], "/a", 2, by decide⟩

/-- `all := []F{f1, f2, f3, f4}`, `Any("/a", all[:2]...)`: the call overwrites `all[2]` and `all[3]`. -/
theorem C97_caller_violated : ∃ ops op v, isCall op = true ∧
    held (AState.init.run ops) v = [1, 2, 3, 4] ∧ held ((AState.init.run ops).step op) v = [1, 2, 1, 2] :=
  ⟨[.new 0 [1, 2, 3, 4] 0, .reslice 1 0 0 2], .any "/a" 1 0, 0, by decide⟩

/-- A run with all kinds of operations: the slice handed over is changed and handed over again. -/
example :
    let ops : List AOp := [.new 0 [1, 2] 3, .useGlobal 0 0, .set 0 0 5, .addHandler 8 0 0, .append 1 0 [6] 0, .set 1 1 9, .useGlobal 1 4,
      .addHandler 9 1 0, .any "/x" 1 0, .anyNew "/y" [3, 4] 0, .set 0 0 0, .reslice 2 0 1 4, .copy 3 2]
    (AState.init.run ops).globals = [1, 2, 5, 9, 6] ∧ givenGlobal AState.init ops = [1, 2, 5, 9, 6] ∧
      (AState.init.run ops).selfOf 8 = [5] ∧ (AState.init.run ops).handler 8 = some 2 ∧ (AState.init.run ops).selfOf 9 = [5, 9] ∧
      (AState.init.run ops).urlOf "/y" = [3, 4, 3, 4] ∧ (∀ op ∈ ops, passesSlice "/y" op = false) := by decide

/-- The hypotheses of `C97_ids`: three handlers for a new id. -/
example : held (AState.init.run [.new 0 [1, 2, 3] 3]) 0 = [1, 2] ++ [3] ∧ (AState.init.run [.new 0 [1, 2, 3] 3]).self 4 = none := by
  decide

end Tcpx
