import Verif.Model.Unused
import Verif.Props.Sending
import Verif.Props.Strings
/-!
# C156, C157: `write` and `Request`
-/
namespace Tcpx
open Spec

/-! ## C156 -/

/-- Full claim of C156: a nil error means that the connection has received exactly the buffer. -/
def Spec.SentWhole (out : SendOut) (buf : Bytes) : Prop := out.res = .ok () → transmitted out.calls = buf

theorem writeLoop_eq (buf : Bytes) (w : List WEv) : ∀ sum, writeLoop buf buf.length sum w = writeConn buf sum w := by
  induction w with
  | nil => intro sum; rfl
  | cons e w ih =>
    intro sum
    cases e with
    | fail k => rfl
    | accept k => simp only [writeLoop, writeConn, ge_iff_le, ih]

theorem write_eq (buf : Bytes) (h : buf ≠ []) (w : List WEv) : write w buf = writeConn buf 0 w := by
  rw [write, if_neg (by simpa using h), writeLoop_eq]

/-- C156: nothing is written of an empty buffer, and `write` returns at once without an error, whatever the connection would do. -/
theorem C156_empty (w : List WEv) : write w [] = ⟨[], .ok ()⟩ := rfl

/-- C156: if every call of `Write` takes all or nothing, a nil error means that exactly the buffer has been transmitted.
Missing for the full claim: connections with short writes (`C156_short_write_violated`). -/
theorem C156_once_partial (buf : Bytes) (w : List WEv) (hw : ∀ k, .accept k ∈ w → k = 0 ∨ buf.length ≤ k) : SentWhole (write w buf) buf := by
  by_cases h : buf = []
  · subst h; intro _; rfl
  · rw [write_eq buf h]
    exact C18_transmits_once_partial buf w hw

/-- C156 is violated by every connection that takes a proper part of the buffer, then the rest: the whole buffer is sent again. -/
theorem C156_short_write_violated (buf : Bytes) (k : Nat) (h0 : 0 < k) (hk : k < buf.length) (w : List WEv) :
    (write (.accept k :: .accept buf.length :: w) buf).res = .ok () ∧
    transmitted (write (.accept k :: .accept buf.length :: w) buf).calls = buf.take k ++ buf ∧
    ¬ SentWhole (write (.accept k :: .accept buf.length :: w) buf) buf := by
  rw [write_eq buf (by rintro rfl; simp at hk)]
  exact C18_short_write_violated buf k h0 hk w

/-- C156: on no connection does a nil error mean that fewer bytes went out than the buffer has. -/
theorem C156_not_fewer (buf : Bytes) (w : List WEv) (h : (write w buf).res = .ok ()) : buf.length ≤ (transmitted (write w buf).calls).length := by
  by_cases hb : buf = []
  · subst hb; simp
  · rw [write_eq buf hb] at h ⊢
    exact C18_not_fewer buf w h

/-- C156: a call of `Write` that fails before the counts add up is the last one, and its error is returned. -/
theorem C156_failure (buf : Bytes) (pre : List WEv) (k : Nat) (w : List WEv) (hp : ∀ e ∈ pre, ∃ j, e = .accept j)
    (hs : (pre.map fun | .accept j => min j buf.length | .fail _ => 0).sum < buf.length) :
    (write (pre ++ .fail k :: w) buf).res = .err .io ∧ (write (pre ++ .fail k :: w) buf).calls.length = pre.length + 1 := by
  have main : ∀ (pre : List WEv) (sum : Nat), (∀ e ∈ pre, ∃ j, e = .accept j) →
      sum + (pre.map fun | .accept j => min j buf.length | .fail _ => 0).sum < buf.length →
      (writeConn buf sum (pre ++ .fail k :: w)).res = .err .io ∧
      (writeConn buf sum (pre ++ .fail k :: w)).calls.length = pre.length + 1 := by
    intro pre
    induction pre with
    | nil => intro _ _ _; exact ⟨rfl, rfl⟩
    | cons e pre ih =>
      intro sum hp hs
      obtain ⟨j, rfl⟩ := hp e List.mem_cons_self
      simp only [List.map_cons, List.sum_cons] at hs
      have := ih (sum + min j buf.length) (fun e he => hp e (List.mem_cons_of_mem _ he)) (by omega)
      simp only [List.cons_append, writeConn]
      rw [if_neg (by omega)]
      exact ⟨this.1, by simp [this.2]⟩
  rw [write_eq buf (by rintro rfl; simp at hs)]
  exact main pre 0 hp (by simpa using hs)

example : ∀ k, WEv.accept k ∈ [WEv.accept 0, .accept 9] → k = 0 ∨ ([1,2,3] : Bytes).length ≤ k := by
  intro k h; simp at h; simp; omega
example : (write [.accept 0, .accept 9] [1,2,3]).res = .ok () ∧ transmitted (write [.accept 0, .accept 9] [1,2,3]).calls = [1,2,3] := by decide
example : transmitted (write [.accept 2, .accept 3] [1,2,3]).calls = [1,2,1,2,3] := by decide
example : write [.accept 1, .fail 2, .accept 3] [1,2,3] = ⟨[⟨[1,2,3], 1⟩, ⟨[1,2,3], 2⟩], .err .io⟩ := by decide

/-! ## C157 -/

/-- The value a sequence of assignments leaves under a key: that of the last assignment to it, or else what was there before. -/
def Spec.lastUnder (old : Option Any) (sets : List (String × Any)) (k : String) : Option Any :=
  match (sets.filter fun s => s.1 = k).getLast? with
  | some s => some s.2
  | none => old

/-- C157: after any calls of `Set` on a request, also one without a header map, there is under each key the value last set under it, and
under the other keys what was there before; the URL and the body are the same. -/
theorem C157_set {ρ : Type} (r : Request ρ) (sets : List (String × Any)) :
    (∀ k, (sets.foldl (fun r s => r.set s.1 s.2) r).header.get? k = lastUnder (r.header.get? k) sets k) ∧
    (sets.foldl (fun r s => r.set s.1 s.2) r).url = r.url ∧ (sets.foldl (fun r s => r.set s.1 s.2) r).body = r.body := by
  induction sets generalizing r with
  | nil => exact ⟨fun k => rfl, rfl, rfl⟩
  | cons s sets ih =>
    obtain ⟨h1, h2, h3⟩ := ih (r.set s.1 s.2)
    refine ⟨fun k => ?_, h2, h3⟩
    rw [List.foldl_cons, h1 k]
    have hset : (r.set s.1 s.2).header.get? k = if k = s.1 then some s.2 else r.header.get? k := by
      cases hr : r.header with
      | none => simp only [Request.set, hr, Header.get?, GoMap.get?_set, GoMap.get?_nil]
      | some m => simp only [Request.set, hr, Header.get?, GoMap.get?_set]
    rw [hset]
    unfold lastUnder
    by_cases hk : s.1 = k
    · subst hk
      simp only [List.filter_cons, decide_true, if_true, List.getLast?_cons]
      cases (sets.filter fun t => t.1 = s.1).getLast? <;> rfl
    · have hk' : ¬ k = s.1 := fun h => hk h.symm
      simp [hk, hk']

/-- C157: a new request has the URL and the reader it was made of, and no header. -/
theorem C157_new {ρ : Type} (url : String) (reader : ρ) (k : String) :
    (newRequest url reader).url = url ∧ (newRequest url reader).body = reader ∧ (newRequest url reader).header.get? k = none := ⟨rfl, rfl, rfl⟩

example : let r := (((newRequest "/a/" ()).set "x" (.str "1")).set "y" (.str "2")).set "x" (.str "3")
    r.header.get? "x" = some (.str "3") ∧ r.header.get? "y" = some (.str "2") ∧ r.header.get? "z" = none ∧ r.url = "/a/" := by decide

end Tcpx
