import Verif.Model.RawExample
import Verif.Spec.Stream
import Verif.Props.Raw
/-!
# Properties of the raw example (examples/modules/raw)

C129.
-/
namespace Tcpx
open Spec

namespace RawExample

/-- What has been received, piece by piece. -/
def Spec.pieces : List Act → List Bytes
  | [] => []
  | .receive bs :: as => bs :: pieces as
  | _ :: as => pieces as

/-- The number of answers. -/
def Spec.answers (as : List Act) : Nat := as.count .answer

open Spec

theorem loop_ok {r r' : Reader} {bs : Bytes} (h : readOnce 500 r = .ok bs r') :
    loop r = (.receive bs :: .answer :: (loop r').1, (loop r').2) := by
  rw [loop]
  split <;> rename_i h' <;> rw [h] at h' <;> cases h' <;> rfl

theorem loop_err {r r' : Reader} {e : Err} (h : readOnce 500 r = .err e r') : loop r = ([.report], true) := by
  rw [loop]
  split <;> rename_i h' <;> rw [h] at h' <;> cases h' <;> rfl

theorem loop_nil : loop [] = ([], false) := by
  rw [loop]
  split <;> (rename_i h'; cases h') <;> rfl

/-- A chunk is taken in pieces of at most 500 bytes. -/
theorem loop_chunk (bs : Bytes) (r : Reader) :
    ∃ ps : List Bytes, ps.flatten = bs ∧ (∀ p ∈ ps, p.length ≤ 500) ∧ (bs.length ≤ 500 → ps = [bs]) ∧
      loop (.chunk bs :: r) = (ps.flatMap (fun p => [.receive p, .answer]) ++ (loop r).1, (loop r).2) := by
  induction hn : bs.length using Nat.strongRecOn generalizing bs with
  | ind n ih =>
    by_cases h : bs.length ≤ 500
    · exact ⟨[bs], by simp, by simpa using h, fun _ => rfl, loop_ok (by simp [readOnce, h])⟩
    · obtain ⟨ps, h1, h2, -, h4⟩ := ih (bs.drop 500).length (by simp; omega) (bs.drop 500) rfl
      refine ⟨bs.take 500 :: ps, by simp [h1], ?_, fun h' => absurd (hn ▸ h') h, ?_⟩
      · intro p hp
        rcases List.mem_cons.1 hp with rfl | hp
        · simp; omega
        · exact h2 p hp
      · rw [loop_ok (r' := .chunk (bs.drop 500) :: r) (bs := bs.take 500) (by simp [readOnce, h]), h4]
        simp

end RawExample

open RawExample RawExample.Spec

/-- C129: the handler receives exactly the bytes the client sends, in order, in pieces of at most 500 bytes, and answers each piece once,
before it takes the next; it returns exactly if the stream ends, and then it has received everything. -/
theorem C129_received (r : Reader) (hp : (stream r).2.plain) :
    ∃ ps : List Bytes, ps.flatten = (stream r).1 ∧ (∀ p ∈ ps, p.length ≤ 500) ∧
      (loop r).1 = ps.flatMap (fun p => [.receive p, .answer]) ++ (if (stream r).2 = .stillOpen then [] else [.report]) ∧
      ((loop r).2 = true ↔ (stream r).2 ≠ .stillOpen) := by
  induction r with
  | nil => exact ⟨[], rfl, by simp, by rw [loop_nil]; rfl, by rw [loop_nil]; simp [stream]⟩
  | cons ev r ih =>
    cases ev with
    | chunk bs =>
      obtain ⟨ps, h1, h2, h3, h4⟩ := ih hp
      obtain ⟨qs, k1, k2, -, k4⟩ := loop_chunk bs r
      refine ⟨qs ++ ps, by simp [stream, k1, h1], ?_, ?_, ?_⟩
      · intro p hp
        rcases List.mem_append.1 hp with hp | hp
        · exact k2 p hp
        · exact h2 p hp
      · rw [k4]; simp only [stream, h3, List.flatMap_append, List.append_assoc]; rfl
      · rw [k4]; exact h4
    | chunkEOF bs => exact absurd hp (by simp [stream, Ending.plain])
    | eof => exact ⟨[], rfl, by simp, by rw [loop_err (r' := .eof :: r) (e := .eof) rfl]; rfl, by rw [loop_err (r' := .eof :: r) (e := .eof) rfl]; simp [stream]⟩
    | fail => exact ⟨[], rfl, by simp, by rw [loop_err (r' := r) (e := .io) rfl]; rfl, by rw [loop_err (r' := r) (e := .io) rfl]; simp [stream]⟩

example : (stream [.chunk [1,2], .chunk [], .chunk [3], .eof]).2.plain ∧
    stream [.chunk [1,2], .chunk [], .chunk [3], .eof] = ([1,2,3], .closed) := by simp [stream, Ending.plain]

/-- C129: a connection that delivers what the client sends in pieces of at most 500 bytes each gets one answer for each piece. -/
theorem C129_answers (ps : List Bytes) (hl : ∀ p ∈ ps, p.length ≤ 500) (r : Reader) :
    pieces (loop (ps.map .chunk ++ r)).1 = ps ++ pieces (loop r).1 ∧
    answers (loop (ps.map .chunk ++ r)).1 = ps.length + answers (loop r).1 := by
  induction ps with
  | nil => simp
  | cons p ps ih =>
    obtain ⟨i1, i2⟩ := ih (fun q hq => hl q (List.mem_cons_of_mem _ hq))
    have h : readOnce 500 ((p :: ps).map Ev.chunk ++ r) = .ok p (ps.map .chunk ++ r) := by
      simp [readOnce, hl p List.mem_cons_self]
    rw [loop_ok h]
    refine ⟨by simp [pieces, i1], ?_⟩
    simp only [answers, List.count_cons] at i2 ⊢
    simp at i2 ⊢
    omega

example : answers (loop ([[1,2],[3]].map .chunk ++ [.eof])).1 = 2 := by
  rw [(C129_answers _ (by decide) _).2, loop_err (r' := [.eof]) (e := .eof) rfl]; rfl

/-- Cutting a message into a given number of pieces. -/
theorem RawExample.cuts (bs : Bytes) (m : Nat) (h1 : 1 ≤ m) (h2 : m ≤ bs.length) :
    ∃ ps : List Bytes, ps.flatten = bs ∧ ps.length = m ∧ (∀ p ∈ ps, p.length ≤ bs.length ∧ p ≠ []) := by
  induction m generalizing bs with
  | zero => omega
  | succ m ih =>
    by_cases hm : m = 0
    · subst hm
      refine ⟨[bs], by simp, rfl, ?_⟩
      intro p hp
      rw [List.mem_singleton.1 hp]
      exact ⟨Nat.le_refl _, by rintro rfl; simp at h2⟩
    · obtain ⟨ps, k1, k2, k3⟩ := ih (bs.drop 1) (by omega) (by simp; omega)
      refine ⟨bs.take 1 :: ps, by rw [List.flatten_cons, k1, List.take_append_drop], by simp [k2], ?_⟩
      intro p hp
      rcases List.mem_cons.1 hp with rfl | hp
      · refine ⟨by simp; omega, ?_⟩
        intro h
        have := congrArg List.length h
        rw [List.length_take, List.length_nil] at this
        omega
      · have := k3 p hp
        simp at this
        exact ⟨by omega, this.2⟩

/-- C129 is false for messages: a read is not a message.  Whatever a client sends (at most 500 bytes) and however many times, the number of
answers to it can be anything from one to the number of its bytes, depending on how the bytes arrive; so two messages sent one after
the other may get one answer, and one message two. -/
theorem C129_messages_violated (bs : Bytes) (h : bs.length ≤ 500) (m : Nat) (h1 : 1 ≤ m) (h2 : m ≤ bs.length) :
    ∃ r, stream r = (bs, .closed) ∧ answers (loop r).1 = m := by
  obtain ⟨ps, k1, k2, k3⟩ := cuts bs m h1 h2
  refine ⟨ps.map .chunk ++ [.eof], ?_, ?_⟩
  · have : ∀ ps : List Bytes, stream (ps.map .chunk ++ [.eof]) = (ps.flatten, .closed) := by
      intro ps
      induction ps with
      | nil => rfl
      | cons p ps ih => simp [stream, ih]
    rw [this, k1]
  · rw [(C129_answers ps (fun p hp => by have := (k3 p hp).1; omega) [.eof]).2, loop_err (r' := [.eof]) (e := .eof) rfl, k2]
    rfl

-- two messages of two bytes each, sent one after the other, with a single answer, and with four
example : ∃ r, stream r = ([1,2] ++ [1,2], .closed) ∧ answers (loop r).1 = 1 := C129_messages_violated _ (by decide) 1 (by decide) (by decide)
example : ∃ r, stream r = ([1,2] ++ [1,2], .closed) ∧ answers (loop r).1 = 4 := C129_messages_violated _ (by decide) 4 (by decide) (by decide)

/-- The registrations, newest first. -/
def RawExample.registered : List RegEv := [.use "middle-1" middle1, .useGlobal [before]]

theorem RawExample.server_eq : server = runHist registered := rfl

/-- C129: on each connection the two middlewares run once each, before the handler, however much is sent; and after the handler has
returned the connection is closed.  (The functions of the example neither abort nor panic.)  There is such a run. -/
theorem C129_chain :
    (∃ st, RawSteps (rawInit server (some handleRaw) false) st ∧ (∀ st', ¬ RawStep st st') ∧ st.chain.aborted = false ∧
      st.chain.panicked = false) ∧
    ∀ st, RawSteps (rawInit server (some handleRaw) false) st → (∀ st', ¬ RawStep st st') → st.chain.aborted = false →
      st.chain.panicked = false → st.trace = [.run before, .run middle1, .run handleRaw, .closeConn] := by
  rw [server_eq]
  refine ⟨?_, fun st hr hend ha hp => C78_all_run_partial registered handleRaw false st (by decide) hr hend ha hp⟩
  obtain ⟨c, h1, h2, h3, h4⟩ := C39_run_exists (rawChain registered (some handleRaw)).length
  obtain ⟨st, hs, hst⟩ := raw_lift registered handleRaw false c h1
  obtain ⟨st', h5, h6, h7⟩ := raw_finish st (by rw [hst]; exact h2)
  have trans : ∀ {a b c : RawState}, RawSteps a b → RawSteps b c → RawSteps a c := by
    intro a b c h1 h2
    induction h2 with
    | refl => exact h1
    | tail _ hs ih => exact .tail ih hs
  exact ⟨st', trans hs h5, h7, by rw [h6, hst]; exact h3, by rw [h6, hst]; exact h4⟩

end Tcpx
