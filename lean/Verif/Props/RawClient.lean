import Verif.Model.RawClient
import Verif.Props.RawExample
/-!
# C129: the client of the raw example
-/
namespace Tcpx
open Spec

namespace RawClient

theorem recv_ok {r r' : Reader} {bs : Bytes} (h : RawExample.readOnce 500 r = .ok bs r') :
    recv r = (.text bs :: (recv r').1, (recv r').2) := by
  rw [recv]
  split <;> rename_i h' <;> rw [h] at h' <;> cases h' <;> rfl

theorem recv_err {r r' : Reader} {e : Err} (h : RawExample.readOnce 500 r = .err e r') : recv r = ([.error], .exits) := by
  rw [recv]
  split <;> rename_i h' <;> rw [h] at h' <;> cases h' <;> rfl

theorem recv_nil : recv [] = ([], .waits) := by
  rw [recv]
  split <;> (rename_i h'; cases h') <;> rfl

theorem recv_chunk (bs : Bytes) (r : Reader) :
    ∃ ps : List Bytes, ps.flatten = bs ∧ recv (.chunk bs :: r) = (ps.map .text ++ (recv r).1, (recv r).2) := by
  induction hn : bs.length using Nat.strongRecOn generalizing bs with
  | ind n ih =>
    by_cases h : bs.length ≤ 500
    · exact ⟨[bs], by simp, recv_ok (by simp [RawExample.readOnce, h])⟩
    · obtain ⟨ps, h1, h2⟩ := ih (bs.drop 500).length (by simp; omega) (bs.drop 500) rfl
      refine ⟨bs.take 500 :: ps, by simp [h1], ?_⟩
      rw [recv_ok (r' := .chunk (bs.drop 500) :: r) (bs := bs.take 500) (by simp [RawExample.readOnce, h]), h2]
      simp

/-- A reading client prints exactly what comes, in order, however it is cut up; then it waits, or prints an error and ends the process
if the stream has ended. -/
theorem recv_stream (r : Reader) (hp : (stream r).2.plain) :
    ∃ ps : List Bytes, ps.flatten = (stream r).1 ∧
      recv r = (ps.map .text ++ (if (stream r).2 = .stillOpen then [] else [.error]),
        if (stream r).2 = .stillOpen then .waits else .exits) := by
  induction r with
  | nil => exact ⟨[], rfl, recv_nil⟩
  | cons ev r ih =>
    cases ev with
    | chunk bs =>
      obtain ⟨ps, h1, h2⟩ := ih hp
      obtain ⟨qs, k1, k2⟩ := recv_chunk bs r
      refine ⟨qs ++ ps, by simp [stream, k1, h1], ?_⟩
      rw [k2, h2]
      simp only [List.map_append, List.append_assoc]
      rfl
    | chunkEOF bs => exact hp.elim
    | eof => exact ⟨[], rfl, recv_err (r' := .eof :: r) (e := .eof) rfl⟩
    | fail => exact ⟨[], rfl, recv_err (r' := r) (e := .io) rfl⟩

theorem answered_append (as bs : List RawExample.Act) : answered (as ++ bs) = answered as ++ answered bs := by
  induction as with
  | nil => rfl
  | cons a as ih => cases a <;> simp [answered, ih]

/-- What the server sends: the text, as often as it answers. -/
theorem answered_eq (as : List RawExample.Act) :
    answered as = (List.replicate (RawExample.Spec.answers as) "hello,I am server.".toUTF8.data.toList).flatten := by
  induction as with
  | nil => rfl
  | cons a as ih =>
    cases a <;> simp [answered, ih, RawExample.Spec.answers, List.replicate_succ]

end RawClient

/-- C129: a session of the raw example.  The client's greeting arrives at the server in whatever pieces, and what the server sends back
arrives at the client in whatever pieces: the client prints the server's text, whole, once for each piece the server has received, and
at least once; then it waits. -/
theorem C129_client (r r' : Reader) (hr : stream r = (RawClient.greeting, .stillOpen))
    (hr' : stream r' = (RawClient.answered (RawExample.loop r).1, .stillOpen)) :
    ∃ (shown : List Bytes) (n : Nat), RawClient.recv r' = (shown.map .text, .waits) ∧ 1 ≤ n ∧
      n = (RawExample.Spec.pieces (RawExample.loop r).1).length ∧
      shown.flatten = (List.replicate n "hello,I am server.".toUTF8.data.toList).flatten := by
  obtain ⟨ps, h1, h2⟩ := RawClient.recv_stream r' (by rw [hr']; trivial)
  rw [hr'] at h1 h2
  obtain ⟨qs, k1, -, k3, -⟩ := C129_received r (by rw [hr]; trivial)
  rw [hr] at k1 k3
  simp only [if_true, List.append_nil] at k3 h2
  have hp : ∀ qs : List Bytes, RawExample.Spec.pieces (qs.flatMap (fun p => [.receive p, .answer])) = qs ∧
      RawExample.Spec.answers (qs.flatMap (fun p => [.receive p, .answer])) = qs.length := by
    intro qs
    induction qs with
    | nil => exact ⟨rfl, rfl⟩
    | cons q qs ih =>
      refine ⟨by simp [RawExample.Spec.pieces, ih.1], ?_⟩
      have := ih.2
      simp only [RawExample.Spec.answers] at this ⊢
      simp [this]
  refine ⟨ps, qs.length, h2, ?_, by rw [k3, (hp qs).1], ?_⟩
  · cases qs with
    | nil => exact absurd k1.symm (by decide)
    | cons q qs => simp
  · rw [h1, RawClient.answered_eq, k3, (hp qs).2]

-- the greeting in two pieces: the text comes back twice, and is printed in three parts
example : let g := RawClient.greeting; let t := "hello,I am server.".toUTF8.data.toList
    stream [.chunk (g.take 5), .chunk (g.drop 5)] = (g, .stillOpen) ∧
    stream [.chunk (t.take 9), .chunk (t.drop 9 ++ t.take 2), .chunk (t.drop 2)] = (t ++ t, .stillOpen) ∧
    (List.replicate 2 t).flatten = t ++ t := by decide

end Tcpx
