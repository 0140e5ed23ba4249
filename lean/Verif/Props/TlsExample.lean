import Verif.Model.TlsExample
import Verif.Props.Serve
import Verif.Props.EndToEnd
import Verif.Lemmas.Answer
import Verif.Spec.Programs
/-!
# Property C153: the tls example
-/
namespace Tcpx
open Spec
variable {V : Type}

/-- C153: the server of the example listens with the certificate it has loaded, and never without one. -/
theorem C153_server (cert : Option Nat) (works : Bool) :
    (runServe (TlsExample.serverOps cert works)).opened =
      match cert, works with
      | some c, true => [⟨"tcp", ":8080", .messages, some c⟩]
      | _, _ => [] := by
  cases cert with
  | none => rfl
  | some c =>
    obtain ⟨h1, -, h2, -⟩ := C106_opens [.load (some c)] c rfl "tcp" ":8080" (by decide)
    cases works with
    | false =>
      have h2 : runServe (TlsExample.serverOps (some c) false) = runServe [.load (some c)] := h2
      rw [h2]; rfl
    | true => exact h1

/-- The connections of the clients of the example: client `j` writes what `sends` says and closes; its bytes arrive in any pieces, and its
request is the one of connection `j`. -/
structure Spec.TlsClients (env : Env V) (max : Int32) (n : Nat) (buf : Bytes) (r : Nat → Reader) (arr : Nat → Arrival) : Prop where
  sends : TlsExample.sends env = .ok [buf]
  small : buf.length < 2^31 ∧ (0 < max.toInt → (buf.length : Int) ≤ 4 + max.toInt)
  arrives : ∀ j < n, stream (r j) = (buf, .closed)
  request : ∀ j < n, (arr j).tcp = some j ∧ ∀ b, (connLoop env.json max (r j)).1[0]? = some (.single b) → (arr j).stream = b
  others : ∀ j i, n ≤ i → j < n → (arr i).tcp ≠ some j
  code : ∀ j < n, ∀ d, (arr j).code d = .done

/-- C153: any number of clients run against the server, their bytes arrive in any pieces and their requests are handled along any schedule,
beside those of other connections.  Then each connection gives one message and ends; the handler of the
example is run at most once for each client, nothing else is run for it, and it has been run when the request is finished; and the
request does not panic. -/
theorem C153_login (env : Env V) (hj : env.json.Lawful) (max : Int32) (n : Nat) (buf : Bytes) (r : Nat → Reader) (arr : Nat → Arrival)
    (hc : TlsClients env max n buf r arr) (j : Nat) (hn : j < n) :
    Registers .new TlsExample.ops = true ∧ connLoop env.json max (r j) = ([.single buf], .ended) ∧
    HandledAsAddressed (runOps .new TlsExample.ops) env.json arr j (.chain [TlsExample.login]) ∧
    ∀ sched, (((Sys.start (runOps .new TlsExample.ops) env.json arr).run sched).threads j).prog ≠ .panic := by
  obtain ⟨hs, ⟨hsm, hfit⟩, hstr, hreq, hoth, hcode⟩ := hc
  have hpk : (newURLPatternMessage "/login/" (none : Option V)).pack env none = .ok buf := by
    unfold TlsExample.sends at hs
    split at hs
    · rename_i b h
      injection hs with hs
      injection hs with hs _
      rw [h, hs]
    all_goals cases hs
  let x : Sent V := ⟨newURLPatternMessage "/login/" none, none, buf⟩
  have hx : x.Ok env max.toInt := ⟨hpk, hsm, hfit, by
    simp [x, newURLPatternMessage, Header.get?, GoMap.get?, HEADER_ROUTER_KEY, HEADER_ROUTER_VALUE]⟩
  have hloop : ∀ i < n, connLoop env.json max (r i) = ([.single buf], .ended) := by
    intro i hi
    exact C81_one_task_each env hj max [x] (by simpa using hx) [] (.inl (by decide)) .closed trivial (r i) (by simp [hstr i hi, x])
  have hst : ∀ i < n, (arr i).stream = buf := fun i hi => (hreq i hi).2 buf (by rw [hloop i hi]; rfl)
  have huniq : ∀ i, (arr i).tcp = some j → i = j := by
    intro i hi
    by_cases h : i < n
    · have := (hreq i h).1
      rw [hi] at this
      injection this with this
      exact this.symm
    · exact absurd hi (hoth j i (by omega) hn)
  have hd : (runOps .new TlsExample.ops).handle (.byUrl "/login/") = .chain [TlsExample.login] := by decide
  have hroute := C72_pattern_route env hj _ _ _ _ hpk hsm
  have hlen := (packed_frame env hj _ _ _ hpk hsm).2.2.1
  refine ⟨by decide, hloop j hn, ?_, ?_⟩
  · have := C35_tcp_same_type_partial (runOps .new TlsExample.ops) env.json arr j j (hreq j hn).1
      (fun i hi => by rw [huniq i hi, hst j hn]; exact hlen)
      (fun i hi => by rw [huniq i hi])
      (fun i hi d => by rw [huniq i hi, hcode j hn d]; exact .done)
      (.byUrl "/login/") (by rw [hst j hn]; exact hroute)
    intro sched
    have := this sched
    rwa [hd] at this
  · intro sched hp
    have hal : Alike env.json arr j (headerType env.json buf) (urlPatternOf env.json { live := buf }) := by
      refine ⟨fun i hi => ?_, fun i hi => ?_, fun i hi => ?_, fun i hi d => ?_⟩ <;> obtain rfl := huniq i hi
      · rw [hst i hn]; exact hlen
      · rw [hst i hn]
      · rw [hst i hn]
      · rw [hcode i hn d]; exact .done
    obtain ⟨o, ho, -⟩ := sendState_run (pan := False) (runOps .new TlsExample.ops) env.json arr j hal j (hreq j hn).1 [] false
      (by
        rw [hst j hn]
        refine Owes.request _ env.json _ _ _ hroute hlen rfl (by rw [hd]; simp) (.inr (by rw [hd]; simp)) _ ?_
        rw [hcode j hn]
        exact .ret _ _ rfl) sched
    rw [hp] at ho
    cases ho with
    | panic _ h => exact h

/-! Example: two clients, whose bytes arrive in one piece and in two. -/

private def tlsFrame : Bytes :=
  Tcpx.frame 0 (Demo.encHeader (newURLPatternMessage "/login/" (none : Option Bytes)).header) []

private theorem tls_packed : TlsExample.sends Demo.env = .ok [tlsFrame] := by
  simp [TlsExample.sends, Message.pack, packWithMarshaller, newURLPatternMessage, Demo.env, Demo.json, orErr, tlsFrame]

set_option maxRecDepth 100000 in
example : Demo.env.json.Lawful ∧ ∃ r arr, TlsClients Demo.env 0 2 tlsFrame r arr := by
  let r : Nat → Reader := fun j => if j = 0 then [.chunk tlsFrame, .eof] else [.chunk (tlsFrame.take 3), .chunk (tlsFrame.drop 3), .eof]
  refine ⟨Demo.json_lawful, r, fun (j : Nat) => if j < 2 then
      ⟨some j, (match (connLoop Demo.env.json 0 (r j)).1[0]? with | some (Task.single b) => b | _ => []), fun _ => .done⟩
    else ⟨none, [], fun _ => .done⟩, tls_packed, ⟨by decide, by intro h; exact absurd h (by decide)⟩, ?_, ?_, ?_, ?_⟩
  · intro j hj
    have : j = 0 ∨ j = 1 := by omega
    rcases this with rfl | rfl <;> simp [r, stream]
  · intro j hj
    simp only [if_pos hj]
    exact ⟨trivial, fun b hb => by rw [hb]⟩
  · intro j i hi _
    rw [if_neg (by omega)]
    simp
  · intro j hj d
    rw [if_pos hj]

end Tcpx
