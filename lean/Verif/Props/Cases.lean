import Verif.Props.Kept
import Verif.Props.Graceful
import Verif.Props.Requests
/-!
# Further concrete cases that meet the hypotheses of theorems in `Props/Kept`, `Timed`, `Watch`, `Graceful` and `Requests`
-/
namespace Tcpx
open Spec

/-- C86_answer_counts: let in at 3, the deadline is 7, the watcher is never more than 1 late. -/
example : let ls : List TLabel := [.act (.accept .tcp), .delay 3, .act (.user 0), .act (.user 0), .delay 1, .act (.au 0 .recv), .delay 16]
    Throughout Demo.acfg (.start Demo.wlife (Demo.wauth [1])) ls (PromptAuth Demo.acfg 1 0) ∧
    acceptedAt 0 (trun Demo.acfg Demo.wlife (Demo.wauth [1]) ls).log = some 0 ∧
    (3, .ret 0 (.auth 0 1)) ∈ (trun Demo.acfg Demo.wlife (Demo.wauth [1]) ls).log ∧ 3 + 2 * 1 < 0 + Demo.acfg.authDeadline :=
  ⟨throughout_of _ _ _ _ (by decide), by decide, by decide, by decide⟩

/-- C64_kept_partial: stopped and started again without closing connections, with one before and one after. -/
example : let ls : List WLabel := [.accept .tcp, .stop false, .listen "tcp" ":8080" 1, .accept .tcp]
    .stop true ∉ ls ∧ Configured Demo.wlife ∧ (wrun {} Demo.wlife Demo.wnone ls).n = 2 ∧
    .stop false true ∈ (wrun {} Demo.wlife Demo.wnone ls).trace := by
  refine ⟨by decide, ?_, by decide, by decide⟩
  simp [Configured, Demo.wlife]

/-- C130_signals_partial: a connection, and a `Stop(true)` that has returned nil. -/
example : let y := wrun {} Demo.wlife Demo.wnone [.accept .tcp, .stop true]
    Demo.wlife.withSignals = true ∧ 0 < y.n ∧ .stop true true ∈ y.trace ∧ y.closed 1 = false := by decide

theorem prompt_early (cfg : TCfg) (d : Nat) (s : TState) (h : s.now ≤ d) : PromptAll cfg d s ∧ ∀ c, PromptCalls d c s := by
  refine ⟨fun c => ⟨?_, ?_, ?_, ?_⟩, fun c i t _ => ⟨fun _ => by omega, fun _ _ _ _ _ => by omega⟩⟩
  · unfold PromptBeat
    split
    · trivial
    · trivial
    · exact ⟨by omega, fun _ => by omega⟩
    · omega
  · unfold PromptAuth
    split
    · trivial
    · trivial
    · exact ⟨by omega, fun _ => by omega⟩
    · omega
  · exact fun t _ => ⟨fun _ _ _ => by omega, fun _ => by omega, fun _ => by omega⟩
  · exact fun _ => by omega

/-- C128_keep_up: at 5 a heartbeat is being handled, and nothing is more than 5 late. -/
example : let ls : List TLabel := [.act (.accept .tcp), .act (.hb 0 .go), .delay 5, .act (.user 0), .act (.user 0)]
    Throughout Demo.tcfg (.start Demo.wlife Demo.wbeat) ls (fun s => PromptAll Demo.tcfg 5 s ∧ ∀ c, PromptCalls 5 c s) ∧
    (5, .invoke 0 (.beat 0)) ∈ (trun Demo.tcfg Demo.wlife Demo.wbeat ls).log ∧
    ((trun Demo.tcfg Demo.wlife Demo.wbeat ls).w.threads 0).pc ≠ .idle := by
  have h : ∀ k ∈ List.range 6, (trun Demo.tcfg Demo.wlife Demo.wbeat ([.act (.accept .tcp), .act (.hb 0 .go), .delay 5, .act (.user 0),
    .act (.user 0)].take k)).now ≤ 5 := by decide
  exact ⟨throughout_of _ _ _ _ fun k hk => prompt_early _ _ _ (h k hk), by decide, by decide⟩

/-- C35_udp_partial: a datagram for id 7 next to a connection whose messages are for other ids. -/
example : let f : Bytes := [0,0,0,12, 0,0,0,7, 0,0,0,0, 0,0,0,0]
    let s := (Srv.new.addHandler 7 [5]).st
    let arr : Nat → Arrival := fun i => ⟨if i = 1 then none else some 3, if i = 1 then f else [], fun _ => .done⟩
    (arr 1).tcp = none ∧ declaredHeaderLen (arr 1).stream < 2^31 - 16 ∧
    dispatches 1 ((Sys.start s Demo.json arr).run [0, 1, 0, 1, 0, 1, 1, 1]).trace = [s.dispatchId 7] := by decide

/-- C36_tcp_other_connections_partial, C49_last_stored_partial: request 0 of connection 9 stores, request 1 of it reads, and a request of
connection 8 has stored something else in between. -/
example : let arr : Nat → Arrival := fun i => ⟨some (if i = 2 then 8 else 9), [], fun _ =>
      if i = 0 then .call (.setConn (.str "k") (.num 1)) fun _ => .done
      else if i = 1 then .call (.getConn (.str "k")) fun _ => .done
      else .call (.setConn (.str "k") (.num 2)) fun _ => .done⟩
    let tr := ((Sys.start { onMessage := some 3 } Demo.json arr).run [0, 0, 2, 2, 1, 1]).trace
    tr.length = 6 ∧ (tr.head?.map fun e => (e.action, e.result)) = some (.getConn (.str "k"), some (.num 1)) ∧
    ∀ e' ∈ tr, ∀ v ∈ [Any.num 1, .num 2], e'.action ≠ .setReq (.str "k") v := by decide

set_option maxRecDepth 100000 in
/-- C37_reply_pattern: a request for "/a", and an answer that can be packed. -/
example : ∃ f bs, (newURLPatternMessage "/a" (some [1]) : Message Bytes).pack Demo.env none = .ok f ∧
    urlPatternOf Demo.env.json { live := f } = .ok "/a" ∧
    (newURLPatternMessage "/a" (some [2,3]) : Message Bytes).pack Demo.env (some (Demo.env.builtin .xml)) = .ok bs ∧ bs.length < 2^31 :=
  ⟨_, _, rfl, by decide, rfl, by decide⟩

end Tcpx
