import Verif.Model.AuthExample
import Verif.Lemmas.AuthExample
import Verif.Props.Timed
import Verif.Spec.Programs
/-!
# C86 (after a signal); C121, C122: the auth example
-/
namespace Tcpx
open Spec

/-- The log is the trace of a run without a clock. -/
theorem logged_iff (cfg : TCfg) (life : Life) (jobs : Nat → List UCall) (ls : List TLabel) (e : WatchEv) :
    (∃ t, (t, e) ∈ (trun cfg life jobs ls).log) ↔ e ∈ ((WState.start life jobs).run cfg.w (untime cfg (.start life jobs) ls)).trace := by
  have : ((WState.start life jobs).run cfg.w (untime cfg (.start life jobs) ls)).trace = (trun cfg life jobs ls).log.map Prod.snd := by
    rw [log_trace, untime_run]; rfl
  rw [this]
  simp

/-- C86: if the auth watcher is never more than `d` late, a TCP connection still open when more than `3 * d` have passed since a call of
`RecvAuthPass` or `RecvAuthDeny` returned has been let in. -/
theorem C86_decided_in_time (cfg : TCfg) (hauth : cfg.w.auth = true) (d : Nat) (life : Life) (jobs : Nat → List UCall)
    (ls ls' : List TLabel) (c : Nat) (hc : c = (trun cfg life jobs ls).w.n)
    (hp : Throughout cfg (.start life jobs) (ls ++ .act (.accept .tcp) :: ls') (PromptAuth cfg d c)) (r i : Nat) (v : Int)
    (hr : (r, .ret i (.auth c v)) ∈ (trun cfg life jobs (ls ++ .act (.accept .tcp) :: ls')).log)
    (hopen : ¬ ClosedIn c (trun cfg life jobs (ls ++ .act (.accept .tcp) :: ls')).log)
    (hlate : r + 3 * d < (trun cfg life jobs (ls ++ .act (.accept .tcp) :: ls')).now) :
    ∃ t v, 0 ≤ v ∧ (t, .authTaken c v) ∈ (trun cfg life jobs (ls ++ .act (.accept .tcp) :: ls')).log := by
  have htr := log_trace cfg life jobs (ls ++ .act (.accept .tcp) :: ls')
  have hp' : PromptAuth cfg d c (trun cfg life jobs (ls ++ .act (.accept .tcp) :: ls')) := by
    have := hp (ls ++ .act (.accept .tcp) :: ls').length
    rwa [List.take_of_length_le (Nat.le_refl _)] at this
  obtain ⟨hend, hacc⟩ := auend_tcp cfg hauth life jobs ls ls' c hc
  have hsig : SigOk cfg d c (trun cfg life jobs (ls ++ .act (.accept .tcp) :: ls')) := sigok_run cfg d life jobs c _ hp
  have hsoon : AuSoon d c (trun cfg life jobs (ls ++ .act (.accept .tcp) :: ls')) := ausoon_run cfg d life jobs c _ hp
  have hau : AuthOk cfg c (trun cfg life jobs (ls ++ .act (.accept .tcp) :: ls')) := authok_run cfg life jobs c (ls ++ .act (.accept .tcp) :: ls')
  unfold PromptAuth at hp'
  cases hpc : ((trun cfg life jobs (ls ++ .act (.accept .tcp) :: ls')).w.ctxs c).au with
  | off => exact absurd hpc hend.on
  | select =>
    obtain ⟨h1, h2⟩ := hsig.sel r ⟨i, v, hr⟩ hpc
    have h3 := (hau.wait _ hacc).2.1 hpc
    have h4 := hsig.since _ hacc r ⟨i, v, hr⟩
    rw [hpc] at hp'
    have := hp'.2 h1
    omega
  | closing w =>
    have h1 := hsoon r w ⟨i, v, hr⟩ hpc
    rw [hpc] at hp'
    simp only at hp'
    omega
  | ended =>
    rcases hend.ended hpc with h1 | ⟨v, hv, h1⟩
    · exact absurd ((closedIn_iff c _).2 (htr ▸ h1)) hopen
    · rw [← htr] at h1
      obtain ⟨⟨t, e⟩, h2, rfl⟩ := List.mem_map.1 h1
      exact ⟨t, v, hv, h2⟩

open AuthExample

/-! ## C121 -/

/-- The message is one of authorisation and signed with the secret of the example. -/
def Spec.Signed (md5 : String → String) (m : Msg) : Prop :=
  m.routed = .byId 1393 ∧ ∃ a, m.bound = .ok a ∧ a.signature = md5 (a.f1 ++ a.f2 ++ "hello")

/-- The message is one of authorisation that can be bound, and signed otherwise. -/
def Spec.Missigned (md5 : String → String) (m : Msg) : Prop :=
  m.routed = .byId 1393 ∧ ∃ a, m.bound = .ok a ∧ a.signature ≠ md5 (a.f1 ++ a.f2 ++ "hello")

theorem authExample_handle (r : Srv.Routed) :
    (runOps .new ops).handle r = if r = .byId 1393 then .direct authHandler else .nothing := by
  have h1 : (runOps .new ops).onMessage = none := by decide
  have h2 : (runOps .new ops).mux.urlMux = [] := by decide
  have h3 : (runOps .new ops).mux.handlers = [(1393, authHandler)] := by decide
  cases r with
  | byId id =>
    by_cases h : id = 1393
    · subst h
      rw [if_pos rfl]
      decide
    · rw [if_neg (by simpa using h)]
      have : (runOps .new ops).mux.handlers.get? id = none := by
        rw [h3]; simp [GoMap.get?]; grind
      simp [Srv.handle, h1, Srv.dispatchId, this]
  | byUrl p => simp [Srv.handle, h1, Srv.dispatchUrl, h2]
  | unreadable => simp [Srv.handle, h1]
  | unknownType => simp [Srv.handle, h1]

theorem authExample_calls (md5 : String → String) (m : Msg) (c : Nat) (v : Int) :
    .auth c v ∈ (Gor.msg m).calls md5 ↔ m.conn = c ∧ (v = 1 ∧ Signed md5 m ∨ v = -1 ∧ Missigned md5 m) := by
  simp only [Gor.calls, authExample_handle, Signed, Missigned]
  by_cases hr : m.routed = .byId 1393
  · simp only [hr, if_true, runs, List.flatMap_cons, List.flatMap_nil, List.append_nil, true_and, handler]
    cases hb : m.bound with
    | error e => simp [Act.calls]
    | ok a =>
      by_cases hs : encrypt md5 a appSecret = a.signature
      · have hs' : a.signature = md5 (a.f1 ++ a.f2 ++ "hello") := hs.symm
        simp only [hs, ne_eq, not_true_eq_false, if_false, List.flatMap_cons, List.flatMap_nil, List.append_nil, Act.calls,
          List.mem_singleton, UCall.auth.injEq, Except.ok.injEq, exists_eq_left', ← hs', and_true, and_false, or_false]
        grind
      · have hs' : ¬ a.signature = md5 (a.f1 ++ a.f2 ++ "hello") := fun h => hs h.symm
        simp only [ne_eq, hs, not_false_eq_true, if_true, List.flatMap_cons, List.flatMap_nil, List.append_nil, List.nil_append, Act.calls,
          List.mem_singleton, UCall.auth.injEq, Except.ok.injEq, exists_eq_left', hs', and_true, and_false, false_or]
        grind
  · simp [hr, runs]

/-- A signal of a run was given by a message. -/
theorem authExample_signal (md5 : String → String) (life : Life) (g : Nat → Gor) (ls : List TLabel) (t i c : Nat) (v : Int)
    (h : (t, .ret i (.auth c v)) ∈ (trun cfg life (fun i => (g i).calls md5) ls).log) :
    ∃ m, g i = .msg m ∧ m.conn = c ∧ (v = 1 ∧ Signed md5 m ∨ v = -1 ∧ Missigned md5 m) := by
  have h1 := (logged_iff cfg life (fun i => (g i).calls md5) ls _).1 ⟨t, h⟩
  have h2 := (signals_run cfg.w life (fun i => (g i).calls md5) _).ret i c v h1
  cases hg : g i with
  | conn c' => simp [hg, Gor.calls] at h2
  | msg m =>
    simp only [hg] at h2
    exact ⟨m, rfl, (authExample_calls md5 m c v).1 h2⟩

/-- What the watcher takes was given by a message. -/
theorem authExample_taken (md5 : String → String) (life : Life) (g : Nat → Gor) (ls : List TLabel) (t c : Nat) (v : Int)
    (h : (t, .authTaken c v) ∈ (trun cfg life (fun i => (g i).calls md5) ls).log) :
    ∃ r i m, (r, .ret i (.auth c v)) ∈ (trun cfg life (fun i => (g i).calls md5) ls).log ∧ g i = .msg m ∧ m.conn = c ∧
      (v = 1 ∧ Signed md5 m ∨ v = -1 ∧ Missigned md5 m) := by
  have h1 := (logged_iff cfg life (fun i => (g i).calls md5) ls _).1 ⟨t, h⟩
  obtain ⟨i, hi⟩ := firstSignal_mem ((auok_run cfg.w life _ c _).taken v h1).1
  obtain ⟨r, h2⟩ := (logged_iff cfg life _ ls _).2 hi
  obtain ⟨m, hm⟩ := authExample_signal md5 life g ls r i c v h2
  exact ⟨r, i, m, h2, hm⟩

/-- C121: the registration of the example does not panic; if the auth watcher is never more than `d` late, a connection still open
thirty seconds and `3 * d` after it was accepted has sent a signed message, and that message has been handled. -/
theorem C121_let_in (md5 : String → String) (d : Nat) (life : Life) (g : Nat → Gor) (ls ls' : List TLabel) (c : Nat)
    (hc : c = (trun cfg life (fun i => (g i).calls md5) ls).w.n)
    (hp : Throughout cfg (.start life fun i => (g i).calls md5) (ls ++ .act (.accept .tcp) :: ls') (PromptAuth cfg d c))
    (hopen : ¬ ClosedIn c (trun cfg life (fun i => (g i).calls md5) (ls ++ .act (.accept .tcp) :: ls')).log)
    (hlate : (trun cfg life (fun i => (g i).calls md5) ls).now + 30000000000 + 3 * d <
      (trun cfg life (fun i => (g i).calls md5) (ls ++ .act (.accept .tcp) :: ls')).now) :
    Registers .new ops = true ∧ ∃ r i m, g i = .msg m ∧ m.conn = c ∧ Signed md5 m ∧
      (r, .ret i (.auth c 1)) ∈ (trun cfg life (fun i => (g i).calls md5) (ls ++ .act (.accept .tcp) :: ls')).log := by
  refine ⟨by decide, ?_⟩
  obtain ⟨t, v, hv, ht⟩ := C86_in_time cfg rfl d life _ ls ls' c hc hp hopen hlate
  obtain ⟨r, i, m, h1, h2, h3, ⟨rfl, h4⟩ | ⟨rfl, -⟩⟩ := authExample_taken md5 life g _ t c v ht
  · exact ⟨r, i, m, h2, h3, h4, h1⟩
  · omega

/-- C121: a connection with a message signed wrongly, and none signed rightly, is closed within `3 * d` of the end of that message's
`RecvAuthDeny`. -/
theorem C121_denied (md5 : String → String) (d : Nat) (life : Life) (g : Nat → Gor) (ls ls' : List TLabel) (c : Nat)
    (hc : c = (trun cfg life (fun i => (g i).calls md5) ls).w.n)
    (hp : Throughout cfg (.start life fun i => (g i).calls md5) (ls ++ .act (.accept .tcp) :: ls') (PromptAuth cfg d c))
    (hnone : ∀ i m, g i = .msg m → m.conn = c → ¬ Signed md5 m) (r i : Nat) (v : Int)
    (hr : (r, .ret i (.auth c v)) ∈ (trun cfg life (fun i => (g i).calls md5) (ls ++ .act (.accept .tcp) :: ls')).log)
    (hlate : r + 3 * d < (trun cfg life (fun i => (g i).calls md5) (ls ++ .act (.accept .tcp) :: ls')).now) :
    (∃ m, g i = .msg m ∧ Missigned md5 m) ∧
      ClosedIn c (trun cfg life (fun i => (g i).calls md5) (ls ++ .act (.accept .tcp) :: ls')).log := by
  constructor
  · obtain ⟨m, h1, h2, ⟨-, h3⟩ | ⟨-, h3⟩⟩ := authExample_signal md5 life g _ r i c v hr
    · exact absurd h3 (hnone i m h1 h2)
    · exact ⟨m, h1, h3⟩
  · apply Classical.byContradiction
    intro hopen
    obtain ⟨t, v, hv, ht⟩ := C86_decided_in_time cfg rfl d life _ ls ls' c hc hp r i v hr hopen hlate
    obtain ⟨r, i, m, h1, h2, h3, ⟨rfl, h4⟩ | ⟨rfl, -⟩⟩ := authExample_taken md5 life g _ t c v ht
    · exact hnone i m h2 h3 h4
    · omega

/-- C121: a connection none of whose messages is signed wrongly, and on which the `RecvAuthPass` of a signed one returned more than
`2 * d` before thirty seconds had passed, is never closed for want of authorisation. -/
theorem C121_kept (md5 : String → String) (d : Nat) (life : Life) (g : Nat → Gor) (ls : List TLabel) (c : Nat)
    (hp : Throughout cfg (.start life fun i => (g i).calls md5) ls (PromptAuth cfg d c))
    (hnone : ∀ i m, g i = .msg m → m.conn = c → ¬ Missigned md5 m) (a r i : Nat)
    (ha : acceptedAt c (trun cfg life (fun i => (g i).calls md5) ls).log = some a)
    (hr : (r, .ret i (.auth c 1)) ∈ (trun cfg life (fun i => (g i).calls md5) ls).log) (hlt : r + 2 * d < a + 30000000000) (t : Nat) :
    (t, .closed c .deadline) ∉ (trun cfg life (fun i => (g i).calls md5) ls).log ∧
    (t, .closed c .denied) ∉ (trun cfg life (fun i => (g i).calls md5) ls).log := by
  refine ⟨C86_answer_counts cfg d life _ ls c hp a r i 1 ha hr hlt t, ?_⟩
  intro h
  have h1 := (logged_iff cfg life (fun i => (g i).calls md5) ls _).1 ⟨t, h⟩
  obtain ⟨v, hv, h2⟩ := (auok_run cfg.w life _ c _).closedD h1
  obtain ⟨t', h3⟩ := (logged_iff cfg life _ ls _).2 h2
  obtain ⟨_, j, m, -, hg, hm, ⟨rfl, -⟩ | ⟨rfl, h4⟩⟩ := authExample_taken md5 life g _ t' c v h3
  · omega
  · exact hnone j m hg hm h4

/-- Hash for the examples: the text itself. -/
def Demo.md5 (s : String) : String := s
/-- Goroutine 0 is of connection 0, the others of its messages: all of them as given. -/
def Demo.gor (a : Auth) : Nat → Gor
  | 0 => .conn 0
  | _ => .msg ⟨0, .byId 1393, .ok a⟩

-- rightly signed at 5 s, open after 31 s
example : let ls' : List TLabel := [.delay 5000000000, .act (.user 1), .act (.user 1), .act (.au 0 .recv), .delay 26000000000]
    let jobs := fun i => (Demo.gor ⟨"a", "b", "abhello"⟩ i).calls Demo.md5
    Throughout AuthExample.cfg (.start Demo.wlife jobs) ([] ++ .act (.accept .tcp) :: ls') (PromptAuth AuthExample.cfg 1 0) ∧
    (trun AuthExample.cfg Demo.wlife jobs ([] ++ .act (.accept .tcp) :: ls')).log =
      [(5000000000, .authTaken 0 1), (5000000000, .ret 1 (.auth 0 1)), (5000000000, .invoke 1 (.auth 0 1)), (0, .newConn 0)] ∧
    0 + 30000000000 + 3 * 1 < (trun AuthExample.cfg Demo.wlife jobs ([] ++ .act (.accept .tcp) :: ls')).now :=
  ⟨throughout_of _ _ _ _ (by decide), by decide, by decide⟩

-- wrongly signed at 5 s, closed
example : let ls' : List TLabel := [.delay 5000000000, .act (.user 1), .act (.user 1), .delay 1, .act (.au 0 .recv), .act (.au 0 .go), .delay 9]
    let jobs := fun i => (Demo.gor ⟨"a", "b", "xyz"⟩ i).calls Demo.md5
    Throughout AuthExample.cfg (.start Demo.wlife jobs) ([] ++ .act (.accept .tcp) :: ls') (PromptAuth AuthExample.cfg 1 0) ∧
    (trun AuthExample.cfg Demo.wlife jobs ([] ++ .act (.accept .tcp) :: ls')).log =
      [(5000000001, .closed 0 .denied), (5000000001, .authTaken 0 (-1)), (5000000000, .ret 1 (.auth 0 (-1))),
       (5000000000, .invoke 1 (.auth 0 (-1))), (0, .newConn 0)] ∧
    5000000000 + 3 * 1 < (trun AuthExample.cfg Demo.wlife jobs ([] ++ .act (.accept .tcp) :: ls')).now :=
  ⟨throughout_of _ _ _ _ (by decide), by decide, by decide⟩
example (i : Nat) (m : Msg) (h : Demo.gor ⟨"a", "b", "xyz"⟩ i = .msg m) : ¬ Signed Demo.md5 m ∧ Missigned Demo.md5 m := by
  cases i with
  | zero => cases h
  | succ i =>
    cases h
    simp [Signed, Missigned, Demo.md5]

/-! ## C122 -/

theorem authExample_pass (md5 : String → String) (a : Auth) :
    handler md5 (.ok a) = [.pass] ↔ md5 (a.f1 ++ a.f2 ++ "hello") = a.signature := by
  by_cases h : encrypt md5 a appSecret = a.signature
  · simp only [handler, h, ne_eq, not_true_eq_false, if_false, true_iff]
    exact h
  · simp only [handler, h, ne_eq, not_false_eq_true, if_true]
    constructor
    · intro e; cases e
    · exact fun e => absurd e h

/-- C122 (partial): if no two texts have the same hash, a signature is accepted for one text only: that of both fields together.
Missing: for these fields only (`C122_moved_violated`). -/
theorem C122_text_partial (md5 : String → String) (hinj : ∀ x y, md5 x = md5 y → x = y) (a a' : Auth)
    (h : handler md5 (.ok a) = [.pass]) (h' : handler md5 (.ok a') = [.pass]) (hs : a.signature = a'.signature) :
    a.f1 ++ a.f2 = a'.f1 ++ a'.f2 := by
  have := hinj _ _ (((authExample_pass md5 a).1 h).trans (hs.trans ((authExample_pass md5 a').1 h').symm))
  simpa using this

/-- C122 is violated: whatever the hash, the signature of a message that lets its sender in also lets in a message with other fields. -/
theorem C122_moved_violated (md5 : String → String) (a : Auth) (h : handler md5 (.ok a) = [.pass]) (hne : a.f1 ++ a.f2 ≠ "") :
    ∃ a' : Auth, a'.signature = a.signature ∧ (a'.f1 ≠ a.f1 ∧ a'.f2 ≠ a.f2) ∧ handler md5 (.ok a') = [.pass] := by
  have key : ∀ f g, f ++ g = a.f1 ++ a.f2 → handler md5 (.ok ⟨f, g, a.signature⟩) = [.pass] := by
    intro f g e
    rw [authExample_pass] at h ⊢
    rw [← h]
    simp only [e]
  by_cases h2 : a.f2 = ""
  · refine ⟨⟨"", a.f1, a.signature⟩, rfl, ⟨fun e => ?_, fun e => ?_⟩, key _ _ (by rw [h2]; simp)⟩
    · exact hne (by rw [h2, ← e]; rfl)
    · exact hne (by rw [h2]; simp only at e; rw [e, h2]; rfl)
  · refine ⟨⟨a.f1 ++ a.f2, "", a.signature⟩, rfl, ⟨fun e => ?_, fun e => h2 e.symm⟩, key _ _ (by simp)⟩
    simp only at e
    exact h2 (by simpa using e)

-- a message let in, and the one that goes with its signature
example : handler Demo.md5 (.ok ⟨"user", "1", "user1hello"⟩) = [.pass] ∧ handler Demo.md5 (.ok ⟨"use", "r1", "user1hello"⟩) = [.pass] ∧
    handler Demo.md5 (.ok ⟨"user", "2", "user1hello"⟩) = [.write "auth deny, signature wrong", .deny] := by decide

end Tcpx
