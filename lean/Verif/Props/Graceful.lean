import Verif.Lemmas.GracefulCtl
import Verif.Lemmas.GracefulStop
import Verif.Props.Watch
/-!
# C130-C132: the graceful examples and documents; `Stop` and `Start` among running listening calls

C131 and C132 speak about `Graceful.run users ls`: goroutines of user code `users` on a new server, and any schedule `ls` of all
goroutines and of clients that connect.  A schedule also says which system calls fail (`.run i false`).
-/
namespace Tcpx
open Spec

/-! ## C130: markdowns/graceful.md, `Stop(true)` "stops all connection including connected clients" -/

/-- On a server without broadcast signals (the default) `Stop(true)` closes no connection: with heartbeat off, whatever is closed, in any run
with any number of `Stop(true)`, is closed for authorisation or by user code. -/
theorem C130_default_violated (cfg : WCfg) (hb : cfg.heartBeatOn = false) (life : Life) (hconf : Configured life)
    (hsig : life.withSignals = false) (jobs : Nat → List UCall) (ls : List WLabel) (c : Nat) (why : Cause)
    (hcl : .closed c why ∈ (wrun cfg life jobs ls).trace) :
    why = .deadline ∨ why = .denied ∨ why = .user ∧ ∃ i, .close c ∈ jobs i := by
  have hc := causeok_run cfg life hconf jobs ls
  cases why with
  | loss => exact absurd hcl (hc.beatOff hb c).2
  | stopState => exact absurd hcl (hc.beatOff hb c).1
  | deadline => exact .inl rfl
  | denied => exact .inr (.inl rfl)
  | user => exact .inr (.inr ⟨rfl, (userok_run cfg life jobs ls).closed c hcl⟩)
  | signal => exact absurd hcl (noSignal_run cfg life hconf hsig jobs ls c)

/-- Nor is there anything that would: without broadcast signals and without a pool, `Stop(true)` is `Stop(false)`. -/
theorem C130_same_violated (s : Life) (hsig : s.withSignals = false) (hp : s.pool = none) : s.stop true = s.stop false := by
  unfold Life.stop
  split
  · rfl
  · simp [Life.closeAllConnection, hsig, hp]

/-- The server of examples/modules/graceful/graceful-stop: a connection is accepted, `Stop(true)` returns nil, and the connection is never
closed. -/
example : let y := wrun {} ((({} : Life).listen "tcp" ":8080" 0)) Demo.wnone [.accept .tcp, .stop true]
    .stop true true ∈ y.trace ∧ y.n = 1 ∧ y.closed 1 = false := by decide
example : Configured (({} : Life).listen "tcp" ":8080" 0) ∧ (({} : Life).listen "tcp" ":8080" 0).withSignals = false ∧
    (({} : Life).listen "tcp" ":8080" 0).pool = none ∧ (({} : Life).listen "tcp" ":8080" 0).state = .running := by
  simp [Configured, Life.listen]

/-- With broadcast signals, after `Stop(true)` two steps of the connection's watcher close it.
Missing: servers without broadcast signals (`C130_default_violated`). -/
theorem C130_signals_partial (cfg : WCfg) (life : Life) (hconf : Configured life) (hsig : life.withSignals = true) (jobs : Nat → List UCall)
    (ls : List WLabel) (c : Nat) (hc : c < (wrun cfg life jobs ls).n) (hstop : .stop true true ∈ (wrun cfg life jobs ls).trace) :
    ∃ xs : List Sel, xs.length ≤ 2 ∧ IsClosed c (wrun cfg life jobs (ls ++ xs.map (.bc c ·))).trace := by
  obtain ⟨h1, h2⟩ := C63_closes cfg life hconf hsig jobs ls c hc hstop
  rcases h1 with h | ⟨x, y, hx⟩
  · exact ⟨[], by simp, by simpa using h⟩
  · have hy : wrun cfg life jobs (ls ++ [.bc c x]) = y := by
      simp only [wrun, WState.run_append, WState.run]
      rw [hx]; rfl
    rcases h2 x y hx [] with h | ⟨⟨x', z, hz⟩, h⟩
    · exact ⟨[x], by simp, by simpa [hy, WState.run] using h⟩
    · refine ⟨[x, x'], by simp, ?_⟩
      have : wrun cfg life jobs (ls ++ [.bc c x, .bc c x']) = z := by
        rw [show ls ++ [.bc c x, .bc c x'] = (ls ++ [.bc c x]) ++ [.bc c x'] by simp, wrun, WState.run_append]
        rw [wrun] at hy
        rw [hy]
        simp only [WState.run] at hz ⊢
        rw [hz]; rfl
      simp only [List.map_cons, List.map_nil]
      rw [this]
      exact h x' z hz

open Graceful Graceful.Spec

/-! ## C131: the graceful-restart example -/

/-- Any server: after a `Stop` that found every listener at `a` in its record, and until one is opened there again, clients are refused at `a`. -/
theorem C131_refused (users : List User) (ls : List Label) (a : String) (h : SweptAt a (run users ls).trace) :
    (run users (ls ++ [.connect a])).trace = .refused a :: (run users ls).trace := by
  have hn := sweptAt_run users ls a h
  simp only [run, List.foldl_append, List.foldl_cons, List.foldl_nil] at hn ⊢
  simp only [GState.step, GState.connect, hn]
  rfl

/-- Any server: from the moment `net.Listen` returns until the next `Stop` (or until `Accept` fails), clients are let in, and each is accepted:
at most four steps of the listening call. -/
theorem C131_accepted (users : List User) (ls : List Label) (i l : Nat) (a : String) (h : Since (NoStop l) (.listening i a l) (run users ls).trace) :
    (run users (ls ++ [.connect a])).trace = .connected a l :: (run users ls).trace ∧
    ∃ n ≤ 4, (run users (ls ++ [.connect a] ++ List.replicate n (.run i true))).trace.head? = some (.served l) := by
  have hA := alive_run users ls i a l h
  have hn := hA.1
  have h1 : (run users (ls ++ [.connect a])).trace = .connected a l :: (run users ls).trace := by
    simp only [run, List.foldl_append, List.foldl_cons, List.foldl_nil] at hn ⊢
    simp only [GState.step, GState.connect, hn]
    rfl
  refine ⟨h1, ?_⟩
  have hA' : Alive (run users (ls ++ [.connect a])) i a l := by
    refine alive_run users _ i a l ?_
    rw [h1]
    exact .inr ⟨by simp [NoStop], h⟩
  have hb : 0 < (run users (ls ++ [.connect a])).backlog l := by
    simp only [run, List.foldl_append, List.foldl_cons, List.foldl_nil] at hn ⊢
    simp only [GState.step, GState.connect, hn, GState.log, if_true]
    omega
  obtain ⟨n, hn4, hs⟩ := alive_serves hA' hb
  exact ⟨n, hn4, by rw [run_append]; exact hs⟩

/-- Any server, whatever has happened: no more connections are accepted than clients were let in; and until the next `Stop` (or until `Accept`
fails) the listening call by itself can accept every one of them. -/
theorem C131_all_accepted (users : List User) (ls : List Label) (i l : Nat) (a : String) :
    accepted l (run users ls).trace ≤ letIn l (run users ls).trace ∧
    (Since (NoStop l) (.listening i a l) (run users ls).trace →
      ∃ m ≤ 4 + 2 * letIn l (run users ls).trace,
        accepted l (run users (ls ++ List.replicate m (.run i true))).trace = letIn l (run users ls).trace ∧
        letIn l (run users (ls ++ List.replicate m (.run i true))).trace = letIn l (run users ls).trace) := by
  have hw := waiting_run users ls l
  refine ⟨by omega, fun h => ?_⟩
  obtain ⟨m, h1, -, h3, h4⟩ := alive_serves_all i l a _ _ (alive_run users ls i a l h) rfl
  rw [← run_append] at h3 h4
  have hw' := waiting_run users (ls ++ List.replicate m (.run i true)) l
  exact ⟨m, by omega, by omega, h4⟩

/-- Three clients are let in, one of them is accepted. -/
example : let t := (run [.serve ":8080" .ret] [.run 0 true, .run 1 true, .connect ":8080", .connect ":8080", .run 1 true, .run 1 true, .run 1 true,
      .run 1 true, .connect ":8080"]).trace
    Since (NoStop 0) (.listening 1 ":8080" 0) t ∧ letIn 0 t = 3 ∧ accepted 0 t = 1 := by
  refine ⟨?_, by decide, by decide⟩
  have : (run [.serve ":8080" .ret] [.run 0 true, .run 1 true, .connect ":8080", .connect ":8080", .run 1 true, .run 1 true, .run 1 true,
      .run 1 true, .connect ":8080"]).trace = [.connected ":8080" 0, .served 0, .opened 1, .recorded ":8080" 0, .connected ":8080" 0,
        .connected ":8080" 0, .listening 1 ":8080" 0, .calling 1] := by decide
  rw [this]
  simp [Since, NoStop]

/-- One endpoint, and user code that stops it and starts it in turn, as often as it likes: from the return of `Stop` until the next `Start`
makes a goroutine, the server is stopped and every client is refused. -/
theorem C131_stopped (a : String) (u : User) (hu : Alternates true u) (ls : List Label)
    (h : Since NoCall (.stopRet true) (run [.serve a u] ls).trace) :
    (run [.serve a u] ls).state = .stopped ∧
    ∀ b, (run [.serve a u] (ls ++ [.connect b])).trace = .refused b :: (run [.serve a u] ls).trace := by
  have hc : ∀ b, (run [.serve a u] ls).bound b = none →
      (run [.serve a u] (ls ++ [.connect b])).trace = .refused b :: (run [.serve a u] ls).trace := by
    intro b hn
    simp only [run, List.foldl_append, List.foldl_cons, List.foldl_nil] at hn ⊢
    simp only [GState.step, GState.connect, hn]
    rfl
  cases (phase_run a u hu ls).2 with
  | init u h0 hu hs hr hb ht => exact ⟨hs, fun b => hc b (hb b)⟩
  | up t h0 hu h1 h2 hc ht => exact absurd h ht
  | stopping ok h0 hu hs he hr hc ht => exact absurd h ht
  | sweeping ok h0 hu hs he hr ht ht' => exact absurd h ht
  | down t h0 hu hs he hr hb ht' => exact ⟨hs, fun b => hc b (hb b)⟩

/-- If no system call fails, then after `Start` has returned, and before the next `Stop`, two steps of some goroutine are enough for clients
to be let in (and then they are, until the next `Stop`: `C131_accepted`).  In particular `net.Listen` never finds the address in use. -/
theorem C131_started (a : String) (u : User) (hu : Alternates true u) (ls : List Label) (hw : ∀ i, .run i false ∉ ls)
    (h : Since (· ≠ .stopping) (.startRet true) (run [.serve a u] ls).trace) :
    ∃ m l, (run [.serve a u] (ls ++ [.run m true, .run m true, .connect a])).trace.head? = some (.connected a l) := by
  have hf := nothingFailed_run a u hu ls hw
  obtain ⟨hcom, hp⟩ := phase_run a u hu ls
  have key : Coming (run [.serve a u] ls) a → ∃ m l, (run [.serve a u] (ls ++ [.run m true, .run m true, .connect a])).trace.head? =
      some (.connected a l) := by
    intro hc
    obtain ⟨m, l, hb⟩ := coming_soon (inv_run _ _)
      (fun lab => by rw [show (run [.serve a u] ls).step lab = run [.serve a u] (ls ++ [lab]) by simp [run]]; exact inv_run _ _) hcom hc hf
    refine ⟨m, l, ?_⟩
    rw [show run [.serve a u] (ls ++ [.run m true, .run m true, .connect a]) =
      (((run [.serve a u] ls).step (.run m true)).step (.run m true)).connect a by simp only [run, List.foldl_append, List.foldl_cons, List.foldl_nil]; rfl]
    simp only [GState.connect, hb]
    rfl
  cases hp with
  | init u h0 hu hs hr hb ht =>
    exfalso
    have : ∀ t, (∀ e ∈ t, ∃ b, e = .refused b) → ¬ Since (· ≠ .stopping) (.startRet true) t := by
      intro t
      induction t with
      | nil => exact fun _ h => h
      | cons e t ih =>
        rintro ht (h | h)
        · obtain ⟨b, hb⟩ := ht e (by simp); rw [h] at hb; cases hb
        · exact ih (fun e he => ht e (List.mem_cons_of_mem _ he)) h.2
    exact this _ ht h
  | up t h0 hu h1 h2 hc ht => exact key hc
  | stopping ok h0 hu hs he hr hc ht => exact key hc
  | sweeping ok h0 hu hs he hr ht ht' => exact absurd h ht'
  | down t h0 hu hs he hr hb ht' => exact absurd h ht'

/-- examples/modules/graceful/graceful-restart/main.go, 16-48. -/
example : Alternates true (.stop (.start .ret .ret) .ret) := by simp [Alternates]
/-- The example up to the return of `Stop`, and up to the return of `Start`. -/
example : (run [.serve ":8080" (.stop (.start .ret .ret) .ret)] [.run 0 true, .run 1 true, .run 1 true, .run 1 true, .run 1 true,
      .connect ":8080", .run 1 true, .run 0 true, .run 0 true, .run 0 true]).trace =
    [.stopRet true, .swept, .stopping, .served 0, .connected ":8080" 0, .opened 1, .recorded ":8080" 0, .listening 1 ":8080" 0, .calling 1] := by
  decide
example : (run [.serve ":8080" (.stop (.start .ret .ret) .ret)] [.run 0 true, .run 1 true, .run 1 true, .run 1 true, .run 0 true, .run 0 true,
      .run 0 true, .run 0 true, .run 0 true, .run 0 true, .run 0 true, .connect ":8080", .run 2 true, .run 2 true, .connect ":8080"]).trace =
    [.connected ":8080" 1, .listening 2 ":8080" 1, .refused ":8080", .startRet true, .calling 2, .stopRet true, .swept, .stopping, .opened 1,
      .recorded ":8080" 0, .listening 1 ":8080" 0, .calling 1] := by
  decide

/-! ## C132: when `Stop` has returned nil the server is stopped -/

/-- If `Stop` set the state when every listening call made so far had opened it (or failed), then once it has closed the listeners, and until
another listening call is made, the server is stopped and every client is refused, whatever the goroutines do.
Missing: a `Stop` while a listening call is between `net.Listen` and `openState` (`C132_late_violated`, `C132_dead_violated`,
`C132_error_violated`). -/
theorem C132_stopped_partial (users : List User) (ls : List Label) (h : SweptQuietly (run users ls).trace) :
    (run users ls).state = .stopped ∧ ∀ a, (run users (ls ++ [.connect a])).trace = .refused a :: (run users ls).trace := by
  obtain ⟨h1, h2⟩ := sweptQuietly_run users ls h
  refine ⟨h1.1, fun a => ?_⟩
  have hn := h2 a
  simp only [run, List.foldl_append, List.foldl_cons, List.foldl_nil] at hn ⊢
  simp only [GState.step, GState.connect, hn]
  rfl

/-- Two endpoints of one server. -/
example : SweptQuietly (run [.serve ":1" (.serve ":2" (.stop .ret .ret))] [.run 0 true, .run 0 true, .run 1 true, .run 1 true, .run 1 true,
    .run 2 true, .run 2 true, .run 2 true, .run 0 true, .run 0 true, .run 0 true]).trace := by
  rw [show (run [.serve ":1" (.serve ":2" (.stop .ret .ret))] [.run 0 true, .run 0 true, .run 1 true, .run 1 true, .run 1 true,
    .run 2 true, .run 2 true, .run 2 true, .run 0 true, .run 0 true, .run 0 true]).trace = [.stopRet true, .swept, .stopping, .opened 2,
    .recorded ":2" 1, .listening 2 ":2" 1, .opened 1, .recorded ":1" 0, .listening 1 ":1" 0, .calling 2, .calling 1] by decide]
  exact .inr ⟨by simp [NoCall], .inl ⟨rfl, .inl ⟨rfl, by simp +contextual [Settled]⟩⟩⟩

/-- Two endpoints, `Stop` while the second is between `net.Listen` and `fillProperty`: `Stop` returns nil, but soon the server is running,
and its second endpoint lets clients in for ever (unless a system call fails). -/
theorem C132_late_violated : ∃ (users : List User) (ls ms : List Label), .connect ":2" ∉ ls ∧
    (run users ls).trace.head? = some (.stopRet true) ∧
    ∀ ls', (∀ i, .run i false ∉ ls') → (run users (ls ++ ms ++ ls')).state = .running ∧
      (run users (ls ++ ms ++ ls' ++ [.connect ":2"])).trace.head? = some (.connected ":2" 1) := by
  refine ⟨[.serve ":1" (.serve ":2" (.stop .ret .ret))],
    [.run 0 true, .run 0 true, .run 1 true, .run 1 true, .run 1 true, .run 2 true, .run 0 true, .run 0 true, .run 0 true],
    [.run 2 true, .run 2 true], by decide, by decide, ?_⟩
  intro ls' hw
  have hthr : (run [.serve ":1" (.serve ":2" (.stop .ret .ret))] ([.run 0 true, .run 0 true, .run 1 true, .run 1 true, .run 1 true,
      .run 2 true, .run 0 true, .run 0 true, .run 0 true] ++ [.run 2 true, .run 2 true])).threads =
      [.user .ret, .check ":1" 0, .check ":2" 1] := by decide
  have hr : (run [.serve ":1" (.serve ":2" (.stop .ret .ret))] ([.run 0 true, .run 0 true, .run 1 true, .run 1 true, .run 1 true,
      .run 2 true, .run 0 true, .run 0 true, .run 0 true] ++ [.run 2 true, .run 2 true])).state = .running := by decide
  have hb : (run [.serve ":1" (.serve ":2" (.stop .ret .ret))] ([.run 0 true, .run 0 true, .run 1 true, .run 1 true, .run 1 true,
      .run 2 true, .run 0 true, .run 0 true, .run 0 true] ++ [.run 2 true, .run 2 true])).bound ":2" = some 1 := by decide
  generalize hls : ([.run 0 true, .run 0 true, .run 1 true, .run 1 true, .run 1 true,
      .run 2 true, .run 0 true, .run 0 true, .run 0 true] ++ [.run 2 true, .run 2 true] : List Label) = ls at *
  have hq : Quiet (run [.serve ":1" (.serve ":2" (.stop .ret .ret))] ls) := by
    intro i t hi
    rw [hthr] at hi
    match i, hi with
    | 0, hi => cases hi; exact .inl rfl
    | 1, hi => cases hi; exact .inr (by simp [Ctl])
    | 2, hi => cases hi; exact .inr (by simp [Ctl])
    | i + 3, hi => simp at hi
  have hA : Alive (run [.serve ":1" (.serve ":2" (.stop .ret .ret))] ls) 2 ":2" 1 :=
    ⟨hb, .inr (.inr ⟨.inl (by rw [hthr]; rfl), hr⟩)⟩
  refine ⟨quiet_running hq hr ls', ?_⟩
  have hn := (quiet_alive hq hA ls' hw).1
  rw [run_append]
  simp only [List.foldl_cons, List.foldl_nil, GState.step, GState.connect, hn]
  rfl

/-- `Stop` while the second endpoint is between `fillProperty` and `openState`: `Stop` returns nil, and soon the state is running though no client
is let in anywhere; `Start` then returns the error "already running". -/
theorem C132_dead_violated : ∃ (users : List User) (ls ms : List Label),
    (run users ls).trace.head? = some (.stopRet true) ∧ (∀ i, .run i false ∉ ls ++ ms) ∧
    (run users (ls ++ ms)).state = .running ∧
    (∀ a, (run users (ls ++ ms ++ [.connect a])).trace.head? = some (.refused a)) ∧
    (run users (ls ++ ms ++ [.run 0 true])).trace.head? = some (.startRet false) ∧
    ∀ i, i ≠ 0 → ∀ w, run users (ls ++ ms ++ [.run i w]) = run users (ls ++ ms) := by
  refine ⟨[.serve ":1" (.serve ":2" (.stop (.start .ret .ret) .ret))],
    [.run 0 true, .run 0 true, .run 1 true, .run 1 true, .run 1 true, .run 2 true, .run 2 true, .run 0 true, .run 0 true, .run 0 true],
    [.run 1 true, .run 1 true, .run 2 true, .run 2 true, .run 2 true, .run 2 true], by decide, by simp, by decide, ?_, by decide, ?_⟩
  all_goals
    have hthr : (run [.serve ":1" (.serve ":2" (.stop (.start .ret .ret) .ret))] ([.run 0 true, .run 0 true, .run 1 true, .run 1 true,
        .run 1 true, .run 2 true, .run 2 true, .run 0 true, .run 0 true, .run 0 true] ++
        [.run 1 true, .run 1 true, .run 2 true, .run 2 true, .run 2 true, .run 2 true])).threads =
      [.user (.start .ret .ret), .done, .done] := by decide
    have htr : (run [.serve ":1" (.serve ":2" (.stop (.start .ret .ret) .ret))] ([.run 0 true, .run 0 true, .run 1 true, .run 1 true,
        .run 1 true, .run 2 true, .run 2 true, .run 0 true, .run 0 true, .run 0 true] ++
        [.run 1 true, .run 1 true, .run 2 true, .run 2 true, .run 2 true, .run 2 true])).trace =
      [.ended 1, .opened 2, .ended 0, .stopRet true, .swept, .stopping, .recorded ":2" 1, .listening 2 ":2" 1, .opened 1, .recorded ":1" 0,
        .listening 1 ":1" 0, .calling 2, .calling 1] := by decide
    generalize ([.run 0 true, .run 0 true, .run 1 true, .run 1 true, .run 1 true, .run 2 true, .run 2 true, .run 0 true, .run 0 true,
      .run 0 true] ++ [.run 1 true, .run 1 true, .run 2 true, .run 2 true, .run 2 true, .run 2 true] : List Label) = ls at *
  · intro a
    rw [C131_refused _ _ a (by rw [htr]; simp [SweptAt, AllRecorded]; grind), List.head?_cons]
  · intro i hi w
    rw [run_append]
    simp only [List.foldl_cons, List.foldl_nil, GState.step, hthr]
    match i, hi with
    | 1, _ => rfl
    | 2, _ => rfl
    | i + 3, _ => simp

/-- `Stop`, `Start` and `Stop` again, at once: the second `Stop` returns the error "already stopped", and yet the server comes up and lets
clients in for ever. -/
theorem C132_error_violated : ∃ (ls ms : List Label),
    (run [.serve ":1" (.stop (.start (.stop .ret .ret) .ret) .ret)] ls).trace.head? = some (.stopRet false) ∧
    ∀ ls', (∀ i, .run i false ∉ ls') →
      (run [.serve ":1" (.stop (.start (.stop .ret .ret) .ret) .ret)] (ls ++ ms ++ ls')).state = .running ∧
      (run [.serve ":1" (.stop (.start (.stop .ret .ret) .ret) .ret)] (ls ++ ms ++ ls' ++ [.connect ":1"])).trace.head? =
        some (.connected ":1" 1) := by
  refine ⟨[.run 0 true, .run 1 true, .run 1 true, .run 1 true, .run 0 true, .run 0 true, .run 0 true, .run 0 true, .run 0 true, .run 0 true,
    .run 0 true, .run 0 true], [.run 1 true, .run 1 true, .run 2 true, .run 2 true, .run 2 true, .run 2 true], by decide, ?_⟩
  intro ls' hw
  have hthr : (run [.serve ":1" (.stop (.start (.stop .ret .ret) .ret) .ret)] ([.run 0 true, .run 1 true, .run 1 true, .run 1 true,
      .run 0 true, .run 0 true, .run 0 true, .run 0 true, .run 0 true, .run 0 true, .run 0 true, .run 0 true] ++
      [.run 1 true, .run 1 true, .run 2 true, .run 2 true, .run 2 true, .run 2 true])).threads =
      [.user .ret, .done, .check ":1" 1] := by decide
  have hr : (run [.serve ":1" (.stop (.start (.stop .ret .ret) .ret) .ret)] ([.run 0 true, .run 1 true, .run 1 true, .run 1 true,
      .run 0 true, .run 0 true, .run 0 true, .run 0 true, .run 0 true, .run 0 true, .run 0 true, .run 0 true] ++
      [.run 1 true, .run 1 true, .run 2 true, .run 2 true, .run 2 true, .run 2 true])).state = .running := by decide
  have hb : (run [.serve ":1" (.stop (.start (.stop .ret .ret) .ret) .ret)] ([.run 0 true, .run 1 true, .run 1 true, .run 1 true,
      .run 0 true, .run 0 true, .run 0 true, .run 0 true, .run 0 true, .run 0 true, .run 0 true, .run 0 true] ++
      [.run 1 true, .run 1 true, .run 2 true, .run 2 true, .run 2 true, .run 2 true])).bound ":1" = some 1 := by decide
  generalize ([.run 0 true, .run 1 true, .run 1 true, .run 1 true,
      .run 0 true, .run 0 true, .run 0 true, .run 0 true, .run 0 true, .run 0 true, .run 0 true, .run 0 true] ++
      [.run 1 true, .run 1 true, .run 2 true, .run 2 true, .run 2 true, .run 2 true] : List Label) = ls at *
  have hq : Quiet (run [.serve ":1" (.stop (.start (.stop .ret .ret) .ret) .ret)] ls) := by
    intro i t hi
    rw [hthr] at hi
    match i, hi with
    | 0, hi => cases hi; exact .inl rfl
    | 1, hi => cases hi; exact .inr (by simp [Ctl])
    | 2, hi => cases hi; exact .inr (by simp [Ctl])
    | i + 3, hi => simp at hi
  have hA : Alive (run [.serve ":1" (.stop (.start (.stop .ret .ret) .ret) .ret)] ls) 2 ":1" 1 :=
    ⟨hb, .inr (.inr ⟨.inl (by rw [hthr]; rfl), hr⟩)⟩
  refine ⟨quiet_running hq hr ls', ?_⟩
  have hn := (quiet_alive hq hA ls' hw).1
  rw [run_append]
  simp only [List.foldl_cons, List.foldl_nil, GState.step, GState.connect, hn]
  rfl

end Tcpx
