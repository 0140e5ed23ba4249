import Verif.Lemmas.Race
/-!
# C95, C96: data races
-/
namespace Tcpx
open Spec Race

/-! ## C95: fields of the server -/

/-- C95: the state of a server and the listeners in its records are never accessed by two goroutines at once, whatever control calls are
made by however many goroutines. -/
theorem C95_state (c : RCfg) (users : List (List Ctl)) (sched : List (Nat × Nat)) :
    ¬ RaceAt ((server c users).run sched) .state ∧ ¬ RaceAt ((server c users).run sched) .listener := by
  obtain ⟨m, h⟩ := (server_inv (X := fun x => x = .state ∨ x = .listener) c users
    (fun l _ => user_locked c (by simp) l (by simp))).run sched
  exact ⟨h.safe _ (.inl rfl), h.safe _ (.inr rfl)⟩

/-- C95, the list of records: as long as nobody calls `Start` or `Restart`.
Missing: these two (`C95_properties_violated`). -/
theorem C95_properties_partial (c : RCfg) (users : List (List Ctl)) (h : ∀ l ∈ users, ∀ a ∈ l, a ≠ .start ∧ ∀ b, a ≠ .restart b)
    (sched : List (Nat × Nat)) : ¬ RaceAt ((server c users).run sched) .properties := by
  obtain ⟨m, h⟩ := (server_inv (X := fun x => x = .properties) c users
    (fun l hl => user_locked c (by simp) l (fun _ => h l hl))).run sched
  exact h.safe _ rfl

/-- C95, the pool: with broadcast signals, or as long as nobody stops the server with `true`.
Missing: `Stop(true)` without broadcast signals (`C95_pool_violated`). -/
theorem C95_pool_partial (c : RCfg) (users : List (List Ctl))
    (h : c.signals = true ∨ ∀ l ∈ users, ∀ a ∈ l, a ≠ .stop true ∧ a ≠ .restart true) (sched : List (Nat × Nat)) :
    ¬ RaceAt ((server c users).run sched) .pool := by
  refine Unwritten.safe (Unwritten.run ?_ sched)
  intro i p hp
  simp only [server, List.getElem?_map, Option.map_eq_some_iff] at hp
  obtain ⟨l, hl, rfl⟩ := hp
  exact user_pool c l (h.imp id fun h => h l (List.mem_of_getElem? hl))

def Demo.plain : RCfg := ⟨true, false, false, false, false⟩

/-- C95 is violated: `Start` reads the list of records without the mutex (tcpx.go:1196) while a listening call adds to it (tcpx.go:417). -/
theorem C95_properties_violated : ∃ (c : RCfg) (users : List (List Ctl)) (sched : List (Nat × Nat)),
    RaceAt ((server c users).run sched) .properties :=
  ⟨Demo.plain, [[.start], [.listen]], [(0, 0), (0, 0), (0, 0), (1, 1), (1, 0), (1, 0), (1, 1), (1, 0)],
    0, 1, _, _, false, true, by decide, rfl, rfl, by exact ⟨rfl, rfl⟩, by exact ⟨rfl, rfl⟩, .inr rfl⟩

/-- C95 is violated: `Stop(true)` replaces the pool (tcpx.go:1185) while the accept loop reads it for a new connection (tcpx.go:534). -/
theorem C95_pool_violated : ∃ (c : RCfg) (users : List (List Ctl)) (sched : List (Nat × Nat)),
    RaceAt ((server c users).run sched) .pool :=
  ⟨Demo.plain, [[.listen], [.stop true]],
    [(0, 1), (0, 0), (0, 0), (0, 1), (0, 0), (0, 0), (0, 0), (0, 0), (0, 0), (0, 0), (0, 5), (0, 0), (0, 0), (0, 0), (0, 1)] ++
      List.replicate 13 (1, 0),
    0, 1, _, _, false, true, by decide, rfl, rfl, by exact ⟨rfl, rfl⟩, by exact ⟨rfl, rfl⟩, .inr rfl⟩

/-- Both goroutines of the second witness take and give the mutex all the time; the state is still consistent. -/
example : (((server Demo.plain [[.listen], [.stop true]]).run
    ([(0, 1), (0, 0), (0, 0), (0, 1), (0, 0), (0, 0), (0, 0), (0, 0), (0, 0), (0, 0), (0, 5), (0, 0), (0, 0), (0, 0), (0, 1)] ++
      List.replicate 13 (1, 0))).mem .state) = 2 := rfl

/-! ## C96: fields of a context -/

/-- C96, TCP: the goroutines of a connection (accepting, reading, watching, handling) do not race on its context nor on those of its
requests, unless a callback for loss of heartbeat is set.
Missing: servers with such a callback (`C96_loss_violated`). -/
theorem C96_tcp_partial (c : RCfg) (h : c.heartbeat = false ∨ c.onLoss = false) (sched : List (Nat × Nat)) (x : Loc) :
    ¬ RaceAt ((one (tcp c)).run sched) x := ((SInv.one (tcp_sep h)).run sched).safe x

/-- C96, raw connections.
Missing: as for `C96_tcp_partial`. -/
theorem C96_raw_partial (c : RCfg) (h : c.heartbeat = false ∨ c.onLoss = false) (sched : List (Nat × Nat)) (x : Loc) :
    ¬ RaceAt ((one (raw c)).run sched) x := ((SInv.one (raw_sep h)).run sched).safe x

/-- C96, datagrams: without heartbeat, and without broadcast signals or pool.
Missing: servers with heartbeat (`C96_datagram_violated`), or with signals and a pool (`C96_datagram_pool_violated`). -/
theorem C96_datagram_partial (c : RCfg) (h1 : c.heartbeat = false) (h2 : c.signals = false ∨ c.builtIn = false)
    (sched : List (Nat × Nat)) (x : Loc) : ¬ RaceAt ((one (datagram c)).run sched) x :=
  ((SInv.one (datagram_sep h1 h2)).run sched).safe x

/-- C96 is violated: at loss of heartbeat the watcher copies the context (tcpx.go:1054) while the connection is reading the next message
into it (tcpx.go:566). -/
theorem C96_loss_violated : ∃ (c : RCfg) (sched : List (Nat × Nat)), RaceAt ((one (tcp c)).run sched) .stream :=
  ⟨⟨false, false, true, true, false⟩, List.replicate 8 (0, 0) ++ [(1, 1), (1, 1), (1, 0), (2, 1)],
    1, 2, _, _, false, true, by decide, rfl, rfl, by exact ⟨rfl, rfl⟩, by exact ⟨rfl, rfl⟩, .inr rfl⟩

/-- C96 is violated for every datagram of a server with heartbeat: the watcher looks up the heartbeat channel in the store of the request
while `Reset` replaces the store (context.go:575). -/
theorem C96_datagram_violated : ∃ (c : RCfg) (sched : List (Nat × Nat)), RaceAt ((one (datagram c)).run sched) .reqStore :=
  ⟨⟨false, false, true, false, false⟩, [(0, 0), (0, 0), (0, 1), (0, 0), (1, 1)] ++ List.replicate 6 (2, 0),
    1, 2, _, _, false, true, by decide, rfl, rfl, by exact ⟨rfl, rfl⟩, by exact ⟨rfl, rfl⟩, .inr rfl⟩

/-- C96 is violated for datagrams of a server with broadcast signals and a pool: the watcher is started before the pool is put into the
context (tcpx.go:684-688). -/
theorem C96_datagram_pool_violated : ∃ (c : RCfg) (sched : List (Nat × Nat)), RaceAt ((one (datagram c)).run sched) .poolRef :=
  ⟨⟨true, true, false, false, false⟩, [(0, 0), (1, 1)],
    1, 0, _, _, false, true, by decide, rfl, rfl, by exact ⟨rfl, rfl⟩, by exact ⟨rfl, rfl⟩, .inr rfl⟩

/-- A connection with all watchers, in the middle of a group of three messages, with a handler of an earlier message still running. -/
def Demo.busyConn : RSys := (one (tcp ⟨true, true, true, false, true⟩)).run
  (List.replicate 11 (0, 0) ++ [(4, 5), (4, 0), (4, 1)] ++ List.replicate 6 (4, 0) ++ [(4, 0), (4, 0), (4, 0), (4, 1)] ++
    List.replicate 6 (4, 0) ++ [(4, 2), (4, 0)])

example : Demo.busyConn.threads.length = 6 := rfl

end Tcpx
