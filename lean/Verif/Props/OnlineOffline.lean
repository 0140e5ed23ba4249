import Verif.Lemmas.OnlineOffline
/-!
# Property C147: what the server of the online-offline example prints

`start out jobs` is the server with one goroutine for each message and each closing of a connection in `jobs`, whenever it is started;
`run sched` lets them act in the order `sched`.
-/
namespace Tcpx
open Spec OnlineOffline

/-- C147 (partial): whatever users log in, log out and leave, in whatever order their goroutines run, every `online success` is printed
by the handler of a login, whose connection has been online under the name given, if that is not empty, at some time since the handler
began.
Missing: empty names (`C147_empty_violated`), `offline success` (`C147_early_violated`). -/
theorem C147_online_partial (out : Nat) (jobs : Nat → OnlineOffline.Job) (sched : List Nat) (post pre : List PEvent) (tid : Nat) (r : PVal)
    (h : ((start out jobs).run sched).trace = post ++ ⟨tid, .write out onlineSuccess, r⟩ :: pre) :
    ∃ c u, jobs tid = .login c (some u) ∧ (u ≠ "" → OnlineMeanwhile tid 0 u c pre) := by
  obtain ⟨c, u, h1, _, h3⟩ := ((run_known out jobs sched).1.2 post tid onlineSuccess r pre h).1 rfl
  exact ⟨c, u, h1, h3⟩

/-- C147 (partial): when the handler of a logout is over, its connection had no name, or nobody has been online under its name at some
time since the handler began.
Missing: as for `C147_online_partial`. -/
theorem C147_offline_partial (out : Nat) (jobs : Nat → OnlineOffline.Job) (sched : List Nat) (tid c : Nat) (hj : jobs tid = .logout c)
    (hd : ((start out jobs).run sched).threads tid = .ret ()) :
    let tr := ((start out jobs).run sched).trace
    ⟨tid, .getName c, .any none⟩ ∈ tr ∨ ∃ u, ⟨tid, .getName c, .any (some (.str u))⟩ ∈ tr ∧ OfflineMeanwhile tid 0 u tr := by
  obtain ⟨s, h1, h2⟩ := (run_known out jobs sched).2 tid
  rw [hd, tr_ret] at h1
  have hs : s.job = .logout c := h2.job.trans hj
  rcases h1 c hs with h | ⟨u, ha, hg⟩
  · exact .inl (h2.asked _ c hs h)
  · exact .inr ⟨u, h2.asked _ c hs ha, h2.gone u hg⟩

/-- C147 is violated: a login with an empty name is refused by `Online`, and the server prints `online success` all the same: it is all
the handler ever does. -/
theorem C147_empty_violated (out : Nat) (jobs : Nat → OnlineOffline.Job) (tid c : Nat) (hj : jobs tid = .login c (some "")) :
    ((start out jobs).run [tid]).trace = [⟨tid, .write out onlineSuccess, .bool true⟩] ∧
      ((start out jobs).run [tid]).threads tid = .ret () := by
  constructor <;>
    simp [PSys.run, PSys.step, start, OnlineOffline.Job.run, hj, online, ctxOnline, doUnit, World.act, Bind.bind, PProg.bind]

/-- C147 is violated: whenever `offline success` is printed, its handler has done nothing yet: the user is still online, or was not
online before. -/
theorem C147_early_violated (out : Nat) (jobs : Nat → OnlineOffline.Job) (sched : List Nat) (post pre : List PEvent) (tid : Nat) (r : PVal)
    (h : ((start out jobs).run sched).trace = post ++ ⟨tid, .write out offlineSuccess, r⟩ :: pre) :
    (∃ c, jobs tid = .logout c) ∧ ∀ e ∈ pre, e.tid ≠ tid :=
  ((run_known out jobs sched).1.2 post tid offlineSuccess r pre h).2 rfl

/-- Goroutine 0 logs amy in on connection 1, goroutine 1 logs connection 1 out, goroutine 2 logs connection 2 out, which never was in. -/
def Demo.inOut : Nat → OnlineOffline.Job
  | 0 => .login 1 (some "amy")
  | 1 => .logout 1
  | _ => .logout 2

-- amy logs in: the line is printed when amy is online
example : let y := (start 0 Demo.inOut).run [0, 0, 0]
    y.trace = [⟨0, .write 0 onlineSuccess, .bool true⟩, ⟨0, .put 0 "amy" 1, .unit⟩, ⟨0, .setName 1 (.str "amy"), .unit⟩] := by decide

-- amy logs out: the line is printed while amy is online, and then amy is taken out
example : let y := (start 0 Demo.inOut).run [0, 0, 0, 1]
    y.trace.head? = some ⟨1, .write 0 offlineSuccess, .bool true⟩ ∧ latestEntry 0 "amy" y.trace = some 1 := by decide
example : let y := (start 0 Demo.inOut).run [0, 0, 0, 1, 1, 1, 1]
    y.threads 1 = .ret () ∧ latestEntry 0 "amy" y.trace = none ∧ ⟨1, .getName 1, .any (some (.str "amy"))⟩ ∈ y.trace :=
  ⟨rfl, by decide, by decide⟩

-- a logout of a connection that never was in: the line is printed, and nothing happens
example : let y := (start 0 Demo.inOut).run [0, 0, 0, 2, 2]
    y.trace.take 2 = [⟨2, .getName 2, .any none⟩, ⟨2, .write 0 offlineSuccess, .bool true⟩] ∧
      latestEntry 0 "amy" y.trace = some 1 := by decide

end Tcpx
