import Verif.Spec.Timed
import Verif.Spec.Watch
/-! # Counting heartbeats received -/
namespace Tcpx.Spec

/-- How often the watcher of `c` received a heartbeat. -/
def takenBeats (c : Nat) : List WatchEv → Nat
  | [] => 0
  | .beatTaken c' :: tr => takenBeats c tr + (if c' = c then 1 else 0)
  | _ :: tr => takenBeats c tr

end Tcpx.Spec
