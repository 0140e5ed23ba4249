import Verif.Spec.Session
import Verif.Spec.Keepup
/-! # Specification vocabulary: nobody in the server is late (C143) -/
namespace Tcpx.Spec

/-- Nobody is more than `d` late: no watcher, no call of `RecvHeartBeat`, no goroutine of a connection, and no goroutine started for a
message that begins with `RecvHeartBeat`. -/
structure Punctual (cfg : SCfg) (d : Nat) (s : SState) : Prop where
  watch : PromptAll cfg.t d s.t
  calls : ∀ c, PromptCalls d c s.t
  loop : ∀ c, PromptLoop d c s
  begin : ∀ c, PromptStart d c s
  tail : ∀ c, PromptTail d c s

/-- A step of the server, or time passing: of watchers, goroutines of connections, handlers and calls; nothing that clients do, no new
connection, no `Stop`. -/
def ByServerS : SLabel → Prop
  | .base (.delay _) => True
  | .base (.act (.hb _ _)) => True
  | .base (.act (.bc _ _)) => True
  | .base (.act (.au _ _)) => True
  | .base (.act (.user _)) => True
  | .loop _ _ => True
  | _ => False

end Tcpx.Spec
