import Verif.Spec.Timed
/-! # Specification vocabulary: watchers that keep up -/
namespace Tcpx.Spec

/-- No watcher of any connection is more than `d` late. -/
def PromptAll (cfg : TCfg) (d : Nat) (s : TState) : Prop := ∀ c, PromptBeat cfg d c s ∧ PromptAuth cfg d c s ∧ PromptEnd d c s

/-- A step of a watcher, or time passing: nothing anybody else has to do. -/
def ByWatchers : TLabel → Prop
  | .delay _ => True
  | .act (.hb _ _) => True
  | .act (.bc _ _) => True
  | .act (.au _ _) => True
  | _ => False

end Tcpx.Spec
