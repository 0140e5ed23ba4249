import Verif.Model.Where
/-!
# What a message about a refused registration must show
-/
namespace Tcpx.Spec
open Tcpx.Where

/-- The places of the `Use` of `k` that returned, oldest first. -/
def usePlaces (k : String) (ds : List Done) : List String :=
  ds.filterMap fun d => match d with
    | ⟨p, .use k' _, .returned⟩ => if k' = k then some p else none
    | _ => none

/-- The places of the `UnUse` of `k` that returned, oldest first. -/
def unUsePlaces (k : String) (ds : List Done) : List String :=
  ds.filterMap fun d => match d with
    | ⟨p, .unUse k', .returned⟩ => if k' = k then some p else none
    | _ => none

/-- The text ends in the lines `us` under a heading and the lines `uns` under another. -/
def Shows (text : String) (us uns : List String) : Prop :=
  ∃ before head1 head2, text = before ++ "\n" ++ "\n".intercalate (head1 :: us ++ head2 :: uns)

/-- The places of the `AddURLPatternHandler` of `p` that returned, oldest first. -/
def addPlaces (p : String) (ds : List UrlDone) : List String :=
  ds.filterMap fun d => match d with
    | ⟨pl, .add p' _, .returned⟩ => if p' = p then some pl else none
    | _ => none

/-- The handlers given for `p` by the `AddURLPatternHandler` that returned, in order. -/
def addedHandlers (p : String) (ds : List UrlDone) : List H :=
  (ds.filterMap fun d => match d with
    | ⟨_, .add p' hs, .returned⟩ => if p' = p then some hs else none
    | _ => none).flatten

end Tcpx.Spec
