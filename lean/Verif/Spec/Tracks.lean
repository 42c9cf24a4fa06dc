import Verif.Model.Tracks

/-!
What the lanes of an agent should be, from the history of calls alone.
-/

set_option autoImplicit false

namespace Verif.Tracks.Spec
open Verif.Tracks

/-- The lanes of the last map that was set. -/
def lastMap : List Call → List String
  | [] => []
  | .setMap lanes :: cs => if cs.any (fun c => c matches .setMap _) then lastMap cs else lanes
  | _ :: cs => lastMap cs

/-- `pre` are the calls before agent `id` was last added, with its own track modes `own`, and `post` the calls after. -/
def AddedAt (cs : List Call) (id : String) (own : Option (List String)) (pre post : List Call) : Prop :=
  cs = pre ++ .addAgent id own :: post ∧ ∀ m, .addAgent id m ∉ post

end Verif.Tracks.Spec
