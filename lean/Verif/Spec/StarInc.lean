import Verif.Model.StarInc
import Verif.Spec.StarSolver

/-! What the option `incremental` should not change (C116). -/

set_option autoImplicit false

namespace Verif.StarInc.Spec
open Verif.Stars

variable {K : Type} [Field K] [LinearOrder K]

/-- The tube contains, at its time number `k`, every state that is reached from a state of one of the stars. -/
def CoversAll (inits : List (StarSet K)) (flow : Nat → (Nat → K) → (Nat → K)) (tube : List (K × StarSet K)) : Prop :=
  ∀ s ∈ inits, ∀ x, InStar s x → ∀ k e, tube[k]? = some e → InStar e.2 (flow k x)

/-- The computation of a tube from one star contains every state that is reached from it. -/
def SoundFrom (reach : StarSet K → Except String (List (K × StarSet K))) (flow : Nat → (Nat → K) → (Nat → K)) : Prop :=
  ∀ s tube, reach s = .ok tube → ∀ x, InStar s x → ∀ k e, tube[k]? = some e → InStar e.2 (flow k x)

/-- The star that is computed for several stars contains all of them. -/
def SoundUnion (combine : List (StarSet K) → Except String (StarSet K)) (inits : List (StarSet K)) : Prop :=
  ∀ c, combine inits = .ok c → ∀ s ∈ inits, ∀ x, InStar s x → InStar c x

end Verif.StarInc.Spec
