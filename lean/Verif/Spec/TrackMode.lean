/-!
The track and the agent mode in the discrete part of a state: `types` are the types of the discrete variables, `mode` their values.
-/

set_option autoImplicit false

namespace Verif.Spec

variable {V : Type}

/-- Variable number `t` is the first one of type `TrackMode`. -/
def TrackAt (types : List String) (t : Nat) : Prop := types[t]? = some "TrackMode" ∧ ∀ j < t, types[j]? ≠ some "TrackMode"

/-- The track of the agent: the value of the first variable of type `TrackMode`, if there is one. -/
inductive TrackOf (types : List String) (mode : List V) : Option V → Prop
  | none : "TrackMode" ∉ types → TrackOf types mode .none
  | some (t : Nat) (v : V) : TrackAt types t → mode[t]? = .some v → TrackOf types mode (.some v)

/-- The mode of the agent: all discrete variables if none is a track; otherwise the first one that is not the track. -/
inductive ModeOf (types : List String) (mode : List V) : List V → Prop
  | all : "TrackMode" ∉ types → ModeOf types mode mode
  | first (t i : Nat) (v : V) : TrackAt types t → i < types.length → i ≠ t → (∀ j < i, j = t) → mode[i]? = some v → ModeOf types mode [v]
  | only (t : Nat) : TrackAt types t → (∀ j < types.length, j = t) → ModeOf types mode []

end Verif.Spec
