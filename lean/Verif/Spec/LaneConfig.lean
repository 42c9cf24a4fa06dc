import Verif.Model.LaneConfig

/-!
What a lane's configuration is for: a lane that was built by its constructor, and later put somewhere along a road, can be described by plain data and built
again from that description.
-/

set_option autoImplicit false

namespace Verif.Spec.LaneConfig
open Verif Verif.LaneConfig

/-- `l` was built by the constructor of its class from some arguments; since then only its place along a road (`longitudinal_start`) may have been set. -/
def Built (rnd : Nat → ℝ → ℝ) (l : Obj) : Prop :=
  ∃ (kw : Dict String CV) (l0 : Obj) (x : ℝ), construct rnd l.cls kw = .ok l0 ∧ l = { l0 with common := { l0.common with longStart := x } }

/-- The same lane, not yet placed along a road. -/
def unplaced (l : Obj) : Obj := { l with common := { l.common with longStart := 0 } }

/-- Plain data: no arrays. -/
def Plain (v : CV) : Prop := ∀ a : List ℝ, v ≠ .array a

end Verif.Spec.LaneConfig
