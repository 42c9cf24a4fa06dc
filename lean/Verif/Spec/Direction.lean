import Mathlib.Analysis.SpecialFunctions.Trigonometric.Basic

/-! Specification of directions in the plane. -/

set_option autoImplicit false

namespace Verif.Spec

/-- `θ` in `(-π, π]` is the direction of the vector `(x, y)`, which is not zero. -/
def IsDirection (x y θ : ℝ) : Prop := ∃ r : ℝ, 0 < r ∧ x = r * Real.cos θ ∧ y = r * Real.sin θ ∧ -Real.pi < θ ∧ θ ≤ Real.pi

end Verif.Spec
