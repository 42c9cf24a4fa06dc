import Verif.Spec.StarSolver
import Verif.Spec.Plot
import Mathlib.Data.Real.Basic

/-! What a picture of a star set should show (C110). -/

set_option autoImplicit false

namespace Verif.StarPlot.Spec
open Verif.Stars

/-- `p` is the shadow of a point of the star set in the dimensions `a` and `b`. -/
def Shadow (s : StarSet ℝ) (a b : Nat) (p : ℝ × ℝ) : Prop := ∃ x : Nat → ℝ, InStar s x ∧ p = (x a, x b)

/-- The shadow is at most `D` across. -/
def Across (s : StarSet ℝ) (a b : Nat) (D : ℝ) : Prop :=
  0 ≤ D ∧ ∀ p q : ℝ × ℝ, Shadow s a b p → Shadow s a b q → (p.1 - q.1) ^ 2 + (p.2 - q.2) ^ 2 ≤ D ^ 2

/-- `p` is in the region around which the corners lie, or not further than `ε` from it. -/
def Near (vs : List (ℝ × ℝ)) (ε : ℝ) (p : ℝ × ℝ) : Prop := ∃ q ∈ Plot.Spec.hull vs, (p.1 - q.1) ^ 2 + (p.2 - q.2) ^ 2 ≤ ε ^ 2

end Verif.StarPlot.Spec
