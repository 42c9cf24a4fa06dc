import Verif.Model.RangeError

/-! Positions from a distance and two angles. -/

set_option autoImplicit false

namespace Verif.Spec
open Real

/-- The position at the distance `r`, with the azimuth `theta` and the elevation `psi`. -/
noncomputable def sphere (r theta psi : ℝ) : ℝ × ℝ × ℝ := (r * cos psi * cos theta, r * cos psi * sin theta, r * sin psi)

/-- A coordinate of a position. -/
def coordinate : RangeErr.Axis → ℝ × ℝ × ℝ → ℝ
  | .x, p => p.1
  | .y, p => p.2.1
  | .z, p => p.2.2

/-- A sensor with errors of at most `epsR` in the distance and `eps` in the angles may see the position with distance `r`, azimuth `theta` and
elevation `psi` at `q`. -/
def MaySee (epsR eps r theta psi : ℝ) (q : ℝ × ℝ × ℝ) : Prop :=
  ∃ r' theta' psi', |r' - r| ≤ epsR ∧ |theta' - theta| ≤ eps ∧ |psi' - psi| ≤ eps ∧ q = sphere r' theta' psi'

end Verif.Spec
