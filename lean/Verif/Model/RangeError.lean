import Verif.Model.Angular
import Verif.Model.Lane

/-!
verse/analysis/parsed_wrap/bounded_angular.py 25-149: the error of a coordinate that is computed from a sensed distance and two sensed angles.
Numbers are real numbers; `differential_evolution` is a parameter.
-/

set_option autoImplicit false

namespace Verif.RangeErr
open Verif.Ang Verif.Lane Real

/-- `axis`; another string raises. -/
inductive Axis where
  | x
  | y
  | z
  deriving DecidableEq

/-- The candidates for `psi`, bounded_angular.py 30-43. -/
noncomputable def psiCandidates (psi eps : ℝ) (axis : Axis) : List ℝ :=
  let lo := wrapAngle π (psi - eps)
  let hi := wrapAngle π (psi + eps)
  match axis with
  | .z => [lo, hi] ++ (if inWrapped π (π / 2) lo hi then [π / 2] else []) ++ (if inWrapped π (-π / 2) lo hi then [-π / 2] else [])
  | _ => [lo, hi] ++ (if inWrapped π 0 lo hi then [0] else []) ++ (if inWrapped π π lo hi then [π] else [])

/-- The candidates for `theta`, bounded_angular.py 45-60. -/
noncomputable def thetaCandidates (theta eps : ℝ) (axis : Axis) : List ℝ :=
  let lo := wrapAngle π (theta - eps)
  let hi := wrapAngle π (theta + eps)
  match axis with
  | .z => [0]
  | .y => [lo, hi] ++ (if inWrapped π (π / 2) lo hi then [π / 2] else []) ++ (if inWrapped π (-π / 2) lo hi then [-π / 2] else [])
  | .x => [lo, hi] ++ (if inWrapped π (π / 2) lo hi then [π / 2] else []) ++ (if inWrapped π (-π / 2) lo hi then [-π / 2] else []) ++
      (if inWrapped π 0 lo hi then [0] else []) ++ (if inWrapped π π lo hi then [π] else [])

/-- The projection on an axis, bounded_angular.py 70-75 and 92-97. -/
noncomputable def proj (axis : Axis) (psi theta : ℝ) : ℝ :=
  match axis with
  | .x => cos psi * cos theta
  | .y => cos psi * sin theta
  | .z => sin psi

/-- `projection_bounds_general`, bounded_angular.py 25-80. -/
noncomputable def projections (theta psi eps : ℝ) (axis : Axis) : List ℝ :=
  (psiCandidates psi eps axis).flatMap fun psi => (thetaCandidates theta eps axis).map fun theta => proj axis psi theta

/-- `rho`, bounded_angular.py 84. -/
noncomputable def rhoOf (p : ℝ × ℝ × ℝ) : ℝ := Real.sqrt (p.1 ^ 2 + p.2.1 ^ 2 + p.2.2 ^ 2)

/-- `theta`, bounded_angular.py 85. -/
noncomputable def thetaOf (p : ℝ × ℝ × ℝ) : ℝ := arctan2 p.2.1 p.1

/-- `psi`, bounded_angular.py 86. -/
noncomputable def psiOf (p : ℝ × ℝ × ℝ) : ℝ := arctan2 p.2.2 (Real.sqrt (p.1 ^ 2 + p.2.1 ^ 2))

/-- `point_error_general`, bounded_angular.py 82-113: the largest and the least error. -/
noncomputable def pointError (p : ℝ × ℝ × ℝ) (epsR epsTheta : ℝ) (axis : Axis) : ℝ × ℝ :=
  let rho := rhoOf p
  let pTrue := proj axis (psiOf p) (thetaOf p)
  let ps := projections (thetaOf p) (psiOf p) epsTheta axis
  let sensedMax := maxList (ps.map fun q => if 0 ≤ q then (rho + epsR) * q else (rho - epsR) * q)
  let sensedMin := minList (ps.map fun q => if 0 ≤ q then (rho - epsR) * q else (rho + epsR) * q)
  (sensedMax - rho * pTrue, sensedMin - rho * pTrue)

/-- A box: the bounds of the three coordinates. -/
abbrev Box3 := (ℝ × ℝ) × (ℝ × ℝ) × (ℝ × ℝ)

/-- `box_extreme_error`, bounded_angular.py 127-149; `opt` is the value that `differential_evolution` finds for a function over a box. -/
noncomputable def boxError (opt : (ℝ × ℝ × ℝ → ℝ) → Box3 → ℝ) (bounds : Box3) (epsR epsTheta : ℝ) (axis : Axis) : ℝ × ℝ :=
  (-(opt (fun p => -(pointError p epsR epsTheta axis).1) bounds), opt (fun p => (pointError p epsR epsTheta axis).2) bounds)

end Verif.RangeErr
