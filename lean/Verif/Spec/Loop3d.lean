import Verif.Spec.Lane3d
import Mathlib.Analysis.Calculus.Deriv.Basic

/-!
Curves in space. Only the type of points of the model is used.
-/

set_option autoImplicit false

namespace Verif.Spec.Lane3d

open Verif.Lane3d (V3)

/-- The curve `f` has the velocity `d` at `t`. -/
def Velocity (f : ℝ → V3) (t : ℝ) (d : V3) : Prop :=
  HasDerivAt (fun s => (f s).x) d.x t ∧ HasDerivAt (fun s => (f s).y) d.y t ∧ HasDerivAt (fun s => (f s).z) d.z t

/-- The curve `g` carries on, without a gap and without a corner, where the curve `f` of the length `L` ends. -/
def Smooth (f : ℝ → V3) (L : ℝ) (g : ℝ → V3) : Prop := f L = g 0 ∧ ∃ d, IsUnit3 d ∧ Velocity f L d ∧ Velocity g 0 d

/-- The curve `f` runs on the circle around `o` in the plane orthogonal to the unit vector `n`, counterclockwise as seen from the tip of `n`, at unit speed. -/
def Circles (f : ℝ → V3) (o n : V3) (R : ℝ) : Prop := (∀ t, OnCircle o n R (f t)) ∧ ∀ t x, Turned o n (x / R) (f t) (f (t + x))

/-- The curve `f` runs straight at unit speed. -/
def Runs (f : ℝ → V3) : Prop := ∃ d, IsUnit3 d ∧ ∀ t, f t = ⟨(f 0).x + t * d.x, (f 0).y + t * d.y, (f 0).z + t * d.z⟩

end Verif.Spec.Lane3d
