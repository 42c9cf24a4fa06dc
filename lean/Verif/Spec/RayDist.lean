import Mathlib.Analysis.SpecialFunctions.Sqrt

/-!
Geometry for C105.
-/

set_option autoImplicit false

namespace Verif.Ray.Spec

/-- The point `t` steps along `w` from `p`. -/
def along (p w : ℝ × ℝ) (t : ℝ) : ℝ × ℝ := (p.1 + t * w.1, p.2 + t * w.2)

/-- The Euclidean distance. -/
noncomputable def dist2 (p q : ℝ × ℝ) : ℝ := Real.sqrt ((p.1 - q.1) ^ 2 + (p.2 - q.2) ^ 2)

/-- The rectangle with the corner `a` and its neighbours `b` and `d`. -/
def InRect (a b d p : ℝ × ℝ) : Prop :=
  ∃ s t : ℝ, 0 ≤ s ∧ s ≤ 1 ∧ 0 ≤ t ∧ t ≤ 1 ∧ p = (a.1 + s * (b.1 - a.1) + t * (d.1 - a.1), a.2 + s * (b.2 - a.2) + t * (d.2 - a.2))

/-- The corners are those of a rectangle: the sides at `a` have positive lengths and are perpendicular. -/
def IsRect (a b d : ℝ × ℝ) : Prop := b ≠ a ∧ d ≠ a ∧ (b.1 - a.1) * (d.1 - a.1) + (b.2 - a.2) * (d.2 - a.2) = 0

/-- The disk. -/
def InDisk (center : ℝ × ℝ) (radius : ℝ) (p : ℝ × ℝ) : Prop := dist2 p center ≤ radius

/-- The interior of the ellipse whose main axis has the direction `(c, s)`. -/
def InEllipse (center : ℝ × ℝ) (length width c s : ℝ) (p : ℝ × ℝ) : Prop :=
  ∃ x y : ℝ, (x / length) ^ 2 + (y / width) ^ 2 < 1 ∧ p = (center.1 + x * c - y * s, center.2 + x * s + y * c)

end Verif.Ray.Spec
