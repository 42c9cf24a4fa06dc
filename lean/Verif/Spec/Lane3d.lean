import Verif.Model.Lane3d

/-!
Points, lines and circles in space. Only the type of points of the model is used.
-/

set_option autoImplicit false

namespace Verif.Spec.Lane3d

open Verif.Lane3d (V3)

/-- The distance of two points. -/
noncomputable def dist (p q : V3) : ℝ := Real.sqrt ((p.x - q.x) ^ 2 + (p.y - q.y) ^ 2 + (p.z - q.z) ^ 2)

/-- The point that is reached from `s` by going `t` in the direction from `s` to `e`. -/
noncomputable def along (s e : V3) (t : ℝ) : V3 :=
  ⟨s.x + t * ((e.x - s.x) / dist e s), s.y + t * ((e.y - s.y) / dist e s), s.z + t * ((e.z - s.z) / dist e s)⟩

/-- The scalar product. -/
def inner (u v : V3) : ℝ := u.x * v.x + u.y * v.y + u.z * v.z

def IsUnit3 (n : V3) : Prop := inner n n = 1

/-- The vector from `c` to `p`. -/
def vec (c p : V3) : V3 := ⟨p.x - c.x, p.y - c.y, p.z - c.z⟩

/-- The circle around `c` with radius `r` in the plane orthogonal to `n`. -/
def OnCircle (c n : V3) (r : ℝ) (q : V3) : Prop := inner (vec c q) n = 0 ∧ dist q c = r

/-- The point `p` is on the axis of the circles around `c` that are orthogonal to `n`. -/
def OnAxis (c n p : V3) : Prop := ∃ t : ℝ, p = ⟨c.x + t * n.x, c.y + t * n.y, c.z + t * n.z⟩

/-- `q` is `p` turned around the axis through `c` with direction `n` (a unit vector, orthogonal to the vector from `c` to `p`) by the angle `t`,
counterclockwise as seen from the tip of `n`. -/
def Turned (c n : V3) (t : ℝ) (p q : V3) : Prop :=
  q.x = c.x + Real.cos t * (p.x - c.x) + Real.sin t * (n.y * (p.z - c.z) - n.z * (p.y - c.y)) ∧
  q.y = c.y + Real.cos t * (p.y - c.y) + Real.sin t * (n.z * (p.x - c.x) - n.x * (p.z - c.z)) ∧
  q.z = c.z + Real.cos t * (p.z - c.z) + Real.sin t * (n.x * (p.y - c.y) - n.y * (p.x - c.x))

/-- `round`: to a nearest number with `d` digits after the point. -/
structure Rounding (rnd : Nat → ℝ → ℝ) : Prop where
  near : ∀ d x, |rnd d x - x| ≤ (1 / 10) ^ d / 2
  grid : ∀ d x, ∃ k : ℤ, rnd d x = k * (1 / 10) ^ d

/-- The unit vector in the direction of `v`. -/
noncomputable def unit (v : V3) : V3 :=
  ⟨v.x / Real.sqrt (inner v v), v.y / Real.sqrt (inner v v), v.z / Real.sqrt (inner v v)⟩

end Verif.Spec.Lane3d
