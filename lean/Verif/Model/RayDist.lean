import Verif.Model.Basic
import Mathlib.Analysis.SpecialFunctions.Sqrt
import Mathlib.Data.EReal.Operations

/-!
verse/utils/utils.py 363-413: distances from a point to a circle and to a rectangle along a ray or a segment; and 94-110.

Simplifications: floating-point numbers are real numbers, infinities, or "no number"; there is one zero (without sign); points are pairs.
-/

set_option autoImplicit false

namespace Verif.Ray

/-- Points and vectors of the plane. -/
abbrev V2 := ℝ × ℝ

/-- `v @ w` -/
def dot (v w : V2) : ℝ := v.1 * w.1 + v.2 * w.2

/-- `np.linalg.norm(v)` -/
noncomputable def norm2 (v : V2) : ℝ := Real.sqrt (v.1 ^ 2 + v.2 ^ 2)

/-- `solve_trinom`, utils.py 408-413. (The division by 0 for `a = 0` is not modelled.) -/
noncomputable def solveTrinom (a b c : ℝ) : Option (ℝ × ℝ) :=
  let delta := b ^ 2 - 4 * a * c
  if 0 ≤ delta then some ((-b - Real.sqrt delta) / (2 * a), (-b + Real.sqrt delta) / (2 * a)) else none

/-- `distance_to_circle`, utils.py 363-375; `none` is infinity. `x and x > 0` is `x ≠ 0 ∧ x > 0`. -/
noncomputable def distanceToCircle (center : V2) (radius : ℝ) (direction : V2) : Option ℝ :=
  let a := norm2 (direction.1 / radius, direction.2 / radius) ^ 2
  let b := -2 * dot center (direction.1 / radius ^ 2, direction.2 / radius ^ 2)
  let c := norm2 (center.1 / radius, center.2 / radius) ^ 2 - 1
  match solveTrinom a b c with
  | some (inf, sup) =>
    if inf ≠ 0 ∧ 0 < inf then some inf
    else if sup ≠ 0 ∧ 0 < sup then some 0
    else none
  | none => none

/-- Numbers of numpy: `none` is nan. -/
abbrev Fl := Option EReal

/-- `x / y` -/
noncomputable def fdiv (x y : ℝ) : Fl :=
  if y = 0 then if x = 0 then none else if 0 < x then some ⊤ else some ⊥ else some ((x / y : ℝ) : EReal)

open Classical in
/-- `x - y` -/
noncomputable def fsub (x y : Fl) : Fl :=
  match x, y with
  | some a, some b => if (a = ⊤ ∧ b = ⊤) ∨ (a = ⊥ ∧ b = ⊥) then none else some (a - b)
  | _, _ => none

/-- `x < y` -/
def FLt (x y : Fl) : Prop := ∃ a b, x = some a ∧ y = some b ∧ a < b

/-- `x <= 0` -/
def FNonpos (x : Fl) : Prop := ∃ a, x = some a ∧ a ≤ 0

open Classical in
/-- `interval_distance`, utils.py 186-191, on numbers of numpy. -/
noncomputable def fIntervalDistance (minA maxA minB maxB : Fl) : Fl := if FLt minA minB then fsub minB maxA else fsub minA maxB

open Classical in
/-- `max(x, y)`: `y` if it is larger. -/
noncomputable def fmax (x y : Fl) : Fl := if FLt x y then y else x

/-- What `distance_to_rect` returns: infinity, or the larger number times the length of the segment. -/
inductive Dist where
  | inf
  | scaled (x : Fl) (len : ℝ)

/-- The interval of one side in `distance_to_rect`, utils.py 389-396: `interval_1` for the side from `a` to `b`, `interval_2` for the side from `a` to `d`. -/
noncomputable def sideInterval (r q a b : V2) : Fl × Fl :=
  let u : V2 := ((b - a).1 / norm2 (b - a), (b - a).2 / norm2 (b - a))
  let rqu := dot (q - r) u
  let i := (fdiv (dot (a - r) u) rqu, fdiv (dot (b - r) u) rqu)
  if 0 ≤ rqu then i else (i.2, i.1)

open Classical in
/-- `distance_to_rect`, utils.py 378-405. -/
noncomputable def distanceToRect (r q a b d : V2) : Dist :=
  let i1 := sideInterval r q a b
  let i2 := sideInterval r q a d
  if FNonpos (fIntervalDistance i1.1 i1.2 i2.1 i2.2) ∧ FNonpos (fIntervalDistance (some 0) (some 1) i1.1 i1.2) ∧
      FNonpos (fIntervalDistance (some 0) (some 1) i2.1 i2.2) then .scaled (fmax i1.1 i2.1) (norm2 (q - r))
  else .inf

/-- `point_in_ellipse`, utils.py 94-110; `c` and `s` are cosine and sine of the angle. -/
noncomputable def pointInEllipse (p center : V2) (length width c s : ℝ) : Prop :=
  let ru := c * (p.1 - center.1) - s * (p.2 - center.2)
  let rv := s * (p.1 - center.1) + c * (p.2 - center.2)
  (ru / length) ^ 2 + (rv / width) ^ 2 < 1

end Verif.Ray
