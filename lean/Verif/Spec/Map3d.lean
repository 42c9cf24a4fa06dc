import Verif.Spec.Lane3d
import Verif.Model.Map3d

/-!
Lanes of straight segments, waypoints, neighbours. Only types of the model are used.
-/

set_option autoImplicit false

namespace Verif.Spec.Lane3d

open Verif.Lane3d (V3 Side)

/-- The place `l` on the line from `a` to `b` is the one nearest to `p`. -/
def Foot (a b p : V3) (l : ℝ) : Prop := ∀ t, dist p (along a b l) ≤ dist p (along a b t)

/-- `p` projects onto the segment from `a` to `b` at the place `l`; one unit before the start counts as well. -/
def Onto (a b p : V3) (l : ℝ) : Prop := Foot a b p l ∧ -1 ≤ l ∧ l < dist a b

/-- Consecutive waypoints join. -/
def Chained : List (V3 × V3) → Prop
  | [] => True
  | [_] => True
  | u :: w :: rest => u.2 = w.1 ∧ Chained (w :: rest)

/-- The relation seen from the other lane. -/
def opposite : Side → Side
  | .left => .right
  | .right => .left
  | .up => .down
  | .down => .up

end Verif.Spec.Lane3d
