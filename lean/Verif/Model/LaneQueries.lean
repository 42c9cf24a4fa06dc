import Verif.Model.Lane

/-!
verse/map/lane_segment.py 93-153: the questions one can ask a lane. Numbers are real numbers.
-/

set_option autoImplicit false

namespace Verif.LaneQ
open Verif.Lane

/-- What the methods use of a lane: `local_coordinates`, `length`, `width_at`, `heading_at`, `forbidden`. -/
structure View where
  coords : ℝ × ℝ → ℝ × ℝ
  length : ℝ
  widthAt : ℝ → ℝ
  headingAt : ℝ → ℝ
  forbidden : Bool

/-- `VEHICLE_LENGTH`, lane_segment.py 24. -/
def vehicleLength : ℝ := 5

/-- A `StraightLane`, lane_segment.py 156-209. -/
noncomputable def ofStraight (start fin : ℝ × ℝ) (width : ℝ) (forbidden : Bool) : View where
  coords := (Straight.new start fin).coords
  length := (Straight.new start fin).length
  widthAt := fun _ => width
  headingAt := fun _ => arctan2 (fin.2 - start.2) (fin.1 - start.1)
  forbidden := forbidden

/-- A `CircularLane`, lane_segment.py 232-287. -/
noncomputable def ofCircular (l : Circular) (width : ℝ) (forbidden : Bool) : View where
  coords := l.coords
  length := l.length
  widthAt := fun _ => width
  headingAt := l.headingAt
  forbidden := forbidden

open Classical in
/-- `on_lane`, lane_segment.py 93-115. -/
noncomputable def onLane (v : View) (p : ℝ × ℝ) (longitudinal lateral : Option ℝ) (margin : ℝ) : Bool :=
  let c := match longitudinal, lateral with
    | some s, some r => (s, r)
    | _, _ => v.coords p
  decide (|c.2| ≤ v.widthAt c.1 / 2 + margin ∧ -vehicleLength ≤ c.1 ∧ c.1 < v.length + vehicleLength)

open Classical in
/-- `is_reachable_from`, lane_segment.py 117-131. -/
noncomputable def isReachableFrom (v : View) (p : ℝ × ℝ) : Bool :=
  if v.forbidden then false
  else
    let c := v.coords p
    decide (|c.2| ≤ 2 * v.widthAt c.1 ∧ 0 ≤ c.1 ∧ c.1 < v.length + vehicleLength)

open Classical in
/-- `after_end`, lane_segment.py 133-138: `not longitudinal` holds for `None` and for 0. -/
noncomputable def afterEnd (v : View) (p : ℝ × ℝ) (longitudinal : Option ℝ) : Bool :=
  let s := match longitudinal with
    | none => (v.coords p).1
    | some s => if s = 0 then (v.coords p).1 else s
  decide (v.length - vehicleLength / 2 < s)

/-- `distance`, lane_segment.py 140-143. -/
noncomputable def distance (v : View) (p : ℝ × ℝ) : ℝ :=
  let c := v.coords p
  |c.2| + max (c.1 - v.length) 0 + max (0 - c.1) 0

/-- `distance_with_heading`, lane_segment.py 145-153. -/
noncomputable def distanceWithHeading (v : View) (p : ℝ × ℝ) (heading : Option ℝ) (weight : ℝ) : ℝ :=
  match heading with
  | none => distance v p
  | some h =>
    let c := v.coords p
    let angle := |wrapToPi (h - v.headingAt c.1)|
    |c.2| + max (c.1 - v.length) 0 + max (0 - c.1) 0 + weight * angle

end Verif.LaneQ
