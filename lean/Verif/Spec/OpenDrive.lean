import Verif.Model.OpenDrive

/-! Roads of OpenDRIVE files (ASAM OpenDRIVE 1.7, sections 7 and 9): the reference line, and where the lanes are. -/

set_option autoImplicit false

namespace Verif.Spec
open Verif.ODrive Real

/-- The heading of the reference line after the distance `s`. -/
def refHeading (g : Geometry) (s : ℝ) : ℝ := match g.shape with
  | .arc k => g.hdg + k * s
  | _ => g.hdg

/-- The point of the reference line after the distance `s`. -/
noncomputable def refPoint (g : Geometry) (s : ℝ) : ℝ × ℝ := match g.shape with
  | .arc k => (g.x + (sin (g.hdg + k * s) - sin g.hdg) / k, g.y + (cos g.hdg - cos (g.hdg + k * s)) / k)
  | _ => (g.x + s * cos g.hdg, g.y + s * sin g.hdg)

/-- The point at the distance `d` to the left of that point (to the right if `d` is negative). -/
noncomputable def besideRef (g : Geometry) (s d : ℝ) : ℝ × ℝ :=
  ((refPoint g s).1 - d * sin (refHeading g s), (refPoint g s).2 + d * cos (refHeading g s))

/-- How far the middle of a lane is from the reference line: lanes are numbered from the reference line outwards, so all lanes with
smaller numbers, and half of the lane itself, are in between. -/
noncomputable def laneOffset (side : List LaneEl) (e : LaneEl) : ℝ :=
  ((side.filter fun o => decide (|o.id| < |e.id|)).map LaneEl.a).sum + e.a / 2

/-- A geometry that has a shape that the parser knows. -/
def Known (g : Geometry) : Prop := 0 < g.length ∧ match g.shape with
  | .line => True
  | .arc k => k ≠ 0
  | .other => False

/-- The lanes of a side are narrower than the radius of the curve. -/
def Fits (g : Geometry) (side : List LaneEl) : Prop := ∀ k, g.shape = .arc k → (side.map LaneEl.a).sum < 1 / |k|

/-- The lanes of a side are listed from the reference line outwards, have no negative widths, and only lanes to drive or walk on. -/
def PlainSide (side : List LaneEl) : Prop :=
  side.Pairwise (fun a b => |a.id| < |b.id|) ∧ ∀ e ∈ side, 0 ≤ e.a ∧ (e.typ = "driving" ∨ e.typ = "sidewalk")

/-- The lanes of a side to drive on. -/
def driving (side : List LaneEl) : List LaneEl := side.filter fun e => decide (e.typ = "driving")

/-- The point of a segment with given longitudinal and lateral coordinates. -/
noncomputable def _root_.Verif.ODrive.Piece.position : Piece → ℝ → ℝ → ℝ × ℝ
  | .straight l _, s, r => l.position s r
  | .circular l _, s, r => l.position s r

/-- The length of a segment. -/
noncomputable def _root_.Verif.ODrive.Piece.length : Piece → ℝ
  | .straight l _ => l.length
  | .circular l _ => l.length

/-- The width of a segment. -/
def _root_.Verif.ODrive.Piece.width : Piece → ℝ
  | .straight _ w => w
  | .circular _ w => w

/-- The segment follows the geometry at the distance `d` to its left, and is `w` wide: at each fraction of its length it is beside the same
fraction of the reference line. -/
def Follows (g : Geometry) (d w : ℝ) (p : Piece) : Prop :=
  p.width = w ∧ 0 < p.length ∧ ∀ t r, p.position (t * p.length) r = besideRef g (t * g.length) (d + r)

/-- The second geometry begins where the first one ends, with the same heading. -/
def Joined (g g' : Geometry) : Prop :=
  (g'.x, g'.y) = refPoint g g.length ∧ ∃ n : ℤ, g'.hdg = refHeading g g.length + 2 * π * n

end Verif.Spec
