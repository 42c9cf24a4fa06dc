import Verif.Model.Map3d

/-!
`verse/map/example_map/simple_map_3d.py`: the closed loops of `SimpleMap3` to `SimpleMap6`, and the tangents of circular lanes on which they rest.

Simplifications
* As in `Verif.Model.Lane3d`; widths are left out.
-/

set_option autoImplicit false

namespace Verif.Lane3d

/-- `CircularLane_3d_v1.get_tang`, lane_segment_3d.py:389-391. -/
noncomputable def Circular.tang (c : Circular) (longitudinal : ℝ) : V3 := c.n.cross ((c.outer longitudinal).sub c.center)

/-- `CircularLane_3d_v1.get_start_end_tang`, lane_segment_3d.py:393-399. -/
noncomputable def Circular.startEndTang (c : Circular) : V3 × V3 × V3 × V3 :=
  let start := c.outer 0
  let startTang := c.n.cross (start.sub c.center)
  let fin := c.outer c.length
  let endTang := c.n.cross (fin.sub c.center)
  (start, startTang, fin, endTang)

/-- `get_end`, simple_map_3d.py:260-262. -/
noncomputable def getEnd (start n : V3) (lens : ℝ) : V3 := start.add ((n.div n.norm).smul lens)

/-- The four segments of a loop. -/
structure Loop where
  seg0 : Circular
  seg1 : Straight
  seg2 : Straight
  seg3 : Circular

/-- The construction of a loop, simple_map_3d.py:59-68 (`SimpleMap3`), 76-87 and 90-98 (`SimpleMap4`), 107-119 and 122-130 (`SimpleMap5`),
139-151, 154-162 and 165-173 (`SimpleMap6`); `none` for an exception. -/
noncomputable def Loop.new (rnd : Nat → ℝ → ℝ) (center : V3) (radius : ℝ) (n : V3) (lens : ℝ) : Option Loop :=
  (Circular.new center radius n 0 (1.5 * Real.pi) true).bind fun seg0 =>
    let t := seg0.startEndTang
    let end1 := getEnd t.1 t.2.1.neg lens
    let seg1 := Straight.new end1 t.1
    let end2 := getEnd t.2.2.1 t.2.2.2 lens
    let seg2 := Straight.new t.2.2.1 end2
    (Circular.fromEnds rnd end2 end1 n.neg (1.5 * Real.pi) true).map fun seg3 => ⟨seg0, seg1, seg2, seg3⟩

/-- The list of segments of the lane, simple_map_3d.py:69, 88, 99, 120, 131, 152, 163, 174. -/
def Loop.lane (l : Loop) : List Segment := [.circular l.seg0, .straight l.seg1, .straight l.seg2, .circular l.seg3]

/-- `Lane_3d._set_longitudinal_start`, lane_3d.py:18-22: the longitudinal coordinates at which the segments start. -/
def longitudinalStarts : List Segment → ℝ → List ℝ
  | [], _ => []
  | s :: ss, l => l :: longitudinalStarts ss (l + s.length)

end Verif.Lane3d
