import Mathlib.Analysis.SpecialFunctions.Trigonometric.Arctan
import Mathlib.Data.Real.Sqrt

/-!
`verse/map/lane_segment_3d.py` and `verse/map/lane_3d.py`: lanes in three dimensions.

Simplifications
* Floats are real numbers; `round(x, d)` is a parameter `rnd d x`.
* A division by zero, which gives `nan` or `inf` in numpy, gives zero here; the theorems exclude it.
* Widths, types of lines, priorities and plotting are left out.
-/

set_option autoImplicit false

namespace Verif.Lane3d

/-- Arrays of length three. -/
@[ext]
structure V3 where
  x : ℝ
  y : ℝ
  z : ℝ

namespace V3

def add (u v : V3) : V3 := ⟨u.x + v.x, u.y + v.y, u.z + v.z⟩
def sub (u v : V3) : V3 := ⟨u.x - v.x, u.y - v.y, u.z - v.z⟩
def smul (k : ℝ) (v : V3) : V3 := ⟨k * v.x, k * v.y, k * v.z⟩
/-- `v / k` -/
noncomputable def div (v : V3) (k : ℝ) : V3 := ⟨v.x / k, v.y / k, v.z / k⟩
def neg (v : V3) : V3 := ⟨-v.x, -v.y, -v.z⟩
/-- `np.dot` -/
def dot (u v : V3) : ℝ := u.x * v.x + u.y * v.y + u.z * v.z
/-- `np.cross` -/
def cross (u v : V3) : V3 := ⟨u.y * v.z - u.z * v.y, u.z * v.x - u.x * v.z, u.x * v.y - u.y * v.x⟩
/-- `np.linalg.norm` -/
noncomputable def norm (v : V3) : ℝ := Real.sqrt (v.x ^ 2 + v.y ^ 2 + v.z ^ 2)

end V3

/-- `l1`, the length of the horizontal part: lane_segment_3d.py:529, 566. -/
noncomputable def horiz (n : V3) : ℝ := Real.sqrt (n.x ^ 2 + n.y ^ 2)

/-- The vectors `a` and `b` of `get_coor_by_rt`, lane_segment_3d.py:529-544; `l2` is given because `get_theta_by_coor` takes 1 (568). -/
noncomputable def frame (n : V3) (l2 : ℝ) (right : Bool) : V3 × V3 :=
  let l1 := horiz n
  if l1 ≠ 0 then
    let b : V3 := ⟨n.x * n.z / l1 / l2, n.y * n.z / l1 / l2, -l1 / l2⟩
    (⟨n.y / l1, -n.x / l1, 0⟩, if right then b else b.neg)
  else
    let b : V3 := if n.z < 0 then ⟨0, -1, 0⟩ else ⟨0, 1, 0⟩
    (⟨1, 0, 0⟩, if right then b else b.neg)

/-- `get_coor_by_rt`, lane_segment_3d.py:528-546. -/
noncomputable def coorByRt (r theta : ℝ) (n center : V3) (right : Bool) : V3 :=
  let f := frame n n.norm right
  center.add (((f.1.smul (Real.cos theta)).add (f.2.smul (Real.sin theta))).smul r)

/-- The angle of a vector of the plane, lane_segment_3d.py:587-599. -/
noncomputable def angleOf (rnd : Nat → ℝ → ℝ) (cosx sinx : ℝ) : ℝ :=
  if rnd 5 cosx = 0 then
    if 0 < sinx then Real.pi / 2 else if sinx < 0 then 1.5 * Real.pi else 0
  else
    let theta := Real.arctan (sinx / cosx)
    if cosx < 0 then Real.pi + theta
    else if theta < 0 ∧ 0 < cosx then 2 * Real.pi + theta
    else theta

/-- `cosx` and `sinx` of `get_theta_by_coor`, lane_segment_3d.py:565-586, for `delta2` as given; `none` stands for `ValueError` (583). -/
noncomputable def cosSin (rnd : Nat → ℝ → ℝ) (d n : V3) (right : Bool) : Option (ℝ × ℝ) :=
  if horiz n ≠ 0 then
    let f := frame n 1 right
    let sinx := rnd 5 (d.z / f.2.z)
    if n.y ≠ 0 then some (rnd 5 ((d.x - f.2.x * sinx) / f.1.x), sinx)
    else some (rnd 5 ((d.y - f.2.y * sinx) / f.1.y), sinx)
  else if n.z = 0 then none
  else
    let s := rnd 5 d.y
    let s := if n.z < 0 then -s else s
    some (rnd 5 d.x, if right then s else -s)

/-- `get_theta_by_coor`, lane_segment_3d.py:561-600. -/
noncomputable def thetaByCoor (rnd : Nat → ℝ → ℝ) (point n center : V3) (r : ℝ) (right : Bool) : Option ℝ :=
  if rnd 3 r = 0 then some 0
  else (cosSin rnd ((point.sub center).div r) n right).map fun cs => angleOf rnd cs.1 cs.2

/-- `get_rtp_by_coor`, lane_segment_3d.py:549-558. -/
noncomputable def rtpByCoor (rnd : Nat → ℝ → ℝ) (point n center : V3) (radius : ℝ) (right : Bool) : Option (ℝ × ℝ × ℝ) :=
  let norm := n.cross (point.sub center)
  let norm := norm.div norm.norm
  let tang := norm.cross n
  let tang := (tang.div tang.norm).smul radius
  let outer := center.add tang
  let rget := (point.sub outer).norm
  (thetaByCoor rnd point norm outer rget right).bind fun theta =>
    (thetaByCoor rnd outer n center radius right).map fun phase => (rget, theta, phase)

/-! ### Straight lanes -/

/-- `StraightLane_3d`: `start`, `direction`, `length`, lane_segment_3d.py:173-211. -/
structure Straight where
  start : V3
  dir : V3
  length : ℝ

/-- `StraightLane_3d.__init__`, lane_segment_3d.py:199-206. -/
noncomputable def Straight.new (start fin : V3) : Straight :=
  let length := (fin.sub start).norm
  ⟨start, (fin.sub start).div length, length⟩

/-- `StraightLane_3d.position`, lane_segment_3d.py:213-217. -/
noncomputable def Straight.position (s : Straight) (longitudinal lateral theta : ℝ) : V3 :=
  coorByRt lateral theta s.dir (s.start.add (s.dir.smul longitudinal)) true

/-- `StraightLane_3d.local_coordinates`, lane_segment_3d.py:227-236. -/
noncomputable def Straight.coords (rnd : Nat → ℝ → ℝ) (s : Straight) (position : V3) : Option (ℝ × ℝ × ℝ) :=
  let delta := position.sub s.start
  let rget := (s.dir.cross delta).norm
  let lget := delta.dot s.dir
  let center := s.start.add (s.dir.smul lget)
  if rnd 3 rget = 0 then some (lget, rget, 0)
  else (thetaByCoor rnd position s.dir center rget true).map fun theta => (lget, rget, theta)

/-! ### Circular lanes -/

/-- `CircularLane_3d_v1`, lane_segment_3d.py:293-351. -/
structure Circular where
  center : V3
  radius : ℝ
  n : V3
  startPhase : ℝ
  endPhase : ℝ
  right : Bool
  length : ℝ

/-- The phases after lines 332-340 of lane_segment_3d.py. -/
noncomputable def adjust (startPhase endPhase : ℝ) (right : Bool) : ℝ × ℝ :=
  let e := if right = true ∧ endPhase ≤ startPhase then endPhase + 2 * Real.pi else endPhase
  let s := if right = false ∧ startPhase ≤ e then startPhase + 2 * Real.pi else startPhase
  if 2 * Real.pi < max s e then (s - 2 * Real.pi, e - 2 * Real.pi) else (s, e)

/-- `CircularLane_3d_v1.__init__`, lane_segment_3d.py:297-351; the vectors `a` and `b`, which only serve plotting, are left out (`none` for the `ValueError` of
line 329). -/
noncomputable def Circular.new (center : V3) (radius : ℝ) (norm_vec : V3) (startPhase endPhase : ℝ) (right : Bool) : Option Circular :=
  let n := norm_vec.div norm_vec.norm
  if horiz n = 0 ∧ n.z = 0 then none
  else
    let p := adjust startPhase endPhase right
    some ⟨center, radius, n, p.1, p.2, right, |radius * (p.2 - p.1)|⟩

/-- `get_outer_center`, lane_segment_3d.py:382-387. -/
noncomputable def Circular.outer (c : Circular) (longitudinal : ℝ) : V3 :=
  coorByRt c.radius (c.startPhase + (c.endPhase - c.startPhase) * longitudinal / c.length) c.n c.center c.right

/-- `CircularLane_3d_v1.position`, lane_segment_3d.py:353-358. -/
noncomputable def Circular.position (c : Circular) (longitudinal lateral theta : ℝ) : V3 :=
  let outer := c.outer longitudinal
  let cross := c.n.cross (outer.sub c.center)
  coorByRt lateral theta (cross.div cross.norm) outer true

/-- The phase and the longitudinal coordinate, lane_segment_3d.py:375-379. -/
noncomputable def Circular.longOf (c : Circular) (phase : ℝ) : ℝ :=
  let p := if phase < c.startPhase ∧ phase < c.endPhase then phase + 2 * Real.pi else phase
  let p := if c.startPhase < p ∧ c.endPhase < p then p - 2 * Real.pi else p
  (p - c.startPhase) * c.length / (c.endPhase - c.startPhase)

/-- `CircularLane_3d_v1.local_coordinates`, lane_segment_3d.py:371-380. -/
noncomputable def Circular.coords (rnd : Nat → ℝ → ℝ) (c : Circular) (position : V3) : Option (ℝ × ℝ × ℝ) :=
  (rtpByCoor rnd position c.n c.center c.radius c.right).map fun rtp => (c.longOf rtp.2.2, rtp.1, rtp.2.1)

open scoped Classical in
/-- `get_center_radius`, lane_segment_3d.py:622-638; `none` for the failing assertion. -/
noncomputable def centerRadius (start fin n : V3) (phase : ℝ) (right : Bool) : Option (V3 × ℝ) :=
  if 0 < phase ∧ phase < 2 * Real.pi ∧ start ≠ fin then
    let ln := if right then n.cross (start.sub fin) else n.cross (fin.sub start)
    let ln := ln.div ln.norm
    let mid := (fin.add start).div 2
    let l := (fin.sub start).norm / 2
    if phase = Real.pi then some (mid, l / 2)
    else
      let theta := if Real.pi < phase then (phase - Real.pi) / 2 else phase / 2
      some (mid.add (ln.smul (l / Real.tan theta)), l / Real.sin theta)
  else none

/-- `CircularLane_3d_v2.__init__`, lane_segment_3d.py:494-525. -/
noncomputable def Circular.fromEnds (rnd : Nat → ℝ → ℝ) (start fin norm_vec : V3) (deltaPhase : ℝ) (right : Bool) : Option Circular :=
  (centerRadius start fin norm_vec deltaPhase right).bind fun cr =>
    (thetaByCoor rnd start norm_vec cr.1 cr.2 right).bind fun sp =>
      (thetaByCoor rnd fin norm_vec cr.1 cr.2 right).bind fun ep =>
        Circular.new cr.1 cr.2 norm_vec sp ep right

/-! ### Lanes -/

/-- A segment of either kind. -/
inductive Segment
  | straight (s : Straight)
  | circular (c : Circular)

noncomputable def Segment.coords (rnd : Nat → ℝ → ℝ) : Segment → V3 → Option (ℝ × ℝ × ℝ)
  | .straight s, p => s.coords rnd p
  | .circular c, p => c.coords rnd p

def Segment.length : Segment → ℝ
  | .straight s => s.length
  | .circular c => c.length

end Verif.Lane3d
