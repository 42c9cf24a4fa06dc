import Verif.Model.Basic
import Mathlib.Algebra.Order.Field.Basic
import Mathlib.Analysis.SpecialFunctions.Complex.Arg

/-!
Lanes: `verse/map/lane_segment.py`, `verse/map/lane.py`, `verse/map/lane_map.py`, and the enclosures of lane coordinates over boxes in
`verse/automaton/guard.py`. Straight lanes are over any ordered field (so that examples can be computed with rationals), circular
lanes over the reals. Floating point is replaced by exact arithmetic, numpy arrays of length two by pairs.
-/

set_option autoImplicit false

namespace Verif.Lane

variable {K : Type}

/-! ### Straight lanes -/

/-- The attributes of a `StraightLane` that its methods use: `start`, `direction`, `length`, `longitudinal_start`.
verse/map/lane_segment.py:173-194. -/
structure Straight (K : Type) where
  start : K × K
  dir : K × K
  length : K
  longStart : K
deriving DecidableEq

/-- `np.linalg.norm` of a pair. -/
noncomputable def norm2 (v : ℝ × ℝ) : ℝ := Real.sqrt (v.1 * v.1 + v.2 * v.2)

/-- `StraightLane.__init__`, verse/map/lane_segment.py:160-194: the direction is the normalised difference of the end points. -/
noncomputable def Straight.new (start fin : ℝ × ℝ) : Straight ℝ where
  start := start
  dir := ((fin.1 - start.1) / norm2 (fin.1 - start.1, fin.2 - start.2), (fin.2 - start.2) / norm2 (fin.1 - start.1, fin.2 - start.2))
  length := norm2 (fin.1 - start.1, fin.2 - start.2)
  longStart := 0

section
variable [Field K]

/-- `direction_lateral`, verse/map/lane_segment.py:189. -/
def Straight.latDir (l : Straight K) : K × K := (-l.dir.2, l.dir.1)

/-- `StraightLane.local_coordinates`, verse/map/lane_segment.py:205-209: (longitudinal, lateral). -/
def Straight.coords (l : Straight K) (p : K × K) : K × K :=
  let d := (p.1 - l.start.1, p.2 - l.start.2)
  (d.1 * l.dir.1 + d.2 * l.dir.2, d.1 * l.latDir.1 + d.2 * l.latDir.2)

/-- `StraightLane.position`, verse/map/lane_segment.py:196-197. -/
def Straight.position (l : Straight K) (longitudinal lateral : K) : K × K :=
  (l.start.1 + longitudinal * l.dir.1 + lateral * l.latDir.1, l.start.2 + longitudinal * l.dir.2 + lateral * l.latDir.2)

variable [LinearOrder K]

/-- `_handle_longitudinal_set` for a straight lane, verse/automaton/guard.py:599-615; `lo` and `hi` are the corners of the box. -/
def Straight.encloseLong (l : Straight K) (lo hi : K × K) : K × K :=
  let d0 := (lo.1 - l.start.1, lo.2 - l.start.2)
  let d1 := (hi.1 - l.start.1, hi.2 - l.start.2)
  let low := min (d0.1 * l.dir.1) (d1.1 * l.dir.1) + min (d0.2 * l.dir.2) (d1.2 * l.dir.2)
  let high := max (d0.1 * l.dir.1) (d1.1 * l.dir.1) + max (d0.2 * l.dir.2) (d1.2 * l.dir.2)
  (low + l.longStart, high + l.longStart)

/-- `_handle_lateral_set` for a straight lane, verse/automaton/guard.py:662-679. -/
def Straight.encloseLat (l : Straight K) (lo hi : K × K) : K × K :=
  let d0 := (lo.1 - l.start.1, lo.2 - l.start.2)
  let d1 := (hi.1 - l.start.1, hi.2 - l.start.2)
  (min (d0.1 * l.latDir.1) (d1.1 * l.latDir.1) + min (d0.2 * l.latDir.2) (d1.2 * l.latDir.2),
    max (d0.1 * l.latDir.1) (d1.1 * l.latDir.1) + max (d0.2 * l.latDir.2) (d1.2 * l.latDir.2))

end

/-! ### Circular lanes -/

/-- `np.arctan2(y, x)`, in (-π, π]. -/
noncomputable def arctan2 (y x : ℝ) : ℝ := Complex.arg ⟨x, y⟩

/-- `x % m` for `m > 0`, in [0, m). -/
noncomputable def fmod (x m : ℝ) : ℝ := x - m * ⌊x / m⌋

/-- `wrap_to_pi`, verse/utils/utils.py:60-61. -/
noncomputable def wrapToPi (x : ℝ) : ℝ := fmod (x + Real.pi) (2 * Real.pi) - Real.pi

/-- A `CircularLane`, verse/map/lane_segment.py:236-264. -/
structure Circular where
  center : ℝ × ℝ
  radius : ℝ
  startPhase : ℝ
  endPhase : ℝ
  clockwise : Bool
  longStart : ℝ

namespace Circular

/-- `direction`, verse/map/lane_segment.py:256. -/
def direction (l : Circular) : ℝ := if l.clockwise then -1 else 1

/-- `length`, verse/map/lane_segment.py:260. -/
def length (l : Circular) : ℝ := l.radius * (l.endPhase - l.startPhase) * l.direction

/-- `CircularLane.position`, verse/map/lane_segment.py:266-270. -/
noncomputable def position (l : Circular) (longitudinal lateral : ℝ) : ℝ × ℝ :=
  let phi := l.direction * longitudinal / l.radius + l.startPhase
  (l.center.1 + (l.radius - lateral * l.direction) * Real.cos phi, l.center.2 + (l.radius - lateral * l.direction) * Real.sin phi)

/-- `CircularLane.heading_at`, verse/map/lane_segment.py:272-275. -/
noncomputable def headingAt (l : Circular) (longitudinal : ℝ) : ℝ :=
  let phi := l.direction * longitudinal / l.radius + l.startPhase
  wrapToPi (phi + Real.pi / 2 * l.direction)

/-- `CircularLane.local_coordinates`, verse/map/lane_segment.py:280-287. -/
noncomputable def coords (l : Circular) (p : ℝ × ℝ) : ℝ × ℝ :=
  let d := (p.1 - l.center.1, p.2 - l.center.2)
  let phi := arctan2 d.2 d.1
  let phi := l.startPhase + wrapToPi (phi - l.startPhase)
  let r := norm2 d
  (l.direction * (phi - l.startPhase) * l.radius, l.direction * (l.radius - r))

/-- `_handle_longitudinal_set` for a circular lane, verse/automaton/guard.py:616-657. -/
noncomputable def encloseLong (l : Circular) (lo hi : ℝ × ℝ) : ℝ × ℝ :=
  let d0 := (lo.1 - l.center.1, lo.2 - l.center.2)
  let d1 := (hi.1 - l.center.1, hi.2 - l.center.2)
  let phi0 := min (min (arctan2 d0.2 d0.1) (arctan2 d0.2 d1.1)) (min (arctan2 d1.2 d0.1) (arctan2 d1.2 d1.1))
  let phi1 := max (max (arctan2 d0.2 d0.1) (arctan2 d0.2 d1.1)) (max (arctan2 d1.2 d0.1) (arctan2 d1.2 d1.1))
  let phi0 := l.startPhase + wrapToPi (phi0 - l.startPhase)
  let phi1 := l.startPhase + wrapToPi (phi1 - l.startPhase)
  (min (l.direction * (phi0 - l.startPhase) * l.radius) (l.direction * (phi1 - l.startPhase) * l.radius) + l.longStart,
    max (l.direction * (phi0 - l.startPhase) * l.radius) (l.direction * (phi1 - l.startPhase) * l.radius) + l.longStart)

/-- `_handle_lateral_set` for a circular lane, verse/automaton/guard.py:680-712. -/
noncomputable def encloseLat (l : Circular) (lo hi : ℝ × ℝ) : ℝ × ℝ :=
  let dx := max (max (lo.1 - l.center.1) 0) (l.center.1 - hi.1)
  let dy := max (max (lo.2 - l.center.2) 0) (l.center.2 - hi.2)
  let rLow := norm2 (dx, dy)
  let dx := max |lo.1 - l.center.1| |hi.1 - l.center.1|
  let dy := max |lo.2 - l.center.2| |hi.2 - l.center.2|
  let rHigh := norm2 (dx, dy)
  (min (l.direction * (l.radius - rHigh)) (l.direction * (l.radius - rLow)),
    max (l.direction * (l.radius - rHigh)) (l.direction * (l.radius - rLow)))

end Circular

/-! ### Lanes of several segments -/

/-- What a `Lane` uses of its segments: their coordinates and length. -/
structure SegOps (K Seg : Type) where
  coords : Seg → K × K → K × K
  length : Seg → K

/-- The segments of straight lanes. -/
def straightOps [Field K] : SegOps K (Straight K) := ⟨Straight.coords, Straight.length⟩

section
variable [Field K] [LinearOrder K] {Seg : Type}

/-- `Lane.COMPENSATE`, verse/map/lane.py:9. -/
def COMPENSATE : K := 3

/-- `is_on`, verse/map/lane.py:30. -/
def isOn (O : SegOps K Seg) (p : K × K) (s : Seg) : Bool :=
  decide (0 - COMPENSATE ≤ (O.coords s p).1) && decide ((O.coords s p).1 < O.length s)

/-- The loop of `Lane.get_lane_segment`, verse/map/lane.py:28-35: `best` is `(idx, seg, min_lateral)`, `none` for the initial
infinity; `i` is the index of the next segment. -/
def pickSegment (O : SegOps K Seg) (p : K × K) : List Seg → Nat → Option (Nat × Seg × K) → Option (Nat × Seg × K)
  | [], _, best => best
  | s :: ss, i, best =>
    if isOn O p s then
      match best with
      | none => pickSegment O p ss (i + 1) (some (i, s, (O.coords s p).2))
      | some b => if (O.coords s p).2 < b.2.2 then pickSegment O p ss (i + 1) (some (i, s, (O.coords s p).2))
        else pickSegment O p ss (i + 1) best
    else pickSegment O p ss (i + 1) best

/-- `Lane.get_lane_segment`, verse/map/lane.py:24-36; `none` for `(-1, None)`. -/
def getSegment (O : SegOps K Seg) (segs : List Seg) (p : K × K) : Option (Nat × Seg) :=
  (pickSegment O p segs 0 none).map (fun b => (b.1, b.2.1))

/-- `Lane.get_lateral_distance`, verse/map/lane.py:51-54. -/
def lateral (O : SegOps K Seg) (segs : List Seg) (p : K × K) : Except String K :=
  match getSegment O segs p with
  | some (_, s) => .ok (O.coords s p).2
  | none => .error "AttributeError"

/-- `Lane.get_longitudinal_position`, verse/map/lane.py:44-49. -/
def longitudinal (O : SegOps K Seg) (segs : List Seg) (p : K × K) : Except String K :=
  match getSegment O segs p with
  | some (i, s) => .ok ((O.coords s p).1 + ((segs.take i).map O.length).sum)
  | none => .error "AttributeError"

/-- `Lane._set_longitudinal_start`, verse/map/lane.py:18-22: the segments with their `longitudinal_start`; `set` stores it. -/
def setStarts (O : SegOps K Seg) (set : Seg → K → Seg) : List Seg → K → List Seg
  | [], _ => []
  | s :: ss, acc => set s acc :: setStarts O set ss (acc + O.length s)

end

/-! ### Lane names -/

/-- A decimal digit. Python's `\d` also matches other Unicode digits. -/
def isDigit (c : Char) : Bool := '0' ≤ c && c ≤ '9'

/-- `[A-Z]` -/
def isUpper (c : Char) : Bool := 'A' ≤ c && c ≤ 'Z'

/-- `VIRT_LANE.match`, verse/map/lane_map.py:10: a prefix `M\d\d`. -/
def isVirt : List Char → Bool
  | 'M' :: a :: b :: _ => isDigit a && isDigit b
  | _ => false

/-- The rest after a non-empty longest prefix of characters with `f`; `none` if there is no such prefix. -/
def eat (f : Char → Bool) (s : List Char) : Option (List Char) :=
  if (s.takeWhile f).isEmpty then none else some (s.dropWhile f)

/-- The rest after `_`. -/
def eatUnderscore : List Char → Option (List Char)
  | '_' :: s => some s
  | _ => none

/-- `INTERSECT_VIRT_LANE.match`, verse/map/lane_map.py:13: a prefix `[A-Z]+_\d+_\d+`. -/
def isIntersectVirt (s : List Char) : Bool :=
  ((eat isUpper s).bind eatUnderscore |>.bind (eat isDigit) |>.bind eatUnderscore |>.bind (eat isDigit)).isSome

/-- `s.rsplit("_", 1)[0]`: everything before the last underscore (all, if there is none). -/
def beforeLastUnderscore (s : List Char) : List Char :=
  if '_' ∈ s then ((s.reverse.dropWhile (fun c => c != '_')).drop 1).reverse else s

/-- `LaneMap.get_phys_lane`, verse/map/lane_map.py:34-49, on the characters of the name. -/
def physLane (s : List Char) : List Char :=
  if isVirt s then 'T' :: (s.drop 1).take 1
  else if isIntersectVirt s then beforeLastUnderscore s
  else s

/-- `LaneMap.h`, verse/map/lane_map.py:99-108. The name of an enum member stands for the member. -/
def h (d : Dict (String × String × String) String) (lane src dest : String) : Except String (Option String) :=
  if d.isEmpty then .ok none
  else match Dict.get? d (lane, src, dest) with
    | some m => .ok (some m)
    | none => .error "KeyError"

/-- `LaneMap.h_exist`, verse/map/lane_map.py:110-120. -/
def hExist (d : Dict (String × String × String) String) (lane src dest : String) : Bool := Dict.mem d (lane, src, dest)

end Verif.Lane
