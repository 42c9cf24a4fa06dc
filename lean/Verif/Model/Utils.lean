import Verif.Model.Basic
import Mathlib.Algebra.Order.Floor.Ring
import Mathlib.Algebra.Order.Field.Basic

/-!
Numeric and geometric helpers of `verse/utils/utils.py`. (`dedup`, 428-437, is `dedupBy` in `Verif.Model.Basic`.)

Simplifications: numbers are elements of an ordered field; `np.pi` is a parameter `p` (positive); `np.cos`, `np.sin` of an angle are parameters `c`, `s`; points are pairs.
-/

set_option autoImplicit false

namespace Verif.Utl

variable {K : Type} [Field K] [LinearOrder K]

/-- `lmap`, 32-34. -/
def lmap (v : K) (x y : K × K) : K := y.1 + (v - x.1) * (y.2 - y.1) / (x.2 - x.1)

/-- `not_zero`, 51-57. -/
def notZero (x eps : K) : K := if eps < |x| then x else if 0 ≤ x then eps else -eps

/-- `wrap_to_pi`, 60-61; `%` is the remainder of the division rounded down. -/
def wrapToPi [FloorRing K] (p x : K) : K := (x + p - 2 * p * (⌊(x + p) / (2 * p)⌋ : K)) - p

/-- `l * k` for a list and an integer. -/
def repeatInt {α : Type} (k : Int) (a : α) : List α := List.replicate k.toNat a

/-- `near_split`, 345-360, with `num_bins`: `None` if it is 0. `divmod` rounds down. -/
def nearSplit (x numBins : Int) : Option (List Int) :=
  if numBins = 0 then none
  else some (repeatInt (x.fmod numBins) (x.fdiv numBins + 1) ++ repeatInt (numBins - x.fmod numBins) (x.fdiv numBins))

/-- `near_split` with `size_bins`: `np.ceil(x / size_bins)` bins. -/
def nearSplitSize (x size : Int) : Option (List Int) := if size = 0 then none else nearSplit x ⌈(x : ℚ) / (size : ℚ)⌉

/-- `point_in_rectangle`, 64-72. -/
def pointInRectangle (q lo hi : K × K) : Bool := decide (lo.1 ≤ q.1 ∧ q.1 ≤ hi.1 ∧ lo.2 ≤ q.2 ∧ q.2 ≤ hi.2)

/-- `point_in_rotated_rectangle`, 75-91. -/
def pointInRotated (q center : K × K) (length width c s : K) : Bool :=
  pointInRectangle (c * (q.1 - center.1) - s * (q.2 - center.2), s * (q.1 - center.1) + c * (q.2 - center.2)) (-length / 2, -width / 2) (length / 2, width / 2)

/-- `rect_corners`, 127-158: the corners, then (with both options, as used) the center and the midpoints of the edges. -/
def rectCorners (center : K × K) (length width c s : K) (extra : Bool) : List (K × K) :=
  ([(-(length / 2), -(width / 2)), (-(length / 2), width / 2), (length / 2, width / 2), (length / 2, -(width / 2))] ++
    (if extra then [(0, 0), (-(length / 2), 0), (length / 2, 0), (0, -(width / 2)), (0, width / 2)] else [])).map
    (fun v => (c * v.1 - s * v.2 + center.1, s * v.1 + c * v.2 + center.2))

/-- `has_corner_inside`, 161-172. A rectangle is given by center, length, width, and cosine and sine of its angle. -/
def hasCornerInside (r1 r2 : (K × K) × K × K × K × K) : Bool :=
  (rectCorners r1.1 r1.2.1 r1.2.2.1 r1.2.2.2.1 r1.2.2.2.2 true).any (fun q => pointInRotated q r2.1 r2.2.1 r2.2.2.1 r2.2.2.2.1 r2.2.2.2.2)

/-- `rotated_rectangles_intersect`, 114-124. -/
def rotatedIntersect (r1 r2 : (K × K) × K × K × K × K) : Bool := hasCornerInside r1 r2 || hasCornerInside r2 r1

/-- The loop of `project_polygon`, 175-183. -/
def projectLoop (axis : K × K) : List (K × K) → Option (K × K) → Option (K × K)
  | [], acc => acc
  | q :: ps, none => projectLoop axis ps (some (q.1 * axis.1 + q.2 * axis.2, q.1 * axis.1 + q.2 * axis.2))
  | q :: ps, some (lo, hi) => projectLoop axis ps (some
      (if q.1 * axis.1 + q.2 * axis.2 < lo then q.1 * axis.1 + q.2 * axis.2 else lo,
       if hi < q.1 * axis.1 + q.2 * axis.2 then q.1 * axis.1 + q.2 * axis.2 else hi))

/-- `project_polygon`, 175-183; `none` for `(None, None)`. -/
def projectPolygon (polygon : List (K × K)) (axis : K × K) : Option (K × K) := projectLoop axis polygon none

/-- `interval_distance`, 186-191. -/
def intervalDistance (minA maxA minB maxB : K) : K := if minA < minB then minB - maxA else minA - maxB

/-- The normal vector of an edge, 213-214. -/
def normalOf (norm : K × K → K) (p1 p2 : K × K) : K × K :=
  ((-p2.2 + p1.2) / norm (-p2.2 + p1.2, p2.1 - p1.1), (p2.1 - p1.1) / norm (-p2.2 + p1.2, p2.1 - p1.1))

/-- The two flags of the loop of `are_polygons_intersecting`, 212-232, over the edges of one polygon; `norm` is the norm of the normal vector. -/
def edgeLoop (norm : K × K → K) (a b : List (K × K)) (v : K × K) : List ((K × K) × (K × K)) → Bool × Bool → Except String (Bool × Bool)
  | [], st => .ok st
  | (p1, p2) :: es, st =>
    match projectPolygon a (normalOf norm p1 p2), projectPolygon b (normalOf norm p1 p2) with
    | some (minA, maxA), some (minB, maxB) =>
      let vp := (normalOf norm p1 p2).1 * v.1 + (normalOf norm p1 p2).2 * v.2
      let intersecting := if 0 < intervalDistance minA maxA minB maxB then false else st.1
      let d := if vp < 0 then intervalDistance (minA + vp) maxA minB maxB else intervalDistance minA (maxA + vp) minB maxB
      let will := if 0 < d then false else st.2
      if !intersecting && !will then .ok (intersecting, will) else edgeLoop norm a b v es (intersecting, will)
    | _, _ => .error "TypeError"

/-- `are_polygons_intersecting`, 194-239, without the translation vector; `v` is the difference of the displacements. -/
def arePolygonsIntersecting (norm : K × K → K) (a b : List (K × K)) (v : K × K) : Except String (Bool × Bool) :=
  (edgeLoop norm a b v (a.zip a.tail) (true, true)).bind fun st => edgeLoop norm a b v (b.zip b.tail) st

/-- `sample_rect`, 416-422: `np.random.uniform(lo, hi)` is `lo + u * (hi - lo)` for numbers `u` in `[0, 1)`. -/
def sampleRect (lo hi u : List K) : List K := List.zipWith (fun (i : K × K) u => i.1 + u * (i.2 - i.1)) (lo.zip hi) u

end Verif.Utl
