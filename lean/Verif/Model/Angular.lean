import Verif.Spec.Angle
import Mathlib.Data.List.Sort

/-!
Model of verse/analysis/parsed_wrap/bounded_angular.py. `p` stands for `np.pi`: floats are modelled by
an ordered field with a floor, exactly. A returned pair of numbers is `ABound.one`, a returned pair or
list of pairs is `ABound.many`.
-/

set_option autoImplicit false
set_option linter.unusedSectionVars false

namespace Verif.Ang

open Verif.Spec

variable {K : Type} [Field K] [LinearOrder K]

/-- Python's `%` on floats with a positive modulus, and `np.mod`. -/
def fmod [FloorRing K] (x m : K) : K := x - m * ⌊x / m⌋

/-- verse/analysis/parsed_wrap/bounded_angular.py:5-9 `wrap_angle`. -/
def wrapAngle [FloorRing K] (p angle : K) : K :=
  if fmod angle (2 * p) = p then p else fmod (angle + p) (2 * p) - p

/-- verse/analysis/parsed_wrap/bounded_angular.py:11-23 `angle_in_wrapped_interval`. -/
def inWrapped [FloorRing K] (p angle angMin angMax : K) : Bool :=
  let angle := wrapAngle p angle
  let angMin := wrapAngle p angMin
  let angMax := wrapAngle p angMax
  if angMin ≤ angMax then decide (angMin ≤ angle) && decide (angle ≤ angMax)
  else decide (angle ≥ angMin) || decide (angle ≤ angMax)

/-- The loop `while diff_min < 0: diff_min += 2*np.pi; n += 1` of
verse/analysis/parsed_wrap/bounded_angular.py:273-275, with a bound on the number of rounds. -/
def raiseLoop (p : K) : Nat → K → Nat → K × Nat
  | 0, d, n => (d, n)
  | fuel + 1, d, n => if d < 0 then raiseLoop p fuel (d + 2 * p) (n + 1) else (d, n)

/-- verse/analysis/parsed_wrap/bounded_angular.py:256-289 `angular_bounds_diff_correct`. The loop runs
until the value is not negative: `⌈-d / 2p⌉` rounds are enough (`raiseLoop_spec`). -/
def angDiff [FloorRing K] (p : K) (theta ref : K × K) : ABound K :=
  if (theta.1 = -p ∧ theta.2 = p) ∨ (ref.1 = -p ∧ ref.2 = p) then .one (-p) p
  else
    let rawMin := theta.1 - ref.2
    let rawMax := theta.2 - ref.1
    let r := raiseLoop p ⌈-rawMin / (2 * p)⌉₊ rawMin 0
    let diffMin := r.1
    let diffMax := rawMax + 2 * p * r.2
    if diffMin ≤ p ∧ p ≤ diffMax then .many [(diffMin, p), (-p, diffMax - 2 * p)]
    else
      let minW := wrapAngle p diffMin
      let maxW := wrapAngle p diffMax
      if minW > maxW then .many [(minW, p), (-p, maxW)] else .one minW maxW

/-! ### Merging intervals -/

/-- verse/analysis/parsed_wrap/bounded_angular.py:312-323: splitting the bounds into intervals.
`isinstance(bound[0], tuple)` raises `IndexError` on an empty bound. -/
def normBound (p : K) : ABound K → Except String (List (K × K))
  | .many [] => .error "IndexError"
  | .many l => .ok l
  | .one lo hi => .ok (if lo > hi then [(lo, p), (-p, hi)] else [(lo, hi)])

/-- verse/analysis/parsed_wrap/bounded_angular.py:328-333 `sort_key`, compared as Python compares the
pairs `(0, start)` and `(1, start)`. -/
def keyLe (a b : K × K) : Prop :=
  if 0 ≤ a.1 then (if 0 ≤ b.1 then a.1 ≤ b.1 else True) else (if 0 ≤ b.1 then False else a.1 ≤ b.1)

instance (a b : K × K) : Decidable (keyLe a b) := by unfold keyLe; infer_instance

/-- verse/analysis/parsed_wrap/bounded_angular.py:356-367 `_intervals_overlap_or_adjacent`. -/
def overlap (a b : K × K) : Bool :=
  if a.1 ≤ a.2 ∧ b.1 ≤ b.2 then decide (a.1 ≤ b.2) && decide (b.1 ≤ a.2) else false

/-- verse/analysis/parsed_wrap/bounded_angular.py:337-349: the merging loop; `last` is `merged[-1]`. -/
def mergeFrom (last : K × K) : List (K × K) → List (K × K)
  | [] => [last]
  | c :: cs =>
    if overlap last c then mergeFrom (min last.1 c.1, max last.2 c.2) cs else last :: mergeFrom c cs

/-- The last index of `range(n)` with a property; `none` stands for `-1`. -/
def lastIdx (q : Nat → Bool) (n : Nat) : Option Nat :=
  (List.range n).foldl (fun acc i => if q i then some i else acc) none

/-- verse/analysis/parsed_wrap/bounded_angular.py:370-401 `_intervals_overlap_or_adjacent_wrapped`. -/
def joinWrapped (m : List (K × K)) : List (K × K) :=
  if m.length < 2 then m
  else
    match lastIdx (fun i => match m[i]? with | some iv => decide (0 ≤ iv.1) | none => false) m.length with
    | none => m
    | some lp =>
      if lp = m.length - 1 then m
      else
        match m.getLast? with
        | none => m
        | some lastNeg =>
          if lastNeg.2 ≤ 0 then m
          else
            match lastIdx (fun i => match m[i]? with | some iv => decide (lastNeg.2 > iv.2) | none => false) (lp + 1) with
            | none => m
            | some k =>
              match m[k]? with
              | none => m
              | some iv => m.take (lp - k) ++ [(lastNeg.1, iv.2)]

/-- verse/analysis/parsed_wrap/bounded_angular.py:404-426 `_format_bounds`. The pair `(pos, neg)` is
given as a list. -/
def formatBounds (m : List (K × K)) : List (K × K) :=
  let pos := m.filter (fun iv => decide (0 ≤ iv.1))
  let neg := m.filter (fun iv => decide (iv.2 ≤ 0))
  match pos, neg with
  | a :: _, b :: _ => [a, b]
  | _ :: _, [] => pos
  | [], _ :: _ => neg
  | [], [] => m

/-- verse/analysis/parsed_wrap/bounded_angular.py:291-353 `combine_angular_bounds`. -/
def combineBounds (p : K) (bounds : List (ABound K)) : Except String (List (K × K)) :=
  (bounds.mapM (normBound p)).map fun parts =>
    match parts.flatten.insertionSort keyLe with
    | [] => []
    | first :: rest =>
      let merged := mergeFrom first rest
      formatBounds (if merged.length > 1 then joinWrapped merged else merged)

/-! ### Directions between rectangles -/

/-- A rectangle `[xmin, xmax, ymin, ymax]`. -/
structure RectXY (K : Type) where
  xmin : K
  xmax : K
  ymin : K
  ymax : K

/-- verse/analysis/parsed_wrap/bounded_angular.py:183-190 `rect_corners`; a point is a pair. -/
def RectXY.corners (r : RectXY K) : List (K × K) :=
  [(r.xmin, r.ymin), (r.xmin, r.ymax), (r.xmax, r.ymin), (r.xmax, r.ymax)]

/-- `array.min()`, on a non-empty array. -/
def minList : List K → K
  | [] => 0
  | a :: l => l.foldl min a

/-- `array.max()`, on a non-empty array. -/
def maxList : List K → K
  | [] => 0
  | a :: l => l.foldl max a

/-- verse/analysis/parsed_wrap/bounded_angular.py:211-225: the interval for a list of angles. -/
def spanOf [FloorRing K] (p : K) (angles : List K) : K × K :=
  let amin := minList angles
  let amax := maxList angles
  if amax - amin ≤ p then (amin, amax)
  else
    let mods := angles.map fun a => fmod a (2 * p)
    let amin := minList mods
    let amax := maxList mods
    (if amin > p then amin - 2 * p else amin, if amax > p then amax - 2 * p else amax)

/-- verse/analysis/parsed_wrap/bounded_angular.py:205-208: the vectors from the corners of one rectangle to
the corners of the other. -/
def cornerVecs (r1 r2 : RectXY K) : List (K × K) :=
  r2.corners.flatMap fun c2 => r1.corners.map fun c1 => (c2.1 - c1.1, c2.2 - c1.2)

/-- verse/analysis/parsed_wrap/bounded_angular.py:192-225 `angular_span_between_rects`; `at2` is
`np.arctan2`. -/
def spanBetween [FloorRing K] (p : K) (at2 : K → K → K) (r1 r2 : RectXY K) : K × K :=
  if (r1.xmin < r2.xmin ∧ r2.xmin < r1.xmax ∧ r1.ymin < r2.ymin ∧ r2.ymin < r1.ymax) ∨
     (r2.xmin < r1.xmin ∧ r1.xmin < r2.xmax ∧ r2.ymin < r1.ymin ∧ r1.ymin < r2.ymax) then (-p, p)
  else spanOf p ((cornerVecs r1 r2).map fun v => at2 v.2 v.1)

/-- verse/analysis/parsed_wrap/bounded_angular.py:241-253 `angular_span_rect_parser`. -/
def spanRectParser [FloorRing K] (p : K) (at2 : K → K → K) (yb xb : K × K) : ABound K :=
  let r := spanBetween p at2 ⟨0, 0, 0, 0⟩ ⟨xb.1, xb.2, yb.1, yb.2⟩
  if r.1 ≤ r.2 then .one r.1 r.2 else .many [(r.1, p), (-p, r.2)]

/-- verse/analysis/parsed_wrap/bounded_angular.py:227-239 `angular_span_rect`. -/
def spanRect [FloorRing K] (p : K) (at2 : K → K → K) (r : RectXY K) (split : Bool) : List (K × K) :=
  let t := spanBetween p at2 ⟨0, 0, 0, 0⟩ r
  if split = false ∨ t.1 < t.2 then [(t.1, t.2)] else [(t.1, p), (-p, t.2)]

/-- verse/analysis/parsed_wrap/bounded_angular.py:151-181 `angular_bounds_rectangle`: directions of the
vectors from the points of the rectangle to the origin. -/
def boundsRectangle [FloorRing K] (p : K) (at2 : K → K → K) (xb yb : K × K) : K × K :=
  let r : RectXY K := ⟨-xb.2, -xb.1, -yb.2, -yb.1⟩
  let angles := r.corners.map fun c => at2 c.2 c.1
  if (r.xmin < 0 ∧ 0 < r.xmax) ∧ (r.ymin < 0 ∧ 0 < r.ymax) then (-p, p)
  else if ¬ (r.xmax < 0 ∧ (r.ymin < 0 ∧ 0 < r.ymax)) then (minList angles, maxList angles)
  else
    let mods := angles.map fun a => fmod a (2 * p)
    (fmod (minList mods + p) (2 * p) - p, fmod (maxList mods + p) (2 * p) - p)

end Verif.Ang
